import Verif.Model.Special
import Verif.Model.Species
import Verif.Props.Geometry

/-!
# Embedding the real model into reals with special values

Changing the number type of the data structures, and the equations `f (fin args) = fin (f args)` for the functions of the model:
as long as no division by zero, root or logarithm of a negative number is met, the computation with special values is the exact
one.
-/

namespace Trento
open XReal
variable {F G E D : Type}

/-- change of the number type -/
def Constituent.map (f : F → G) (c : Constituent F) : Constituent G := ⟨f c.x, f c.y, f c.fluctuation⟩
/-- change of the number type -/
def NucleonData.map (f : F → G) (n : NucleonData F) : NucleonData G :=
  ⟨f n.x, f n.y, f n.z, n.isParticipant, n.constituentsExist, n.constituents.map (Constituent.map f)⟩
/-- change of the number type -/
def Kind.map (f : F → G) : Kind F → Kind G
  | .proton => .proton
  | .deuteron a b => .deuteron (f a) (f b)
  | .woodsSaxon R a d => .woodsSaxon (f R) (f a) (f d)
  | .deformed R a b2 b4 rm d => .deformed (f R) (f a) (f b2) (f b4) (f rm) (f d)
  | .manual cs rm => .manual (cs.map (List.map fun p => (f p.1, f p.2.1, f p.2.2))) (f rm)
/-- change of the number type -/
def Nucleus.map (f : F → G) (n : Nucleus F) : Nucleus G := ⟨n.kind.map f, n.nucleons.map (NucleonData.map f), f n.offset⟩
/-- change of the number type -/
def FastExp.map (f : F → G) (e : FastExp F) : FastExp G := ⟨f e.xmin, f e.xmax, f e.dx, e.table.map f⟩
/-- change of the number type -/
def NucleonCommon.map (f : F → G) (c : NucleonCommon F) : NucleonCommon G :=
  { fastExp := c.fastExp.map f, nucleonWidth := f c.nucleonWidth, constituentWidth := f c.constituentWidth,
    constituentNumber := c.constituentNumber, samplingWidth := f c.samplingWidth, maxImpactSq := f c.maxImpactSq,
    constituentWidthSq := f c.constituentWidthSq, constituentRadiusSq := f c.constituentRadiusSq,
    sigmaPartonic := f c.sigmaPartonic, prefactor := f c.prefactor, calcNcoll := c.calcNcoll,
    gammaAlpha := f c.gammaAlpha, gammaBeta := f c.gammaBeta }
/-- change of the number type -/
def Box.map (f : F → G) (b : Box F) : Box G := ⟨f b.xmin, f b.xmax, f b.ymin, f b.ymax⟩
/-- change of the number type -/
def EventCfg.map (f : F → G) (c : EventCfg F) : EventCfg G := ⟨f c.norm, f c.dxy, c.nsteps, f c.xymax, f c.p⟩
/-- change of the number type -/
def Grid.map (f : F → G) {n : Nat} (g : Grid F n) : Grid G n := fun iy ix => f (g iy ix)
/-- change of the number type -/
def Ecc.map (f : F → G) (e : Ecc F) : Ecc G := ⟨f e.e2, f e.e3, f e.e4, f e.e5⟩
/-- change of the number type -/
def Collider.map (f : F → G) (c : Collider F) : Collider G :=
  { nucleusA := c.nucleusA.map f, nucleusB := c.nucleusB.map f, nc := c.nc.map f, nevents := c.nevents, calcNcoll := c.calcNcoll,
    bmin := f c.bmin, bmax := f c.bmax, asymmetry := f c.asymmetry }
/-- change of the number type -/
def Options.map (f : F → G) (o : Options F) : Options G :=
  { projectileA := o.projectileA.map f, projectileB := o.projectileB.map f, numberEvents := o.numberEvents, ncoll := o.ncoll,
    reducedThickness := f o.reducedThickness, fluctuation := f o.fluctuation, nucleonWidth := f o.nucleonWidth,
    constitWidth := f o.constitWidth, constitNumber := o.constitNumber, crossSection := f o.crossSection,
    normalization := f o.normalization, bMin := f o.bMin, bMax := f o.bMax, randomSeed := o.randomSeed, gridMax := f o.gridMax,
    gridStep := f o.gridStep }
/-- The abbreviations used below: everything finite. -/
abbrev finN : NucleonData ℝ → NucleonData XReal := NucleonData.map fin
/-- lists of nucleons -/
abbrev finNs : List (NucleonData ℝ) → List (NucleonData XReal) := List.map finN

section rng
variable [Rng ℝ E D]
@[simp] theorem fin_canonical (w : Rand E D) : canonical (F := XReal) w = (fin (canonical (F := ℝ) w).1, (canonical (F := ℝ) w).2) := rfl
@[simp] theorem fin_cosTheta (w : Rand E D) : cosTheta (F := XReal) w = (fin (cosTheta (F := ℝ) w).1, (cosTheta (F := ℝ) w).2) := by
  unfold cosTheta
  simp
@[simp] theorem fin_phi (w : Rand E D) : phi (F := XReal) w = (fin (phi (F := ℝ) w).1, (phi (F := ℝ) w).2) := rfl
@[simp] theorem fin_drawNormal (m s : ℝ) (w : Rand E D) :
    drawNormal (fin m) (fin s) w = (fin (drawNormal m s w).1, (drawNormal m s w).2) := rfl
@[simp] theorem fin_drawGamma (m s : ℝ) (w : Rand E D) :
    drawGamma (fin m) (fin s) w = (fin (drawGamma m s w).1, (drawGamma m s w).2) := rfl
@[simp] theorem fin_drawIndex (k : ℕ) (w : Rand E D) : drawIndex XReal k w = drawIndex ℝ k w := rfl
theorem fin_drawPiecewiseLinear (t : List (ℝ × ℝ)) (w : Rand E D) :
    drawPiecewiseLinear (t.map fun p => (fin p.1, fin p.2)) w = (fin (drawPiecewiseLinear t w).1, (drawPiecewiseLinear t w).2) := by
  unfold drawPiecewiseLinear
  have : (List.map (fun p : XReal × XReal => (p.1.toReal, p.2.toReal)) (List.map (fun p : ℝ × ℝ => (fin p.1, fin p.2)) t)) = t := by
    rw [List.map_map]; exact List.map_id t
  simp only [Rng.piecewiseLinear, this]

theorem one_sub_cosTheta_sq [LawfulRng E D] (w : Rand E D) : 0 ≤ 1 - (cosTheta (F := ℝ) w).1 * (cosTheta (F := ℝ) w).1 := by
  have h := LawfulRng.canonical_mem (D := D) w.eng
  have : (cosTheta (F := ℝ) w).1 = 2 * (Rng.canonical (F := ℝ) (D := D) w.eng).1 - 1 := by
    simp [cosTheta, canonical]
  rw [this]; nlinarith
end rng

theorem fin_spherical (r c p : ℝ) (h : 0 ≤ 1 - c * c) :
    spherical (fin r) (fin c) (fin p) = (fin (spherical r c p).1, fin (spherical r c p).2.1, fin (spherical r c p).2.2) := by
  have : sqrt (lit 1 - fin c * fin c : XReal) = fin (sqrt (lit 1 - c * c)) := by
    simp only [fin_lit, fin_mul, fin_sub]
    exact fin_sqrt (by simpa using h)
  unfold spherical
  rw [this]
  simp only [fin_mul, fin_cos, fin_sin]

theorem fin_setNucleonPosition (o : ℝ) (n : NucleonData ℝ) (x y z : ℝ) :
    setNucleonPosition (fin o) (finN n) (fin x) (fin y) (fin z) = finN (setNucleonPosition o n x y z) := rfl

theorem fin_isTooClose (d : ℝ) (ns : List (NucleonData ℝ)) (n : NucleonData ℝ) :
    isTooClose (fin d) (finNs ns) (finN n) = isTooClose d ns n := by
  unfold isTooClose
  simp only [fin_lit, fin_lt, List.any_map]
  rfl

theorem fin_insertBy {α β : Type} (f : α → β) (key : α → ℝ) (key' : β → XReal) (hk : ∀ a, key' (f a) = fin (key a)) (a : α) (l : List α) :
    insertBy key' (f a) (l.map f) = (insertBy key a l).map f := by
  induction l with
  | nil => rfl
  | cons b bs ih =>
    simp only [List.map_cons, insertBy, hk, fin_lt]
    split
    · rw [List.map_cons, ih]
    · rfl

theorem fin_sortBy {α β : Type} (f : α → β) (key : α → ℝ) (key' : β → XReal) (hk : ∀ a, key' (f a) = fin (key a)) (l : List α) :
    sortBy key' (l.map f) = (sortBy key l).map f := by
  induction l with
  | nil => rfl
  | cons b bs ih => rw [List.map_cons, sortBy, ih, fin_insertBy f key key' hk, sortBy]

section sampling
variable [Rng ℝ E D]

theorem fin_sampleProton (o : ℝ) (ns : List (NucleonData ℝ)) : sampleProton (fin o) (finNs ns) = finNs (sampleProton o ns) := by
  cases ns <;> rfl

theorem fin_woodsSaxonTable {R a : ℝ} (ha : a ≠ 0) :
    woodsSaxonTable (fin R) (fin a) = (woodsSaxonTable R a).map fun p => (fin p.1, fin p.2) := by
  unfold woodsSaxonTable linearTable
  rw [List.map_map]
  apply List.map_congr_left
  intro k _
  have h1 : (fin (ofInt ((1000 : ℕ) : ℤ)) : XReal) ≠ fin 0 := by
    intro h; have := fin_injective h; norm_num at this
  have e1 : ((fin R + lit 10 * fin a - lit 0) / ofInt ((1000:ℕ):ℤ) : XReal) = fin ((R + lit 10 * a - lit 0) / ofInt ((1000:ℕ):ℤ)) := by
    simp only [fin_lit, fin_mul, fin_add, fin_sub, fin_ofInt]
    exact fin_div _ (by norm_num)
  have e2 : (lit 0 + ofInt (k:ℤ) * ((fin R + lit 10 * fin a - lit 0) / ofInt ((1000:ℕ):ℤ)) : XReal) =
      fin (lit 0 + ofInt (k:ℤ) * ((R + lit 10 * a - lit 0) / ofInt ((1000:ℕ):ℤ))) := by
    rw [e1]; rfl
  have e3 : ∀ r : ℝ, (fin r * fin r / (lit 1 + exp ((fin r - fin R) / fin a)) : XReal) = fin (r * r / (lit 1 + exp ((r - R)/a))) := by
    intro r
    rw [fin_sub, fin_div _ ha, fin_exp, fin_lit, fin_add, fin_mul, fin_div]
    have := Real.exp_pos ((r-R)/a)
    simp only [lit_real, exp_real, Rat.cast_one]; positivity
  simp only [Function.comp, e2, e3]

theorem fin_drawRadii {R a : ℝ} (ha : a ≠ 0) (k : ℕ) (w : Rand E D) :
    drawRadii (fin R) (fin a) k w = ((drawRadii R a k w).1.map fin, (drawRadii R a k w).2) := by
  induction k generalizing w with
  | zero => rfl
  | succ k ih =>
    unfold drawRadii
    rw [fin_woodsSaxonTable ha, fin_drawPiecewiseLinear]
    simp only [ih, List.map_cons]

variable [LawfulRng E D]

theorem fin_placeWS (o d r : ℝ) (placed : List (NucleonData ℝ)) (k : ℕ) (n : NucleonData ℝ) (w : Rand E D) :
    placeWS (fin o) (fin d) (fin r) (finNs placed) k (finN n) w = (finN (placeWS o d r placed k n w).1, (placeWS o d r placed k n w).2) := by
  induction k generalizing n w with
  | zero => rfl
  | succ k ih =>
    unfold placeWS
    simp only [fin_cosTheta, fin_phi]
    have h := one_sub_cosTheta_sq w
    rw [fin_spherical _ _ _ h]
    simp only [fin_setNucleonPosition, fin_isTooClose]
    split
    · exact ih _ _
    · rfl

theorem fin_placeAllWS (o d : ℝ) (placed : List (NucleonData ℝ)) (rs : List ℝ) (ns : List (NucleonData ℝ)) (w : Rand E D) :
    placeAllWS (fin o) (fin d) (finNs placed) (rs.map fin) (finNs ns) w =
      (finNs (placeAllWS o d placed rs ns w).1, (placeAllWS o d placed rs ns w).2) := by
  induction rs generalizing placed ns w with
  | nil => simp [placeAllWS]
  | cons r rs ih =>
    cases ns with
    | nil => simp [placeAllWS]
    | cons n ns =>
      simp only [List.map_cons, placeAllWS, fin_placeWS]
      rw [← ih]
      simp

theorem fin_sampleWS {R a : ℝ} (ha : a ≠ 0) (d o : ℝ) (ns : List (NucleonData ℝ)) (w : Rand E D) :
    sampleWS (fin R) (fin a) (fin d) (fin o) (finNs ns) w = (finNs (sampleWS R a d o ns w).1, (sampleWS R a d o ns w).2) := by
  unfold sampleWS
  simp only [List.length_map, fin_drawRadii ha]
  rw [fin_sortBy fin id id (fun _ => rfl)]
  exact fin_placeAllWS o d [] _ _ _

theorem fin_deformedDist {R a b2 b4 : ℝ} (ha : a ≠ 0) (r c : ℝ) :
    deformedDist (fin R) (fin a) (fin b2) (fin b4) (fin r) (fin c) = fin (deformedDist R a b2 b4 r c) := by
  have e1 : (sqrt (lit 5) / lit 4 : XReal) = fin (sqrt (lit 5) / lit 4) := by
    rw [fin_lit, fin_lit, fin_sqrt (by simp), fin_div _ (by simp)]
  have e2 : (lit 3 / lit 16 : XReal) = fin (lit 3 / lit 16) := by
    rw [fin_lit, fin_lit, fin_div _ (by simp)]
  unfold deformedDist
  simp only [e1, e2]
  simp only [fin_lit, fin_oneDivRootPi, fin_mul, fin_sub, fin_add]
  rw [fin_div _ ha, fin_exp, fin_add, fin_div]
  have := Real.exp_pos ((r - R * (1 + b2 * (Real.sqrt 5 / 4 * (1 / Real.sqrt Real.pi) * (3 * (c * c) - 1)) + b4 * (3 / 16 * (1 / Real.sqrt Real.pi) * (35 * (c*c) * (c*c) - 30 * (c*c) + 3)))) / a)
  simp only [lit_real, exp_real, oneDivRootPi_real, sqrt_real]
  push_cast
  positivity

omit [LawfulRng E D] in
theorem fin_deformedReject {R a b2 b4 : ℝ} (ha : a ≠ 0) (rm : ℝ) (k : ℕ) (w : Rand E D) :
    deformedReject (fin R) (fin a) (fin b2) (fin b4) (fin rm) k w =
      (deformedReject R a b2 b4 rm k w).map fun p => ((fin p.1.1, fin p.1.2), p.2) := by
  induction k generalizing w with
  | zero => rfl
  | succ k ih =>
    unfold deformedReject
    simp only [fin_canonical, fin_cosTheta, fin_cbrt, fin_mul, fin_deformedDist ha, fin_lt]
    split
    · exact ih _
    · rfl

omit [LawfulRng E D] in
theorem fin_drawDeformed {R a b2 b4 : ℝ} (ha : a ≠ 0) (fuel : ℕ) (rm : ℝ) (k : ℕ) (w : Rand E D) :
    drawDeformed fuel (fin R) (fin a) (fin b2) (fin b4) (fin rm) k w =
      (drawDeformed fuel R a b2 b4 rm k w).map fun p => (p.1.map fun q => (fin q.1, fin q.2), p.2) := by
  induction k generalizing w with
  | zero => rfl
  | succ k ih =>
    unfold drawDeformed
    rw [fin_deformedReject ha]
    cases deformedReject R a b2 b4 rm fuel w with
    | error e => rfl
    | ok p =>
      obtain ⟨s, w⟩ := p
      simp only [Except.map, ih]
      cases drawDeformed fuel R a b2 b4 rm k w with
      | error e => rfl
      | ok q => rfl

/-- change of the number type -/
def TiltSpin.map {F G : Type} (f : F → G) (t : TiltSpin F) : TiltSpin G := ⟨f t.cosA, f t.sinA, f t.cosB, f t.sinB⟩
/-- change of the number type -/
def Euler.map {F G : Type} (f : F → G) (t : Euler F) : Euler G := ⟨f t.c1, f t.s1, f t.c2, f t.s2, f t.c3, f t.s3⟩

theorem fin_drawTiltSpin (w : Rand E D) :
    drawTiltSpin (F := XReal) w = ((drawTiltSpin (F := ℝ) w).1.map fin, (drawTiltSpin (F := ℝ) w).2) := by
  unfold drawTiltSpin
  have h := one_sub_cosTheta_sq w
  simp only [fin_cosTheta, fin_phi, fin_lit, fin_mul, fin_sub, fin_cos, fin_sin]
  rw [fin_sqrt (by simpa using h)]
  rfl

theorem fin_drawEuler (w : Rand E D) :
    drawEuler (F := XReal) w = ((drawEuler (F := ℝ) w).1.map fin, (drawEuler (F := ℝ) w).2) := by
  unfold drawEuler
  have h := one_sub_cosTheta_sq (phi (F := ℝ) w).2
  simp only [fin_cosTheta, fin_phi, fin_lit, fin_mul, fin_sub, fin_cos, fin_sin]
  rw [fin_sqrt (by simpa using h)]
  rfl

theorem fin_rotateTS (t : TiltSpin ℝ) (x y z : ℝ) : rotateTS (t.map fin) (fin x) (fin y) (fin z) =
    (fin (rotateTS t x y z).1, fin (rotateTS t x y z).2.1, fin (rotateTS t x y z).2.2) := by
  simp [rotateTS, TiltSpin.map]

theorem fin_rotateEuler (t : Euler ℝ) (x y z : ℝ) : rotateEuler (t.map fin) (fin x) (fin y) (fin z) =
    (fin (rotateEuler t x y z).1, fin (rotateEuler t x y z).2.1, fin (rotateEuler t x y z).2.2) := by
  simp [rotateEuler, Euler.map]

omit [LawfulRng E D] in
theorem fin_placeDef (o d : ℝ) (t : TiltSpin ℝ) (rS : ℝ) (placed : List (NucleonData ℝ)) (k : ℕ) (z : ℝ) (n : NucleonData ℝ) (w : Rand E D) :
    placeDef (fin o) (fin d) (t.map fin) (fin rS) (finNs placed) k (fin z) (finN n) w =
      (finN (placeDef o d t rS placed k z n w).1, (placeDef o d t rS placed k z n w).2) := by
  induction k generalizing n w z with
  | zero => rfl
  | succ k ih =>
    unfold placeDef
    simp only [fin_phi, fin_cos, fin_sin, fin_mul, fin_rotateTS, fin_setNucleonPosition, fin_isTooClose, fin_lit]
    split
    · exact ih _ _ _
    · rfl

omit [LawfulRng E D] in
theorem fin_placeAllDef (o d : ℝ) (t : TiltSpin ℝ) (placed : List (NucleonData ℝ)) (ss : List (ℝ × ℝ)) (hs : ∀ s ∈ ss, 0 ≤ 1 - s.2 * s.2)
    (ns : List (NucleonData ℝ)) (w : Rand E D) :
    placeAllDef (fin o) (fin d) (t.map fin) (finNs placed) (ss.map fun q => (fin q.1, fin q.2)) (finNs ns) w =
      (finNs (placeAllDef o d t placed ss ns w).1, (placeAllDef o d t placed ss ns w).2) := by
  induction ss generalizing placed ns w with
  | nil => simp [placeAllDef]
  | cons s ss ih =>
    cases ns with
    | nil => simp [placeAllDef]
    | cons n ns =>
      simp only [List.map_cons, placeAllDef]
      have h := hs s (by simp)
      simp only [fin_lit, fin_mul, fin_sub]
      rw [fin_sqrt (by simpa using h), fin_mul, fin_placeDef]
      rw [← ih _ (fun s hs' => hs s (by simp [hs']))]
      simp

theorem fin_sampleDeformed {R a b2 b4 : ℝ} (ha : a ≠ 0) (fuel : ℕ) {rm : ℝ} (hr : 0 ≤ rm) (d o : ℝ) (ns : List (NucleonData ℝ)) (w : Rand E D) :
    sampleDeformed fuel (fin R) (fin a) (fin b2) (fin b4) (fin rm) (fin d) (fin o) (finNs ns) w =
      (sampleDeformed fuel R a b2 b4 rm d o ns w).map fun p => (finNs p.1, p.2) := by
  unfold sampleDeformed
  simp only [fin_drawTiltSpin, List.length_map, fin_drawDeformed ha]
  cases h : drawDeformed fuel R a b2 b4 rm ns.length (drawTiltSpin (F := ℝ) w).2 with
  | error e => rfl
  | ok p =>
    obtain ⟨ss, w'⟩ := p
    have hs := drawDeformed_mem hr h
    simp only [Except.map]
    rw [fin_sortBy (fun q : ℝ × ℝ => (fin q.1, fin q.2)) Prod.fst Prod.fst (fun _ => rfl)]
    rw [← fin_placeAllDef o d _ [] _ ?_ ns w']
    · rfl
    · intro s hs'
      have := hs s ((sortBy_perm Prod.fst ss).mem_iff.mp hs')
      linarith [this.2.2]

omit [LawfulRng E D] in
theorem fin_placeManual (o : ℝ) (e : Euler ℝ) (ps : List (ℝ × ℝ × ℝ)) (ns : List (NucleonData ℝ)) :
    placeManual (fin o) (e.map fin) (ps.map fun p => (fin p.1, fin p.2.1, fin p.2.2)) (finNs ns) = (placeManual o e ps ns).map finNs := by
  induction ns generalizing ps with
  | nil => cases ps <;> rfl
  | cons n ns ih =>
    cases ps with
    | nil => rfl
    | cons p ps =>
      obtain ⟨x, y, z⟩ := p
      simp only [List.map_cons, placeManual, ih]
      cases placeManual o e ps ns with
      | error e => rfl
      | ok ns => simp only [Except.map, fin_rotateEuler, fin_setNucleonPosition, List.map_cons]

theorem fin_sampleManual (cs : List (List (ℝ × ℝ × ℝ))) (o : ℝ) (ns : List (NucleonData ℝ)) (w : Rand E D) :
    sampleManual (cs.map (List.map fun p => (fin p.1, fin p.2.1, fin p.2.2))) (fin o) (finNs ns) w =
      (sampleManual cs o ns w).map fun p => (finNs p.1, p.2) := by
  unfold sampleManual
  simp only [fin_drawEuler, List.length_map, fin_drawIndex, List.getElem?_map]
  generalize cs[(drawIndex ℝ (E := E) (D := D) _ _).1]? = q
  cases q with
  | none => rfl
  | some ps =>
    simp only [Option.map_some, fin_placeManual]
    cases placeManual o _ ps ns with
    | error e => rfl
    | ok ns => rfl

/-- No random number of the engine is exactly 0. -/
def NoZero (E D : Type) [Rng ℝ E D] : Prop := ∀ e : E, (Rng.canonical (F := ℝ) (D := D) e).1 ≠ 0

omit [LawfulRng E D] in
theorem fin_deuteronRadius {a u : ℝ} (ha : a ≠ 0) (hu : 0 < u) : deuteronRadius (fin a) (fin u) = fin (deuteronRadius a u) := by
  unfold deuteronRadius
  rw [fin_log hu, fin_neg, fin_lit, fin_mul, fin_div]
  simpa using ha

omit [LawfulRng E D] in
theorem fin_deuteronProb (a b r : ℝ) {u : ℝ} (hu : 0 < u) : deuteronProb (fin a) (fin b) (fin u) (fin r) = fin (deuteronProb a b u r) := by
  unfold deuteronProb
  have : (lit 2 : XReal) = fin 2 := by rw [fin_lit]; simp
  rw [this]
  simp only [fin_neg, fin_mul, fin_exp, fin_sub, fin_pow_two]
  rw [fin_div _ hu.ne']
  simp

theorem fin_deuteronLoop (hz : NoZero E D) {a : ℝ} (ha : a ≠ 0) (b : ℝ) (k : ℕ) (w : Rand E D) :
    deuteronLoop (fin a) (fin b) k w = (deuteronLoop a b k w).map fun p => (fin p.1, p.2) := by
  induction k generalizing w with
  | zero => rfl
  | succ k ih =>
    unfold deuteronLoop
    have hu : 0 < (canonical (F := ℝ) w).1 := lt_of_le_of_ne (canonical_mem w).1 (Ne.symm (hz w.eng))
    simp only [fin_canonical, fin_deuteronRadius ha hu, fin_deuteronProb _ _ _ hu, fin_lt]
    split
    · exact ih _
    · rfl

theorem fin_sampleDeuteron (hz : NoZero E D) {a : ℝ} (ha : a ≠ 0) (fuel : ℕ) (b o : ℝ) (ns : List (NucleonData ℝ)) (w : Rand E D) :
    sampleDeuteron fuel (fin a) (fin b) (fin o) (finNs ns) w = (sampleDeuteron fuel a b o ns w).map fun p => (finNs p.1, p.2) := by
  unfold sampleDeuteron
  rw [fin_deuteronLoop hz ha]
  cases deuteronLoop a b fuel w with
  | error e => rfl
  | ok p =>
    obtain ⟨r, w'⟩ := p
    simp only [Except.map, fin_cosTheta, fin_phi]
    have h := one_sub_cosTheta_sq w'
    rw [fin_spherical _ _ _ h]
    simp only [fin_neg]
    match ns with
    | [] => rfl
    | [_] => rfl
    | _ :: _ :: _ => rfl

/-- The constants of a nucleus class by which the samplers divide are not zero. -/
def Kind.Regular : Kind ℝ → Prop
  | .deuteron a _ => a ≠ 0
  | .woodsSaxon _ a _ => a ≠ 0
  | .deformed _ a _ _ rm _ => a ≠ 0 ∧ 0 ≤ rm
  | _ => True

/-- It is not a deuteron. -/
def Kind.notDeuteron : Kind F → Prop
  | .deuteron _ _ => False
  | _ => True

theorem fin_sampleNucleons (fuel : ℕ) (nuc : Nucleus ℝ) (hk : nuc.kind.Regular) (hd : nuc.kind.notDeuteron ∨ NoZero E D) (o : ℝ) (w : Rand E D) :
    (nuc.map fin).sampleNucleons fuel (fin o) w = (nuc.sampleNucleons fuel o w).map fun p => (p.1.map fin, p.2) := by
  obtain ⟨kind, ns, off⟩ := nuc
  unfold Nucleus.sampleNucleons
  cases kind with
  | proton => simp [Nucleus.map, Kind.map, fin_sampleProton, Except.map]
  | deuteron a b =>
    have hz : NoZero E D := by
      rcases hd with h | h
      · exact h.elim
      · exact h
    simp only [Nucleus.map, Kind.map, fin_sampleDeuteron hz hk]
    cases sampleDeuteron fuel a b o ns w with
    | error e => rfl
    | ok p => rfl
  | woodsSaxon R a d => simp [Nucleus.map, Kind.map, fin_sampleWS hk, Except.map]
  | deformed R a b2 b4 rm d =>
    simp only [Nucleus.map, Kind.map, fin_sampleDeformed hk.1 _ hk.2]
    cases sampleDeformed fuel R a b2 b4 rm d o ns w with
    | error e => rfl
    | ok p => rfl
  | manual cs rm =>
    simp only [Nucleus.map, Kind.map, fin_sampleManual]
    cases sampleManual cs o ns w with
    | error e => rfl
    | ok p => rfl

end sampling
end Trento
