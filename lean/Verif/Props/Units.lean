import Verif.Props.ScaleInvariance
import Verif.Props.Library

/-!
# C116: the unit of length

The code is told all lengths in fm and the cross section in fm². Nothing in the treatment of given nucleons depends on that choice: if all lengths are
multiplied by `l` and the cross section parameter by `l²`, the same pairs of nucleons participate, and the event has the same participants, the same
multiplicity, the same centre of mass in units of cells and the same eccentricities, and `l⁻²` times the same densities.
-/

namespace Trento
open Spec

/-- All lengths of a nucleon multiplied by `l`: its position and the positions of its constituents, not their weights. -/
def NucleonData.stretch (l : ℝ) (a : NucleonData ℝ) : NucleonData ℝ :=
  { a with x := l * a.x, y := l * a.y, z := l * a.z, constituents := a.constituents.map fun q => ⟨l * q.x, l * q.y, q.fluctuation⟩ }

/-- what a change of units does to the constants of the nucleons, apart from the sampling width -/
structure Stretched (l : ℝ) (nc nc' : NucleonCommon ℝ) : Prop where
  fastExp : nc'.fastExp = nc.fastExp
  number : nc'.constituentNumber = nc.constituentNumber
  maxImpactSq : nc'.maxImpactSq = l^2 * nc.maxImpactSq
  widthSq : nc'.constituentWidthSq = l^2 * nc.constituentWidthSq
  radiusSq : nc'.constituentRadiusSq = l^2 * nc.constituentRadiusSq
  sigma : nc'.sigmaPartonic = l^2 * nc.sigmaPartonic
  prefactor : nc'.prefactor = (l^2)⁻¹ * nc.prefactor
  calcNcoll : nc'.calcNcoll = nc.calcNcoll

theorem sqr_mul (l x : ℝ) : sqr (l * x) = l^2 * sqr x := by
  show l * x * (l * x) = l^2 * (x * x)
  ring

theorem lt_stretch {l : ℝ} (hl : 0 < l) (x y : ℝ) : lt (l * x) (l * y) = lt x y := by
  rw [Bool.eq_iff_iff]
  simp only [lt_real, decide_eq_true_eq]
  exact mul_lt_mul_iff_right₀ hl

theorem make_stretched (l w v sigma k : ℝ) (m : ℕ) (ncoll : Bool) : Stretched l (NucleonCommon.make w v m sigma ncoll k) (NucleonCommon.make (l * w) (l * v) m (l^2 * sigma) ncoll k) where
  fastExp := rfl
  number := rfl
  maxImpactSq := by
    show sqr (maxImpactWidths * (l * w)) = l^2 * sqr (maxImpactWidths * w)
    rw [← sqr_mul]; congr 1; ring
  widthSq := sqr_mul l v
  radiusSq := by
    show sqr (maxRadiusWidths * (l * v)) = l^2 * sqr (maxRadiusWidths * v)
    rw [← sqr_mul]; congr 1; ring
  sigma := rfl
  prefactor := by
    show oneDivTwoPi / sqr (l * v) / ofInt (m:ℤ) = (l^2)⁻¹ * (oneDivTwoPi / sqr v / ofInt (m:ℤ))
    rw [sqr_mul]
    simp only [div_eq_mul_inv, mul_inv]
    ring
  calcNcoll := rfl

section
variable {l : ℝ} {nc nc' : NucleonCommon ℝ}

theorem thicknessLoop_stretch (hl : 0 < l) (H : Stretched l nc nc') (debug : Bool) (x y : ℝ) (cs : List (Constituent ℝ)) (t : ℝ) :
    nc'.thicknessLoop debug (l * x) (l * y) (cs.map fun q => (⟨l * q.x, l * q.y, q.fluctuation⟩ : Constituent ℝ)) t = nc.thicknessLoop debug x y cs t := by
  have l2 : 0 < l^2 := by positivity
  induction cs generalizing t with
  | nil => rfl
  | cons q cs ih =>
    rw [List.map_cons, NucleonCommon.thicknessLoop, NucleonCommon.thicknessLoop]
    dsimp only
    have e : sqr (l * x - l * q.x) + sqr (l * y - l * q.y) = l^2 * (sqr (x - q.x) + sqr (y - q.y)) := by
      rw [← mul_sub, ← mul_sub, sqr_mul, sqr_mul]; ring
    have e1 : lt (l^2 * (sqr (x - q.x) + sqr (y - q.y))) (l^2 * nc.constituentRadiusSq) = lt (sqr (x - q.x) + sqr (y - q.y)) nc.constituentRadiusSq := by
      exact lt_stretch l2 _ _
    have e2 : -(lit 0.5 : ℝ) * (l^2 * (sqr (x - q.x) + sqr (y - q.y))) / (l^2 * nc.constituentWidthSq) = -(lit 0.5) * (sqr (x - q.x) + sqr (y - q.y)) / nc.constituentWidthSq := by
      rw [mul_left_comm, mul_div_mul_left _ _ l2.ne']
    rw [e, H.radiusSq, H.widthSq, H.fastExp, e1, e2]
    simp only [ih]

theorem thickness_stretch (hl : 0 < l) (H : Stretched l nc nc') (debug : Bool) (a : NucleonData ℝ) (x y : ℝ) :
    nc'.thickness debug (a.stretch l) (l * x) (l * y) = (nc.thickness debug a x y).map ((l^2)⁻¹ * ·) := by
  unfold NucleonCommon.thickness
  have hc : (a.stretch l).constituents = a.constituents.map fun q => (⟨l * q.x, l * q.y, q.fluctuation⟩ : Constituent ℝ) := rfl
  rw [hc, thicknessLoop_stretch hl H]
  cases nc.thicknessLoop debug x y a.constituents (lit 0) with
  | error e => rfl
  | ok t =>
    show Except.ok (nc'.prefactor * t) = Except.ok ((l^2)⁻¹ * (nc.prefactor * t))
    rw [H.prefactor]; congr 1; ring

/-- a box in the new unit -/
def Box.stretch (l : ℝ) (b : Box ℝ) : Box ℝ := ⟨l * b.xmin, l * b.xmax, l * b.ymin, l * b.ymax⟩

theorem boundaryLoop_stretch (hl : 0 < l) (cs : List (Constituent ℝ)) (b : Box ℝ) :
    boundaryLoop (cs.map fun q => (⟨l * q.x, l * q.y, q.fluctuation⟩ : Constituent ℝ)) (b.stretch l) = (boundaryLoop cs b).stretch l := by
  have hlt : ∀ x y : ℝ, lt (l * x) (l * y) = lt x y := lt_stretch hl
  induction cs generalizing b with
  | nil => rfl
  | cons q cs ih =>
    rw [List.map_cons, boundaryLoop, boundaryLoop, ← ih]
    congr 1
    have s1 : ∀ b : Box ℝ, (if lt (l * q.x) (b.stretch l).xmin then { b.stretch l with xmin := l * q.x } else if lt (b.stretch l).xmax (l * q.x) then { b.stretch l with xmax := l * q.x } else b.stretch l) =
        Box.stretch l (if lt q.x b.xmin then { b with xmin := q.x } else if lt b.xmax q.x then { b with xmax := q.x } else b) := by
      intro b
      unfold Box.stretch
      simp only [hlt]
      split_ifs <;> rfl
    have s2 : ∀ b : Box ℝ, (if lt (l * q.y) (b.stretch l).ymin then { b.stretch l with ymin := l * q.y } else if lt (b.stretch l).ymax (l * q.y) then { b.stretch l with ymax := l * q.y } else b.stretch l) =
        Box.stretch l (if lt q.y b.ymin then { b with ymin := q.y } else if lt b.ymax q.y then { b with ymax := q.y } else b) := by
      intro b
      unfold Box.stretch
      simp only [hlt]
      split_ifs <;> rfl
    dsimp only
    rw [s1, s2]

theorem boundary_stretch (hl : 0 < l) (H : Stretched l nc nc') (a : NucleonData ℝ) : nc'.boundary (a.stretch l) = (nc.boundary a).map (Box.stretch l) := by
  unfold NucleonCommon.boundary NucleonData.stretch
  cases a.constituents with
  | nil => rfl
  | cons q cs =>
    simp only [List.map_cons]
    have h := boundaryLoop_stretch hl cs ⟨q.x, q.x, q.y, q.y⟩
    have e : (⟨l * q.x, l * q.x, l * q.y, l * q.y⟩ : Box ℝ) = Box.stretch l ⟨q.x, q.x, q.y, q.y⟩ := rfl
    rw [e, h]
    have hr : sqrt nc'.constituentRadiusSq = l * sqrt nc.constituentRadiusSq := by
      rw [H.radiusSq]
      show Real.sqrt _ = l * Real.sqrt _
      rw [Real.sqrt_mul (sq_nonneg l), Real.sqrt_sq hl.le]
    rw [hr]
    show Except.ok _ = Except.ok _
    congr 1
    unfold Box.stretch
    dsimp only
    congr 1 <;> ring

/-- the constants of the event in the new unit -/
def EventCfg.stretch (l : ℝ) (c : EventCfg ℝ) : EventCfg ℝ := { c with dxy := l * c.dxy, xymax := l * c.xymax }

theorem index_stretch (hl : 0 < l) (c : EventCfg ℝ) (v : ℝ) : (c.stretch l).index (l * v) = c.index v := by
  unfold EventCfg.index EventCfg.stretch
  dsimp only
  rw [← mul_add, mul_div_mul_left _ _ hl.ne']

theorem center_stretch (c : EventCfg ℝ) (i : ℤ) : (c.stretch l).center i = l * c.center i := by
  unfold EventCfg.center EventCfg.stretch
  dsimp only
  ring

theorem depositCell_stretch (hl : 0 < l) (H : Stretched l nc nc') {n : ℕ} (c : EventCfg ℝ) (debug : Bool) (a : NucleonData ℝ) (iy ix : ℤ) (g : Grid ℝ n) :
    depositCell (c.stretch l) nc' debug (a.stretch l) iy ix (scaleGrid (l^2)⁻¹ g) = (depositCell c nc debug a iy ix g).map (scaleGrid (l^2)⁻¹) := by
  unfold depositCell
  rw [center_stretch, center_stretch, thickness_stretch hl H]
  cases nc.thickness debug a (c.center ix) (c.center iy) with
  | error e => rfl
  | ok t => exact addAt_scale _ g iy ix t

theorem depositNucleon_stretch (hl : 0 < l) (H : Stretched l nc nc') {n : ℕ} (c : EventCfg ℝ) (debug : Bool) (a : NucleonData ℝ) (g : Grid ℝ n) :
    depositNucleon (c.stretch l) nc' debug (a.stretch l) (scaleGrid (l^2)⁻¹ g) = (depositNucleon c nc debug a g).map (scaleGrid (l^2)⁻¹) := by
  unfold depositNucleon
  rw [boundary_stretch hl H]
  simp only [bind, Except.bind]
  cases nc.boundary a with
  | error e => rfl
  | ok b =>
    simp only [Except.map, Box.stretch, index_stretch hl]
    cases c.index b.xmin with
    | error e => rfl
    | ok i1 =>
      dsimp only
      cases c.index b.xmax with
      | error e => rfl
      | ok i2 =>
        dsimp only
        cases c.index b.ymin with
        | error e => rfl
        | ok i3 =>
          dsimp only
          cases c.index b.ymax with
          | error e => rfl
          | ok i4 =>
            dsimp only
            exact forRes_scale _ _ _ (fun iy g => forRes_scale _ _ _ (fun ix g => depositCell_stretch hl H c debug a iy ix g) _ g) _ g

theorem depositAll_stretch (hl : 0 < l) (H : Stretched l nc nc') {n : ℕ} (c : EventCfg ℝ) (debug : Bool) (A : List (NucleonData ℝ)) (g : Grid ℝ n) (j : ℕ) :
    depositAll (c.stretch l) nc' debug (A.map (NucleonData.stretch l)) (scaleGrid (l^2)⁻¹ g, j) = (depositAll c nc debug A (g, j)).map fun r => (scaleGrid (l^2)⁻¹ r.1, r.2) := by
  induction A generalizing g j with
  | nil => rfl
  | cons a A ih =>
    rw [List.map_cons, depositAll, depositAll]
    have hp : (a.stretch l).isParticipant = a.isParticipant := rfl
    rw [hp, depositNucleon_stretch hl H]
    split
    · cases depositNucleon c nc debug a g with
      | error e => rfl
      | ok g' => exact ih g' (j+1)
    · exact ih g j

end

theorem eventCfg_stretch {l : ℝ} (hl : 0 < l) {norm dxy gmax p : ℝ} {c : EventCfg ℝ} (h : EventCfg.make norm dxy gmax p = .ok c) :
    EventCfg.make norm (l * dxy) (l * gmax) p = .ok (c.stretch l) := by
  unfold EventCfg.make at h ⊢
  have e : lit 2 * (l * gmax) / (l * dxy) = (lit 2 * gmax / dxy : ℝ) := by
    rw [mul_left_comm, mul_div_mul_left _ _ hl.ne']
  rw [e]
  split at h
  · cases h
  · rename_i ns hns
    split at h
    · cases h
    · next hn =>
      cases h
      simp only [hns, hn, if_false]
      unfold EventCfg.stretch
      dsimp only
      congr 2
      ring

/-- The generalized mean of order `p` meets no floor of 1e-12 in the thicknesses of `e`, nor when these are divided by `l²`. -/
def MeanKeeps (l p : ℝ) {n : ℕ} (e : Event ℝ n) : Prop :=
  -1e-12 < p ∨ ∀ iy ix, KeepsFloor (1 / l^2) (e.TA iy ix) ∧ KeepsFloor (1 / l^2) (e.TB iy ix)

/-- The same event in another unit of length: the density is divided by `l²`, and multiplicity, centre of mass and eccentricities are the same (an eccentricity as long as no floor of 1e-12 is crossed). -/
structure SameDensity (l : ℝ) {n : ℕ} (e e' : Event ℝ n) : Prop where
  density : ∀ iy ix, e'.TR iy ix = e.TR iy ix / l^2
  multiplicity : e'.multiplicity = e.multiplicity
  xcentre : e'.ixcm = e.ixcm
  ycentre : e'.iycm = e.iycm
  e2 : KeepsShape (1 / l^2) e.TR 2 → e'.ecc.e2 = e.ecc.e2
  e3 : KeepsShape (1 / l^2) e.TR 3 → e'.ecc.e3 = e.ecc.e3
  e4 : KeepsShape (1 / l^2) e.TR 4 → e'.ecc.e4 = e.ecc.e4
  e5 : KeepsShape (1 / l^2) e.TR 5 → e'.ecc.e5 = e.ecc.e5

theorem event_stretch {l : ℝ} (hl : 0 < l) {nc nc' : NucleonCommon ℝ} (H : Stretched l nc nc') (c : EventCfg ℝ) (debug : Bool) {n : ℕ}
    (ev ev₁ ev' : Event ℝ n) (A B : List (NucleonData ℝ)) (h : Event.compute c nc debug ev A B = .ok ev') :
    ∃ ev'', Event.compute (c.stretch l) nc' debug ev₁ (A.map (NucleonData.stretch l)) (B.map (NucleonData.stretch l)) = .ok ev'' ∧
      ev''.npart = ev'.npart ∧ (∀ iy ix, ev''.TA iy ix = ev'.TA iy ix / l^2 ∧ ev''.TB iy ix = ev'.TB iy ix / l^2) ∧
      ((∀ iy ix, 0 ≤ ev'.TA iy ix ∧ 0 ≤ ev'.TB iy ix) → MeanKeeps l c.p ev' → SameDensity l ev' ev'') := by
  have l2 : 0 < l^2 := by positivity
  obtain ⟨TA, TB, npA, npB, d1, d2, he⟩ := compute_ok h
  have hz : (fun _ _ => lit 0 : Grid ℝ n) = scaleGrid (l^2)⁻¹ (fun _ _ => lit 0) := by
    funext iy ix; simp [scaleGrid]
  have d1' := depositAll_stretch hl H c debug A (fun _ _ => lit 0 : Grid ℝ n) 0
  rw [d1, ← hz] at d1'
  have d2' := depositAll_stretch hl H c debug B (fun _ _ => lit 0 : Grid ℝ n) npA
  rw [d2, ← hz] at d2'
  have h2 : Event.compute (c.stretch l) nc' debug ev₁ (A.map (NucleonData.stretch l)) (B.map (NucleonData.stretch l)) =
      .ok (computeObservables (computeReducedThickness (c.stretch l) { ev₁ with TA := scaleGrid (l^2)⁻¹ TA, TB := scaleGrid (l^2)⁻¹ TB, npart := npB })) := by
    unfold Event.compute computeNuclearThickness
    simp only [d1', d2', Except.map]
  refine ⟨_, h2, by rw [he]; rfl, fun iy ix => ?_, fun hn hk => ?_⟩
  · rw [he, div_eq_inv_mul, div_eq_inv_mul]; exact ⟨rfl, rfl⟩
  unfold MeanKeeps at hk
  have hT : ∀ iy ix,
      (computeObservables (computeReducedThickness (c.stretch l) { ev₁ with TA := scaleGrid (l^2)⁻¹ TA, TB := scaleGrid (l^2)⁻¹ TB, npart := npB })).TR iy ix = ev'.TR iy ix / l^2 := by
    intro iy ix
    rw [C25_reduced_thickness _ _ _ _ _ _ _ _ h2, C25_reduced_thickness _ _ _ _ _ _ _ _ h]
    have a1 : ev'.TA = TA := by rw [he]; rfl
    have a2 : ev'.TB = TB := by rw [he]; rfl
    rw [one_div, a1, a2] at hk
    rw [a1, a2] at hn
    rw [a1, a2]
    show c.norm * trentoMean c.p ((l^2)⁻¹ * TA iy ix) ((l^2)⁻¹ * TB iy ix) = _
    rw [C115_mean (inv_pos.mpr l2) _ _ _ (hn iy ix).1 (hn iy ix).2 (hk.imp id fun h => h iy ix)]
    ring
  generalize computeObservables (computeReducedThickness (c.stretch l) { ev₁ with TA := scaleGrid (l^2)⁻¹ TA, TB := scaleGrid (l^2)⁻¹ TB, npart := npB }) = ev'' at *
  have hg : ev''.TR = fun iy ix => (l^2)⁻¹ * ev'.TR iy ix := by
    funext iy ix; rw [hT, div_eq_inv_mul]
  obtain ⟨x1, y1, p2, p3, p4, p5⟩ := C28_eccentricities _ _ _ _ _ _ _ _ h2
  obtain ⟨x0, y0, q2, q3, q4, q5⟩ := C28_eccentricities _ _ _ _ _ _ _ _ h
  obtain ⟨cx, cy⟩ := C115_centre (inv_pos.mpr l2).ne' ev'.TR
  rw [← one_div] at *
  refine ⟨hT, ?_, by rw [x1, x0, hg, cx], by rw [y1, y0, hg, cy], fun k => ?_, fun k => ?_, fun k => ?_, fun k => ?_⟩
  · rw [C27_multiplicity _ _ _ _ _ _ _ _ h2, C27_multiplicity _ _ _ _ _ _ _ _ h, hg, gridSum_scale]
    show (l * c.dxy)^2 * _ = _
    field_simp
  · rw [p2, q2, hg, C115_eccentricity (by positivity) _ _ k]
  · rw [p3, q3, hg, C115_eccentricity (by positivity) _ _ k]
  · rw [p4, q4, hg, C115_eccentricity (by positivity) _ _ k]
  · rw [p5, q5, hg, C115_eccentricity (by positivity) _ _ k]

/-- **C116, event.** Multiply all lengths of an event by `l > 0`: the positions of the constituents, the nucleon and constituent widths, the grid size and the grid step. The event still succeeds, on a grid of the same number of
cells, with the same participants and `l⁻²` times the thickness in every cell. If no floor of 1e-12 is crossed, the multiplicity, the centre of mass in units of cells and the eccentricities are the same. -/
theorem C116_event {l : ℝ} (hl : 0 < l) (w v sigma k : ℝ) (m : ℕ) (ncoll : Bool) (norm dxy gmax p : ℝ) (c : EventCfg ℝ) (hc : EventCfg.make norm dxy gmax p = .ok c) (debug : Bool) {n : ℕ}
    (ev ev₁ ev' : Event ℝ n) (A B : List (NucleonData ℝ)) (h : Event.compute c (NucleonCommon.make w v m sigma ncoll k) debug ev A B = .ok ev') :
    ∃ c' ev'', EventCfg.make norm (l * dxy) (l * gmax) p = .ok c' ∧ c'.nsteps = c.nsteps ∧
      Event.compute c' (NucleonCommon.make (l * w) (l * v) m (l^2 * sigma) ncoll k) debug ev₁ (A.map (NucleonData.stretch l)) (B.map (NucleonData.stretch l)) = .ok ev'' ∧
      ev''.npart = ev'.npart ∧ (∀ iy ix, ev''.TA iy ix = ev'.TA iy ix / l^2 ∧ ev''.TB iy ix = ev'.TB iy ix / l^2) ∧
      ((∀ iy ix, 0 ≤ ev'.TA iy ix ∧ 0 ≤ ev'.TB iy ix) → MeanKeeps l p ev' → SameDensity l ev' ev'') := by
  obtain ⟨ev'', h1, h2, h3, h4⟩ := event_stretch hl (make_stretched l w v sigma k m ncoll) c debug ev ev₁ ev' A B h
  rw [(eventCfg_params hc).2.2] at h4
  exact ⟨c.stretch l, ev'', eventCfg_stretch hl hc, rfl, h1, h2, h3, h4⟩

theorem overlapSum_stretch {l : ℝ} (hl : 0 < l) (ws : ℝ) (as bs : List (Constituent ℝ)) :
    overlapSum (l^2 * ws) (as.map fun q => (⟨l * q.x, l * q.y, q.fluctuation⟩ : Constituent ℝ)) (bs.map fun q => (⟨l * q.x, l * q.y, q.fluctuation⟩ : Constituent ℝ)) = overlapSum ws as bs := by
  have l2 : (l^2 : ℝ) ≠ 0 := by positivity
  unfold overlapSum
  rw [List.foldl_map]
  congr 1
  funext acc qA
  rw [List.foldl_map]
  congr 1
  funext acc qB
  dsimp only
  have e : -(lit 0.25 : ℝ) * (sqr (l * qA.x - l * qB.x) + sqr (l * qA.y - l * qB.y)) / (l^2 * ws) = -(lit 0.25) * (sqr (qA.x - qB.x) + sqr (qA.y - qB.y)) / ws := by
    rw [← mul_sub, ← mul_sub, sqr_mul, sqr_mul, ← mul_add, mul_left_comm, mul_div_mul_left _ _ l2]
  rw [e]

section
variable {E D : Type} [Rng ℝ E D]

theorem setParticipant_stretch (l : ℝ) (a : NucleonData ℝ) : (a.stretch l).setParticipant = a.setParticipant.stretch l := by
  unfold NucleonData.setParticipant
  have : (a.stretch l).isParticipant = a.isParticipant := rfl
  rw [this]
  split <;> rfl

theorem participate_stretch {l : ℝ} (hl : 0 < l) {nc nc' : NucleonCommon ℝ} (H : Stretched l nc nc') (A B : NucleonData ℝ)
    (hA : ∀ r : Rand E D, nc'.sampleConstituents (A.stretch l) r = ((nc.sampleConstituents A r).1.stretch l, (nc.sampleConstituents A r).2))
    (hB : ∀ r : Rand E D, nc'.sampleConstituents (B.stretch l) r = ((nc.sampleConstituents B r).1.stretch l, (nc.sampleConstituents B r).2)) (r : Rand E D) :
    nc'.participate (A.stretch l) (B.stretch l) r =
      (((nc.participate A B r).1.1, (nc.participate A B r).1.2.1.stretch l, (nc.participate A B r).1.2.2.stretch l), (nc.participate A B r).2) := by
  have l2 : 0 < l^2 := by positivity
  have hd : sqr ((A.stretch l).x - (B.stretch l).x) + sqr ((A.stretch l).y - (B.stretch l).y) = l^2 * (sqr (A.x - B.x) + sqr (A.y - B.y)) := by
    show sqr (l * A.x - l * B.x) + sqr (l * A.y - l * B.y) = _
    rw [← mul_sub, ← mul_sub, sqr_mul, sqr_mul]; ring
  have hlt : lt (l^2 * nc.maxImpactSq) (l^2 * (sqr (A.x - B.x) + sqr (A.y - B.y))) = lt nc.maxImpactSq (sqr (A.x - B.x) + sqr (A.y - B.y)) := lt_stretch l2 _ _
  have ho : ∀ a b : NucleonData ℝ, overlapSum nc'.constituentWidthSq (a.stretch l).constituents (b.stretch l).constituents = overlapSum nc.constituentWidthSq a.constituents b.constituents := by
    intro a b
    rw [H.widthSq]; exact overlapSum_stretch hl _ _ _
  have hm : ∀ x, nc'.oneMinusProb x = nc.oneMinusProb x := by
    intro x
    unfold NucleonCommon.oneMinusProb
    rw [H.sigma, H.prefactor, H.number]
    have : -(l^2 * nc.sigmaPartonic) * ((l^2)⁻¹ * nc.prefactor) = -nc.sigmaPartonic * nc.prefactor := by
      field_simp
    rw [this]
  have f1 : (A.stretch l).isParticipant = A.isParticipant := rfl
  have f2 : (B.stretch l).isParticipant = B.isParticipant := rfl
  unfold NucleonCommon.participate
  rw [f1, f2, H.calcNcoll]
  dsimp only
  rw [hd, H.maxImpactSq, hlt, hA]
  dsimp only
  rw [hB]
  dsimp only
  rw [ho, hm, setParticipant_stretch, setParticipant_stretch]
  split
  · rfl
  · split
    · rfl
    · split <;> rfl

/-- **C116, pairs.** Two nucleons with given constituents participate in the new unit, cross section parameter included, exactly if they do in the old one, with the same use of the random sequence. -/
theorem C116_participate {l : ℝ} (hl : 0 < l) (w v sigma k : ℝ) (m : ℕ) (ncoll : Bool) (A B : NucleonData ℝ) (hA : A.constituentsExist = true) (hB : B.constituentsExist = true)
    (r r' : Rand E D) (hit : Bool) (A' B' : NucleonData ℝ) (h : (NucleonCommon.make w v m sigma ncoll k).participate A B r = ((hit, A', B'), r')) :
    (NucleonCommon.make (l * w) (l * v) m (l^2 * sigma) ncoll k).participate (A.stretch l) (B.stretch l) r = ((hit, A'.stretch l, B'.stretch l), r') := by
  have H := make_stretched l w v sigma k m ncoll
  have he : ∀ (nc nc' : NucleonCommon ℝ) (a : NucleonData ℝ), a.constituentsExist = true → ∀ r : Rand E D,
      nc'.sampleConstituents (a.stretch l) r = ((nc.sampleConstituents a r).1.stretch l, (nc.sampleConstituents a r).2) := by
    intro nc nc' a ha r
    unfold NucleonCommon.sampleConstituents
    rw [if_pos (show (a.stretch l).constituentsExist = true from ha), if_pos ha]
  rw [participate_stretch hl H A B (he _ _ A hA) (he _ _ B hB) r, h]

/-! ## Proton-proton runs -/

/-- Normal numbers of mean zero are multiples of their standard deviation, as in the standard library and in `Tape`. -/
def NormalScales (E D : Type) [Rng ℝ E D] : Prop :=
  ∀ (l s : ℝ) (d : D) (e : E), (Rng.normal 0 (l * s) d e : ℝ × D × E) = (l * (Rng.normal 0 s d e : ℝ × D × E).1, (Rng.normal (0:ℝ) s d e).2)

theorem drawNormal_stretch (hN : NormalScales E D) (l s : ℝ) (r : Rand E D) :
    drawNormal (lit 0 : ℝ) (l * s) r = (l * (drawNormal (lit 0 : ℝ) s r).1, (drawNormal (lit 0 : ℝ) s r).2) := by
  have hz : (lit 0 : ℝ) = 0 := by simp
  unfold drawNormal
  rw [hz, hN]

/-- the constants that the sampling of the constituents needs -/
structure StretchedSampling (l : ℝ) (nc nc' : NucleonCommon ℝ) : Prop extends Stretched l nc nc' where
  sampling : nc'.samplingWidth = l * nc.samplingWidth
  alpha : nc'.gammaAlpha = nc.gammaAlpha
  beta : nc'.gammaBeta = nc.gammaBeta

theorem drawConstituents_stretch (hN : NormalScales E D) {l : ℝ} {nc nc' : NucleonCommon ℝ} (H : StretchedSampling l nc nc') (k : ℕ) (x y : ℝ) (r : Rand E D) :
    drawConstituents nc' k (l * x) (l * y) r =
      (((drawConstituents nc k x y r).1.1.map fun q => (⟨l * q.x, l * q.y, q.fluctuation⟩ : Constituent ℝ), l * (drawConstituents nc k x y r).1.2.1, l * (drawConstituents nc k x y r).1.2.2),
        (drawConstituents nc k x y r).2) := by
  induction k generalizing x y r with
  | zero => rfl
  | succ k ih =>
    rw [drawConstituents, drawConstituents]
    rw [H.sampling, drawNormal_stretch hN]
    dsimp only
    rw [drawNormal_stretch hN]
    dsimp only
    rw [H.alpha, H.beta, ← mul_add, ← mul_add, ih]
    rfl

theorem sampleConstituents_stretch (hN : NormalScales E D) {l : ℝ} {nc nc' : NucleonCommon ℝ} (H : StretchedSampling l nc nc') (a : NucleonData ℝ) (r : Rand E D) :
    nc'.sampleConstituents (a.stretch l) r = ((nc.sampleConstituents a r).1.stretch l, (nc.sampleConstituents a r).2) := by
  unfold NucleonCommon.sampleConstituents
  have f : (a.stretch l).constituentsExist = a.constituentsExist := rfl
  rw [f]
  split
  · rfl
  · have hz : (lit 0 : ℝ) = l * lit 0 := by simp
    have h := drawConstituents_stretch hN H nc.constituentNumber (lit 0) (lit 0) r
    rw [← hz] at h
    rw [H.number, h]
    dsimp only
    unfold NucleonData.stretch
    dsimp only
    rw [List.map_map, List.map_map]
    congr 2
    congr 1
    funext q
    simp only [Function.comp]
    congr 1 <;> ring

theorem pairRow_stretch (hN : NormalScales E D) {l : ℝ} (hl : 0 < l) {nc nc' : NucleonCommon ℝ} (H : StretchedSampling l nc nc') (cn : Bool) (Bs : List (NucleonData ℝ)) (A : NucleonData ℝ) (j : ℕ)
    (hit : Bool) (r : Rand E D) :
    pairRow nc' cn (A.stretch l) (Bs.map (NucleonData.stretch l)) j hit r =
      (((pairRow nc cn A Bs j hit r).1.1.stretch l, (pairRow nc cn A Bs j hit r).1.2.1.map (NucleonData.stretch l), (pairRow nc cn A Bs j hit r).1.2.2), (pairRow nc cn A Bs j hit r).2) := by
  induction Bs generalizing A j hit r with
  | nil => rfl
  | cons B Bs ih =>
    rw [List.map_cons, pairRow, pairRow, participate_stretch hl H.toStretched A B (sampleConstituents_stretch hN H A) (sampleConstituents_stretch hN H B)]
    dsimp only
    rw [ih]
    rfl

theorem pairLoop_stretch (hN : NormalScales E D) {l : ℝ} (hl : 0 < l) {nc nc' : NucleonCommon ℝ} (H : StretchedSampling l nc nc') (cn : Bool) (As Bs : List (NucleonData ℝ)) (j : ℕ) (hit : Bool) (r : Rand E D) :
    pairLoop nc' cn (As.map (NucleonData.stretch l)) (Bs.map (NucleonData.stretch l)) j hit r =
      (((pairLoop nc cn As Bs j hit r).1.1.map (NucleonData.stretch l), (pairLoop nc cn As Bs j hit r).1.2.1.map (NucleonData.stretch l), (pairLoop nc cn As Bs j hit r).1.2.2),
        (pairLoop nc cn As Bs j hit r).2) := by
  induction As generalizing Bs j hit r with
  | nil => rfl
  | cons A As ih =>
    rw [List.map_cons, pairLoop, pairLoop, pairRow_stretch hN hl H]
    dsimp only
    rw [ih]
    rfl

/-- a nucleus in the new unit, apart from its kind -/
def Nucleus.stretch (l : ℝ) (A : Nucleus ℝ) : Nucleus ℝ := { A with nucleons := A.nucleons.map (NucleonData.stretch l), offset := l * A.offset }

theorem proton_stretch (l : ℝ) : (mkProton : Nucleus ℝ).stretch l = mkProton := by
  unfold Nucleus.stretch mkProton Nucleus.ofKind NucleonData.init NucleonData.stretch
  simp

theorem sampleProton_stretch (l : ℝ) (rfuel : ℕ) (A : Nucleus ℝ) (hA : A.kind = .proton) (off : ℝ) (r : Rand E D) :
    (A.stretch l).sampleNucleons rfuel (l * off) r = .ok ((⟨.proton, sampleProton off A.nucleons, off⟩ : Nucleus ℝ).stretch l, r) ∧
    A.sampleNucleons rfuel off r = .ok (⟨.proton, sampleProton off A.nucleons, off⟩, r) := by
  obtain ⟨kind, ns, o⟩ := A
  dsimp only at hA
  subst hA
  refine ⟨?_, rfl⟩
  have : sampleProton (l * off) (ns.map (NucleonData.stretch l)) = (sampleProton off ns).map (NucleonData.stretch l) := by
    cases ns with
    | nil => rfl
    | cons a ns =>
      rw [List.map_cons, sampleProton, sampleProton, List.map_cons]
      congr 1
      unfold setNucleonPosition NucleonData.setPosition NucleonData.stretch
      simp
  unfold Nucleus.stretch Nucleus.sampleNucleons
  dsimp only
  rw [this]

/-- the collider in the new unit -/
structure StretchedCollider (l : ℝ) (c c' : Collider ℝ) : Prop where
  nc : StretchedSampling l c.nc c'.nc
  calcNcoll : c'.calcNcoll = c.calcNcoll
  bmin : c'.bmin = l * c.bmin
  bmax : c'.bmax = l * c.bmax
  asymmetry : c'.asymmetry = c.asymmetry

theorem impact_stretch {l : ℝ} (hl : 0 < l) (x y u : ℝ) : impactFormula (l * x) (l * y) u = l * impactFormula x y u := by
  unfold impactFormula
  have : l * x * (l * x) + (l * y * (l * y) - l * x * (l * x)) * u = l^2 * (x * x + (y * y - x * x) * u) := by ring
  rw [this]
  show Real.sqrt _ = l * Real.sqrt _
  rw [Real.sqrt_mul (sq_nonneg l), Real.sqrt_sq hl.le]

theorem collisionLoop_stretch (hN : NormalScales E D) {l : ℝ} (hl : 0 < l) {c c' : Collider ℝ} (H : StretchedCollider l c c') (rfuel fuel : ℕ) (A B : Nucleus ℝ) (hA : A.kind = .proton)
    (hB : B.kind = .proton) (j : ℕ) (hit : Bool) (r : Rand E D) (b : ℝ) (nc : ℕ) (A1 B1 : Nucleus ℝ) (r1 : Rand E D) (h : collisionLoop rfuel c fuel A B j hit r = .ok ((b, nc, A1, B1), r1)) :
    collisionLoop rfuel c' fuel (A.stretch l) (B.stretch l) j hit r = .ok ((l * b, nc, A1.stretch l, B1.stretch l), r1) ∧ A1.kind = .proton ∧ B1.kind = .proton := by
  induction fuel generalizing A B j hit r with
  | zero => cases h
  | succ fuel ih =>
    rw [collisionLoop] at h ⊢
    dsimp only at h ⊢
    generalize canonical (F := ℝ) r = q at h ⊢
    obtain ⟨u, r⟩ := q
    dsimp only at h ⊢
    rw [H.bmin, H.bmax, impact_stretch hl, H.asymmetry]
    generalize impactFormula c.bmin c.bmax u = b0 at h ⊢
    have ea : c.asymmetry * (l * b0) = l * (c.asymmetry * b0) := by ring
    have eb : (c.asymmetry - lit 1) * (l * b0) = l * ((c.asymmetry - lit 1) * b0) := by ring
    rw [ea, eb, (sampleProton_stretch l rfuel A hA (c.asymmetry * b0) r).1]
    rw [(sampleProton_stretch l rfuel A hA (c.asymmetry * b0) r).2] at h
    dsimp only at h ⊢
    rw [(sampleProton_stretch l rfuel B hB ((c.asymmetry - lit 1) * b0) r).1]
    rw [(sampleProton_stretch l rfuel B hB ((c.asymmetry - lit 1) * b0) r).2] at h
    dsimp only at h ⊢
    unfold Nucleus.stretch at ih ⊢
    dsimp only at ih ⊢
    rw [H.calcNcoll, pairLoop_stretch hN hl H.nc]
    generalize pairLoop c.nc c.calcNcoll (sampleProton (c.asymmetry * b0) A.nucleons) (sampleProton ((c.asymmetry - lit 1) * b0) B.nucleons) j hit r = z at h ⊢
    obtain ⟨⟨As, Bs, j', hit'⟩, r'⟩ := z
    dsimp only at h ⊢
    split at h
    · next hh =>
      rw [if_pos hh]
      cases h
      exact ⟨rfl, rfl, rfl⟩
    · next hh =>
      rw [if_neg hh]
      exact ih _ _ rfl rfl _ _ _ h

/-- The same event, as printed and as a grid, in another unit of length. -/
structure SameInUnit (l p : ℝ) {n : ℕ} (r r' : EventRecord ℝ n) : Prop where
  num : r'.num = r.num
  b : r'.b = l * r.b
  ncoll : r'.ncoll = r.ncoll
  npart : r'.event.npart = r.event.npart
  TA : ∀ iy ix, r'.event.TA iy ix = r.event.TA iy ix / l^2
  TB : ∀ iy ix, r'.event.TB iy ix = r.event.TB iy ix / l^2
  density : MeanKeeps l p r.event → SameDensity l r.event r'.event

theorem runLoop_stretch (hN : NormalScales E D) {l : ℝ} (hl : 0 < l) {c c' : Collider ℝ} (H : StretchedCollider l c c') (ec : EventCfg ℝ) (rfuel fuel : ℕ) (debug : Bool) {n : ℕ} (k num : ℕ)
    (A B : Nucleus ℝ) (hA : A.kind = .proton) (hB : B.kind = .proton) (w : Rand E D) (ev ev₁ : Event ℝ n) (rs : List (EventRecord ℝ n)) (t : RunState ℝ E D n)
    (h : runLoop rfuel fuel c ec debug k num ⟨A, B, ev, w⟩ = .ok (rs, t)) :
    ∃ rs' t', runLoop rfuel fuel c' (ec.stretch l) debug k num ⟨A.stretch l, B.stretch l, ev₁, w⟩ = .ok (rs', t') ∧
      List.Forall₂ (fun r r' => (∀ iy ix, 0 ≤ r.event.TA iy ix ∧ 0 ≤ r.event.TB iy ix) → SameInUnit l ec.p r r') rs rs' := by
  induction k generalizing num A B w ev ev₁ rs t with
  | zero =>
    simp only [runLoop, Except.ok.injEq, Prod.mk.injEq] at h
    rw [← h.1]
    exact ⟨[], _, rfl, .nil⟩
  | succ k ih =>
    rw [runLoop] at h
    dsimp only at h
    cases hs : c.sampleCollision rfuel fuel A B w with
    | error e => rw [hs] at h; cases h
    | ok r =>
      obtain ⟨⟨b, nc, A1, B1⟩, w1⟩ := r
      rw [hs] at h
      dsimp only at h
      obtain ⟨s1, kA, kB⟩ := collisionLoop_stretch hN hl H rfuel fuel A B hA hB 0 false w b nc A1 B1 w1 hs
      cases h1 : ev.compute ec c.nc debug A1.nucleons B1.nucleons with
      | error e => rw [h1] at h; cases h
      | ok e1 =>
        rw [h1] at h
        dsimp only at h
        cases r1 : runLoop rfuel fuel c ec debug k (num+1) ⟨A1, B1, e1, w1⟩ with
        | error e => rw [r1] at h; cases h
        | ok q1 =>
          rw [r1] at h
          simp only [Except.ok.injEq, Prod.mk.injEq] at h
          obtain ⟨e2, c1, c2, c3, c4⟩ := event_stretch hl H.nc.toStretched ec debug ev ev₁ e1 _ _ h1
          obtain ⟨rs', t', i1, i2⟩ := ih (num+1) A1 B1 kA kB w1 e1 e2 _ _ r1
          refine ⟨⟨num, l * b, nc, e2⟩ :: rs', t', ?_, ?_⟩
          · rw [runLoop]
            have s2 : c'.sampleCollision rfuel fuel (A.stretch l) (B.stretch l) w = .ok ((l * b, nc, A1.stretch l, B1.stretch l), w1) := s1
            have c1' : ev₁.compute (ec.stretch l) c'.nc debug (A1.stretch l).nucleons (B1.stretch l).nucleons = .ok e2 := c1
            simp only [s2, c1', i1]
          · rw [← h.1]
            exact .cons (fun hn => ⟨rfl, rfl, rfl, c2, fun iy ix => (c3 iy ix).1, fun iy ix => (c3 iy ix).2, c4 hn⟩) i2

/-- The sampling width changes with the unit of length: one constituent, constituents of the size of the nucleon, or a difference of sizes that is not taken for zero in either unit. -/
def SamplingKeeps (l : ℝ) (o : Options ℝ) : Prop :=
  o.constitNumber = 1 ∨ o.nucleonWidth = o.constitWidth ∨ (1e-6 ≤ o.nucleonWidth - o.constitWidth ∧ 1e-6 ≤ l * (o.nucleonWidth - o.constitWidth))

theorem samplingWidth_stretch {l : ℝ} (hl : 0 < l) (o : Options ℝ) (h : SamplingKeeps l o) :
    calcSamplingWidth (l * o.nucleonWidth) (l * o.constitWidth) o.constitNumber = l * calcSamplingWidth o.nucleonWidth o.constitWidth o.constitNumber := by
  have hz : (lit 0 : ℝ) = 0 := by simp
  have h6 : (lit 1e-6 : ℝ) = 1e-6 := by simp
  unfold calcSamplingWidth
  dsimp only
  rw [← mul_sub, h6, hz]
  simp only [lt_real]
  rcases h with h | h | ⟨h1, h2⟩
  · simp [h]
  · simp [h]
  · have n1 : ¬ o.nucleonWidth - o.constitWidth < 1e-6 := not_lt.mpr h1
    have n2 : ¬ l * (o.nucleonWidth - o.constitWidth) < 1e-6 := not_lt.mpr h2
    simp only [n1, n2, decide_false, Bool.or_false]
    split
    · simp
    · rw [sqr_mul, sqr_mul, ← mul_sub, mul_div_assoc]
      show Real.sqrt _ = l * Real.sqrt _
      rw [Real.sqrt_mul (sq_nonneg l), Real.sqrt_sq hl.le]

/-- All lengths of the options in another unit. -/
def Options.stretch (l : ℝ) (o : Options ℝ) : Options ℝ :=
  { o with nucleonWidth := l * o.nucleonWidth, constitWidth := l * o.constitWidth, bMin := l * o.bMin, bMax := l * o.bMax, gridMax := l * o.gridMax, gridStep := l * o.gridStep }

theorem collider_stretch {l : ℝ} (hl : 0 < l) (o : Options ℝ) (hA : o.projectileA = mkProton) (hB : o.projectileB = mkProton) (hs : SamplingKeeps l o) (sigma : ℝ) :
    StretchedCollider l (Collider.make o sigma) (Collider.make (o.stretch l) (l^2 * sigma)) where
  nc := { toStretched := make_stretched l _ _ _ _ _ _, sampling := samplingWidth_stretch hl o hs, alpha := rfl, beta := rfl }
  calcNcoll := rfl
  bmin := rfl
  asymmetry := rfl
  bmax := by
    show determineBmax (l * o.bMax) o.projectileA o.projectileB _ = l * determineBmax o.bMax o.projectileA o.projectileB _
    have H := make_stretched l o.nucleonWidth o.constitWidth sigma o.fluctuation o.constitNumber o.ncoll
    unfold determineBmax
    have e : lt (l * o.bMax) (lit 0) = lt o.bMax (lit 0) := by
      have hz : (lit 0 : ℝ) = l * lit 0 := by simp
      conv_lhs => rw [hz]
      exact lt_stretch hl _ _
    rw [e]
    split
    · have r : (mkProton : Nucleus ℝ).radius = 0 := by
        show (lit 0 : ℝ) = 0
        simp
      rw [hA, hB, r, zero_add, zero_add, zero_add]
      show Real.sqrt (NucleonCommon.make (l * o.nucleonWidth) (l * o.constitWidth) o.constitNumber (l^2 * sigma) o.ncoll o.fluctuation).maxImpactSq = l * Real.sqrt _
      rw [H.maxImpactSq, Real.sqrt_mul (sq_nonneg l), Real.sqrt_sq hl.le]
    · rfl

/-- **C116, runs.** A proton-proton run with all lengths of the options multiplied by `l` and the cross section parameter by `l²` has the same events: the same numbers, binary collisions and participants, `l` times the impact
parameters, `l⁻²` times the thicknesses; and, where no floor of 1e-12 is crossed, `l⁻²` times the density and the same multiplicity, centre of mass (in cells) and eccentricities. -/
theorem C116_run [LawfulRng E D] (hN : NormalScales E D) {l : ℝ} (hl : 0 < l) (o : Options ℝ) (hA : o.projectileA = mkProton) (hB : o.projectileB = mkProton) (hs : SamplingKeeps l o)
    (hv : 0 < o.constitWidth) (hstep : 0 < o.gridStep) (sigma : ℝ) (debug : Bool) (rfuel fuel : ℕ) (ev0 ev0' : (n : ℕ) → Event ℝ n) (w : Rand E D) (n : ℕ) (rs : List (EventRecord ℝ n))
    (h : runAll rfuel fuel o sigma debug ev0 w = .ok ⟨n, rs⟩) :
    ∃ rs', runAll rfuel fuel { o with nucleonWidth := l * o.nucleonWidth, constitWidth := l * o.constitWidth, bMin := l * o.bMin, bMax := l * o.bMax, gridMax := l * o.gridMax, gridStep := l * o.gridStep }
        (l^2 * sigma) debug ev0' w = .ok ⟨n, rs'⟩ ∧ List.Forall₂ (SameInUnit l o.reducedThickness) rs rs' := by
  have hh : NucleusHistory E D (mkProton : Nucleus ℝ) := .create false (fun _ => .missing) "p" 0 _ rfl
  have f := record_facts o sigma (by rw [hA]; exact hh) (by rw [hB]; exact hh) hv hstep debug rfuel fuel ev0 w n rs h
  have HC := collider_stretch hl o hA hB hs sigma
  show ∃ rs', runAll rfuel fuel (o.stretch l) (l^2 * sigma) debug ev0' w = .ok ⟨n, rs'⟩ ∧ _
  have kA : (Collider.make o sigma).nucleusA = mkProton := hA
  have kB : (Collider.make o sigma).nucleusB = mkProton := hB
  have kA' : (Collider.make (o.stretch l) (l^2 * sigma)).nucleusA = mkProton := hA
  have kB' : (Collider.make (o.stretch l) (l^2 * sigma)).nucleusB = mkProton := hB
  have kn : (Collider.make (o.stretch l) (l^2 * sigma)).nevents = (Collider.make o sigma).nevents := rfl
  have ks : (o.stretch l).randomSeed = o.randomSeed := rfl
  unfold runAll at h ⊢
  cases hec : EventCfg.make o.normalization o.gridStep o.gridMax o.reducedThickness with
  | error e => rw [hec] at h; cases h
  | ok ec =>
    rw [hec] at h
    have hp := (eventCfg_params hec).2.2
    have hec' : EventCfg.make (o.stretch l).normalization (o.stretch l).gridStep (o.stretch l).gridMax (o.stretch l).reducedThickness = .ok (ec.stretch l) := eventCfg_stretch hl hec
    rw [hec', ks]
    dsimp only at h ⊢
    generalize Collider.make o sigma = c at *
    generalize Collider.make (o.stretch l) (l^2 * sigma) = c' at *
    unfold Collider.runEvents at h ⊢
    rw [kA, kB] at h
    rw [kA', kB', kn]
    cases r1 : runLoop rfuel fuel c ec debug c.nevents.toNat 0 ⟨mkProton, mkProton, ev0 ec.nsteps.toNat, seedRand ℝ o.randomSeed w⟩ with
    | error e => rw [r1] at h; cases h
    | ok q1 =>
      rw [r1] at h
      obtain ⟨rs', t', i1, i2⟩ := runLoop_stretch hN hl HC ec rfuel fuel debug _ _ mkProton mkProton rfl rfl _ _ (ev0' ec.nsteps.toNat) _ _ r1
      rw [proton_stretch] at i1
      erw [i1]
      dsimp only at h ⊢
      cases h
      rw [hp] at i2
      refine ⟨rs', rfl, forall₂_with i2 f (Q := fun _ => True) (fun _ _ => trivial) ?_⟩
      intro r r' hr hf _
      exact hr hf.1

end

/-! ## Concrete cases -/

/-- The model of the standard library's normal numbers scales, whatever the engine. -/
theorem library_scales {E : Type} [Engine ℝ E] : NormalScales E (LibDist ℝ) := by
  intro l s d e
  show libNormal 0 (l * s) d e = (l * (libNormal 0 s d e).1, (libNormal 0 s d e).2)
  unfold libNormal
  split
  · simp
  · dsimp only
    rw [add_zero, add_zero]
    congr 1
    ring

theorem tape_scales : NormalScales Tape Unit := by
  intro l s d e
  show ((0 + l * s * (2 * e.val 0 - 1), (), e.next) : ℝ × Unit × Tape) = (l * (0 + s * (2 * e.val 0 - 1)), (), e.next)
  congr 1
  ring

/-- The two proton-proton events of `exampleOptions` in units of half a femtometre: all lengths doubled, the cross section parameter times four. -/
example : ∃ (ev0 : (n : ℕ) → Event ℝ n) (n : ℕ) (rs rs' : List (EventRecord ℝ n)), runAll 0 1 exampleOptions 100 true ev0 halfTape = .ok ⟨n, rs⟩ ∧
    runAll 0 1 { exampleOptions with nucleonWidth := 2, constitWidth := 2, bMin := 0, bMax := 2, gridMax := 20, gridStep := 0.4 } 400 true ev0 halfTape = .ok ⟨n, rs'⟩ ∧
    List.Forall₂ (fun r r' => r'.b = 2 * r.b ∧ r'.event.npart = r.event.npart ∧ r'.ncoll = r.ncoll ∧ r'.event.multiplicity = r.event.multiplicity) rs rs' := by
  obtain ⟨⟨n, rs⟩, h⟩ := example_run
  obtain ⟨rs', a1, a2⟩ := C116_run tape_scales (l := 2) two_pos exampleOptions rfl rfl (.inl rfl) (by norm_num [exampleOptions]) (by norm_num [exampleOptions]) 100 true 0 1 _
    (fun n => ⟨fun _ _ => 0, fun _ _ => 0, fun _ _ => 0, 0, 0, 0, 0, ⟨0, 0, 0, 0⟩⟩) halfTape n rs h
  have e : ({ exampleOptions with nucleonWidth := 2 * exampleOptions.nucleonWidth, constitWidth := 2 * exampleOptions.constitWidth, bMin := 2 * exampleOptions.bMin, bMax := 2 * exampleOptions.bMax, gridMax := 2 * exampleOptions.gridMax, gridStep := 2 * exampleOptions.gridStep } : Options ℝ) =
      { exampleOptions with nucleonWidth := 2, constitWidth := 2, bMin := 0, bMax := 2, gridMax := 20, gridStep := 0.4 } := by
    unfold exampleOptions; norm_num
  rw [e, show (2:ℝ)^2 * 100 = 400 by norm_num] at a1
  refine ⟨_, n, rs, rs', h, a1, a2.imp fun r r' h => ⟨h.b, h.npart, h.ncoll, (h.density (.inl ?_)).multiplicity⟩⟩
  norm_num [exampleOptions]

example : NormalScales MT (LibDist ℝ) := library_scales

/-- One participant on each side on a grid of 100 by 100 cells, in units of a femtometre and of half a femtometre: a quarter of the density, the same multiplicity and centre of mass. -/
example : ∃ (c c' : EventCfg ℝ) (n : ℕ) (ev ev' ev'' : Event ℝ n), EventCfg.make 1 0.2 10 0 = .ok c ∧ EventCfg.make 1 (2 * 0.2) (2 * 10) 0 = .ok c' ∧
    Event.compute c (NucleonCommon.make (1:ℝ) 1 1 1 false 1) false ev [⟨0, 0, 0, true, true, [⟨0, 0, 1⟩]⟩] [⟨1, 0, 0, true, true, [⟨1, 0, 2⟩]⟩] = .ok ev' ∧
    Event.compute c' (NucleonCommon.make (2:ℝ) 2 1 4 false 1) false ev [⟨0, 0, 0, true, true, [⟨0, 0, 1⟩]⟩] [⟨2, 0, 0, true, true, [⟨2, 0, 2⟩]⟩] = .ok ev'' ∧
    (∀ iy ix, ev''.TR iy ix = ev'.TR iy ix / 4) ∧ ev''.multiplicity = ev'.multiplicity ∧ ev''.ixcm = ev'.ixcm := by
  obtain ⟨c, hc⟩ := C20_grid_exists 1 0.2 10 0 (by norm_num) (by norm_num) (by norm_num)
  obtain ⟨g1, g2, g3, -⟩ := C20_grid_geometry 1 0.2 10 0 (by norm_num) (by norm_num) c hc
  obtain ⟨p1, p2, p3⟩ := eventCfg_params hc
  have hns : c.nsteps = (100 : ℕ) := by
    rw [g1]; norm_num
  have hxy : c.xymax = 10 := by rw [hns] at g3; norm_num at g3; linarith
  obtain ⟨ev', h⟩ := C22_deposition_in_bounds 1 1 1 1 false 1 one_pos c (by rw [p2]; norm_num) false 100 hns (by norm_num)
    [⟨0, 0, 0, true, true, [⟨0, 0, 1⟩]⟩] [⟨1, 0, 0, true, true, [⟨1, 0, 2⟩]⟩] 1 (by
      intro a ha hp
      simp only [List.singleton_append, List.mem_cons, List.not_mem_nil, or_false] at ha
      rcases ha with rfl | rfl
      · simp
      · simp) (by rw [hxy, p2]; norm_num) ⟨fun _ _ => 0, fun _ _ => 0, fun _ _ => 0, 0, 0, 0, 0, ⟨0, 0, 0, 0⟩⟩
  have hn := fun iy ix => C21_thickness_nonneg 1 1 1 1 false 1 one_pos c (by rw [p2]; norm_num) false 100 hns _ _ (by
    intro a ha hp
    simp only [List.mem_cons, List.not_mem_nil, or_false] at ha
    subst ha; simp) (by
    intro a ha hp
    simp only [List.mem_cons, List.not_mem_nil, or_false] at ha
    subst ha; simp) _ _ h iy ix
  obtain ⟨c', ev'', hc', -, h', -, -, k⟩ := C116_event (l := 2) two_pos 1 1 1 1 1 false 1 0.2 10 0 c hc false _ ⟨fun _ _ => 0, fun _ _ => 0, fun _ _ => 0, 0, 0, 0, 0, ⟨0, 0, 0, 0⟩⟩ ev' _ _ h
  have k := k hn (.inl (by norm_num))
  refine ⟨c, c', 100, _, ev', ev'', hc, hc', h, ?_, fun iy ix => ?_, k.multiplicity, k.xcentre⟩
  · rw [← h']
    unfold NucleonData.stretch
    norm_num
  · rw [k.density]; norm_num

/-- Two nucleons at distance 1 and a random number 1/2, in units of a femtometre and of half a femtometre. -/
example : ∃ (hit : Bool) (A' B' : NucleonData ℝ) (r' : Rand Tape Unit),
    (NucleonCommon.make (1:ℝ) 1 1 100 false 1).participate ⟨0, 0, 0, false, true, [⟨0, 0, 1⟩]⟩ ⟨1, 0, 0, false, true, [⟨1, 0, 1⟩]⟩ halfTape = ((hit, A', B'), r') ∧
    (NucleonCommon.make (2:ℝ) 2 1 400 false 1).participate ⟨0, 0, 0, false, true, [⟨0, 0, 1⟩]⟩ ⟨2, 0, 0, false, true, [⟨2, 0, 1⟩]⟩ halfTape = ((hit, A'.stretch 2, B'.stretch 2), r') := by
  obtain ⟨⟨⟨hit, A', B'⟩, r'⟩, h⟩ : ∃ q, (NucleonCommon.make (1:ℝ) 1 1 100 false 1).participate ⟨0, 0, 0, false, true, [⟨0, 0, 1⟩]⟩ ⟨1, 0, 0, false, true, [⟨1, 0, 1⟩]⟩ halfTape = q := ⟨_, rfl⟩
  have h' := C116_participate (l := 2) two_pos 1 1 100 1 1 false _ _ rfl rfl halfTape _ _ _ _ h
  rw [show (2:ℝ) * 1 = 2 by norm_num, show (2:ℝ)^2 * 100 = 400 by norm_num] at h'
  refine ⟨hit, A', B', r', h, ?_⟩
  rw [← h']
  unfold NucleonData.stretch
  norm_num

end Trento
