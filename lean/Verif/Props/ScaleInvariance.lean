import Verif.Props.DensityOptions

/-!
# C115: overall scale of the density

Multiplying the normalization, or all the constituent weights of an event, by a positive number multiplies the density by that
number and leaves its shape alone: the centre of mass always, the eccentricities as long as the floors of 1e-12 are not crossed.
-/

namespace Trento.Spec
open Trento

/-- The moment that stands in the denominator of eccentricity `k`, before its floor of 1e-12. -/
noncomputable def shapeMoment {n : ℕ} (T : Fin n → Fin n → ℝ) (k : ℕ) : ℝ :=
  ∑ iy, ∑ ix, T iy ix * ‖cellZ (comX T) (comY T) iy ix‖^k

/-- `x` is on the same side of the floor of 1e-12 before and after a multiplication by `s`: it is zero, or not below the floor on both sides. -/
def KeepsFloor (s x : ℝ) : Prop := x = 0 ∨ (1e-12 ≤ x ∧ 1e-12 ≤ s * x)

/-- The floors of 1e-12 do not tell a grid from `s` times that grid, as far as eccentricity `k` goes. -/
def KeepsShape {n : ℕ} (s : ℝ) (T : Fin n → Fin n → ℝ) (k : ℕ) : Prop :=
  (∀ iy ix, KeepsFloor s (T iy ix)) ∧ KeepsFloor s (shapeMoment T k)

end Trento.Spec

namespace Trento
open Spec

/-! ## The formulas -/

theorem gridSum_scale {n : ℕ} (s : ℝ) (T : Fin n → Fin n → ℝ) : gridSum (fun iy ix => s * T iy ix) = s * gridSum T := by
  unfold gridSum
  simp only [← Finset.mul_sum]

/-- **C115, centre of mass.** -/
theorem C115_centre {n : ℕ} {s : ℝ} (hs : s ≠ 0) (T : Fin n → Fin n → ℝ) :
    comX (fun iy ix => s * T iy ix) = comX T ∧ comY (fun iy ix => s * T iy ix) = comY T := by
  unfold comX comY
  constructor
  all_goals
    rw [gridSum_scale]
    simp only [mul_assoc]
    rw [gridSum_scale, mul_div_mul_left _ _ hs]

theorem keepsFloor_lt {s x : ℝ} (h : KeepsFloor s x) : (if s * x < 1e-12 then (0:ℝ) else s * x) = s * x ∧ (if x < 1e-12 then (0:ℝ) else x) = x := by
  rcases h with rfl | ⟨h1, h2⟩
  · simp
  · rw [if_neg (not_lt.mpr h1), if_neg (not_lt.mpr h2)]
    exact ⟨rfl, rfl⟩

/-- **C115, eccentricities.** A positive multiple of a grid has the same eccentricities, as long as the floors of 1e-12 are not crossed. -/
theorem C115_eccentricity {n : ℕ} {s : ℝ} (hs : 0 < s) (T : Fin n → Fin n → ℝ) (k : ℕ) (h : KeepsShape s T k) :
    eccentricity (fun iy ix => s * T iy ix) k = eccentricity T k := by
  obtain ⟨hT, hW⟩ := h
  obtain ⟨cx, cy⟩ := C115_centre hs.ne' T
  unfold eccentricity
  rw [cx, cy]
  unfold eccentricityAbout
  unfold shapeMoment at hW
  generalize hz : cellZ (comX T) (comY T) = z at *
  have e1 : ∀ iy ix, (if s * T iy ix < 1e-12 then (0:ℂ) else ((s * T iy ix : ℝ) : ℂ) * (z iy ix)^k) = (s : ℂ) * ((T iy ix : ℂ) * (z iy ix)^k) := by
    intro iy ix
    rcases hT iy ix with h0 | ⟨-, h2⟩
    · rw [h0]; simp
    · rw [if_neg (not_lt.mpr h2)]; push_cast; ring
  have e2 : ∀ iy ix, (if T iy ix < 1e-12 then (0:ℂ) else (T iy ix : ℂ) * (z iy ix)^k) = (T iy ix : ℂ) * (z iy ix)^k := by
    intro iy ix
    rcases hT iy ix with h0 | ⟨h1, -⟩
    · rw [h0]; simp
    · rw [if_neg (not_lt.mpr h1)]
  have e3 : ∀ iy ix, (if s * T iy ix < 1e-12 then (0:ℝ) else s * T iy ix * ‖z iy ix‖^k) = s * (T iy ix * ‖z iy ix‖^k) := by
    intro iy ix
    rcases hT iy ix with h0 | ⟨-, h2⟩
    · rw [h0]; simp
    · rw [if_neg (not_lt.mpr h2)]; ring
  have e4 : ∀ iy ix, (if T iy ix < 1e-12 then (0:ℝ) else T iy ix * ‖z iy ix‖^k) = T iy ix * ‖z iy ix‖^k := by
    intro iy ix
    rcases hT iy ix with h0 | ⟨h1, -⟩
    · rw [h0]; simp
    · rw [if_neg (not_lt.mpr h1)]
  simp only [e1, e2, e3, e4, ← Finset.mul_sum]
  rw [norm_mul, Complex.norm_real, Real.norm_of_nonneg hs.le]
  rcases hW with hW | ⟨h1, h2⟩
  · have hN : ‖∑ iy, ∑ ix, (T iy ix : ℂ) * (z iy ix)^k‖ = 0 := by
      apply le_antisymm _ (norm_nonneg _)
      rw [← hW]
      refine (norm_sum_le _ _).trans (Finset.sum_le_sum fun iy _ => (norm_sum_le _ _).trans (Finset.sum_le_sum fun ix _ => ?_))
      rw [norm_mul, norm_pow, Complex.norm_real, Real.norm_of_nonneg]
      rcases hT iy ix with h0 | ⟨h1, -⟩
      · exact h0.ge
      · exact le_trans (by norm_num) h1
    rw [hN]; simp
  · rw [max_eq_left h1, max_eq_left h2, mul_div_mul_left _ _ hs.ne']

/-- **C115, generalized mean.** A common factor of the two thicknesses comes out of the mean, as long as (for `p < 0`) the floors are not crossed. -/
theorem C115_mean {s : ℝ} (hs : 0 < s) (p a b : ℝ) (ha : 0 ≤ a) (hb : 0 ≤ b) (h : -1e-12 < p ∨ (KeepsFloor s a ∧ KeepsFloor s b)) :
    trentoMean p (s * a) (s * b) = s * trentoMean p a b := by
  have hmain : ∀ q : ℝ, q ≠ 0 → ((s * a)^q + (s * b)^q) / 2 = s^q * ((a^q + b^q) / 2) := by
    intro q _
    rw [Real.mul_rpow hs.le ha, Real.mul_rpow hs.le hb]; ring
  have hout : ∀ q : ℝ, q ≠ 0 → (((s * a)^q + (s * b)^q) / 2) ^ (1 / q) = s * ((a^q + b^q) / 2) ^ (1 / q) := by
    intro q hq
    have : 0 ≤ a^q := Real.rpow_nonneg ha q
    have : 0 ≤ b^q := Real.rpow_nonneg hb q
    rw [hmain q hq, Real.mul_rpow (Real.rpow_nonneg hs.le q) (by positivity), ← Real.rpow_mul hs.le, mul_one_div_cancel hq, Real.rpow_one]
  unfold trentoMean
  by_cases hp : |p| < 1e-12
  · rw [if_pos hp, if_pos hp]
    unfold powerMean
    rw [if_pos rfl, if_pos rfl]
    have : s * a * (s * b) = s^2 * (a * b) := by ring
    rw [this, Real.sqrt_mul (sq_nonneg s), Real.sqrt_sq hs.le]
  · have hp0 : p ≠ 0 := by rintro rfl; exact hp (by norm_num)
    rw [if_neg hp, if_neg hp]
    by_cases hn : p < 0
    · have hfl : KeepsFloor s a ∧ KeepsFloor s b := by
        rcases h with h | h
        · exact absurd (abs_lt.mpr ⟨h, by linarith [show (0:ℝ) < 1e-12 by norm_num]⟩) hp
        · exact h
      have iff1 : ∀ x, KeepsFloor s x → (s * x < 1e-12 ↔ x < 1e-12) := by
        rintro x (rfl | ⟨h1, h2⟩)
        · simp
        · exact ⟨fun h => absurd h (not_lt.mpr h2), fun h => absurd h (not_lt.mpr h1)⟩
      simp only [iff1 a hfl.1, iff1 b hfl.2]
      split
      · simp
      · rename_i hc
        simp only [hn, true_and, not_or, not_lt] at hc
        have a0 : a ≠ 0 := by rintro rfl; exact absurd hc.1 (by norm_num)
        have b0 : b ≠ 0 := by rintro rfl; exact absurd hc.2 (by norm_num)
        unfold powerMean
        rw [if_neg hp0, if_neg hp0, if_neg (by simp [a0, b0, hs.ne']), if_neg (by simp [a0, b0]), hout p hp0]
    · rw [if_neg (by simp [hn]), if_neg (by simp [hn])]
      unfold powerMean
      rw [if_neg hp0, if_neg hp0, if_neg (by simp [hn]), if_neg (by simp [hn]), hout p hp0]

/-! ## The constituent weights -/

/-- The same nucleon with all constituent weights multiplied by `s`. -/
def NucleonData.scaleWeights (s : ℝ) (a : NucleonData ℝ) : NucleonData ℝ :=
  { a with constituents := a.constituents.map fun q => ⟨q.x, q.y, s * q.fluctuation⟩ }

theorem thicknessLoop_scale (s : ℝ) (nc : NucleonCommon ℝ) (debug : Bool) (x y : ℝ) (l : List (Constituent ℝ)) (t : ℝ) :
    nc.thicknessLoop debug x y (l.map fun q => (⟨q.x, q.y, s * q.fluctuation⟩ : Constituent ℝ)) (s * t) = (nc.thicknessLoop debug x y l t).map (s * ·) := by
  induction l generalizing t with
  | nil => rfl
  | cons q l ih =>
    rw [List.map_cons, NucleonCommon.thicknessLoop, NucleonCommon.thicknessLoop]
    dsimp only
    split
    · split
      · rfl
      · rename_i ex _
        rw [← ih]
        congr 1
        ring
    · exact ih t

theorem thickness_scale (s : ℝ) (nc : NucleonCommon ℝ) (debug : Bool) (a : NucleonData ℝ) (x y : ℝ) :
    nc.thickness debug (a.scaleWeights s) x y = (nc.thickness debug a x y).map (s * ·) := by
  have h := thicknessLoop_scale s nc debug x y a.constituents 0
  rw [mul_zero] at h
  have hz : (lit 0 : ℝ) = 0 := by simp
  unfold NucleonCommon.thickness
  rw [hz]
  have hc : (a.scaleWeights s).constituents = a.constituents.map fun q => (⟨q.x, q.y, s * q.fluctuation⟩ : Constituent ℝ) := rfl
  rw [hc, h]
  cases nc.thicknessLoop debug x y a.constituents 0 with
  | error e => rfl
  | ok t =>
    show Except.ok (nc.prefactor * (s * t)) = Except.ok (s * (nc.prefactor * t))
    congr 1; ring

theorem boundaryLoop_scale (s : ℝ) (l : List (Constituent ℝ)) (b : Box ℝ) :
    boundaryLoop (l.map fun q => (⟨q.x, q.y, s * q.fluctuation⟩ : Constituent ℝ)) b = boundaryLoop l b := by
  induction l generalizing b with
  | nil => rfl
  | cons q l ih => rw [List.map_cons, boundaryLoop, boundaryLoop, ih]

theorem boundary_scale (s : ℝ) (nc : NucleonCommon ℝ) (a : NucleonData ℝ) : nc.boundary (a.scaleWeights s) = nc.boundary a := by
  unfold NucleonCommon.boundary NucleonData.scaleWeights
  cases a.constituents with
  | nil => rfl
  | cons q l =>
    simp only [List.map_cons, boundaryLoop_scale]

/-- `s` times a grid -/
def scaleGrid {n : ℕ} (s : ℝ) (g : Grid ℝ n) : Grid ℝ n := fun iy ix => s * g iy ix

theorem addAt_scale {n : ℕ} (s : ℝ) (g : Grid ℝ n) (iy ix : ℤ) (v : ℝ) : (scaleGrid s g).addAt iy ix (s * v) = (g.addAt iy ix v).map (scaleGrid s) := by
  unfold Grid.addAt
  split
  · show Except.ok _ = Except.ok _
    congr 1
    funext ky kx
    unfold scaleGrid
    dsimp only
    split
    · ring
    · rfl
  · rfl

theorem depositCell_scale {n : ℕ} (s : ℝ) (c : EventCfg ℝ) (nc : NucleonCommon ℝ) (debug : Bool) (a : NucleonData ℝ) (iy ix : ℤ) (g : Grid ℝ n) :
    depositCell c nc debug (a.scaleWeights s) iy ix (scaleGrid s g) = (depositCell c nc debug a iy ix g).map (scaleGrid s) := by
  unfold depositCell
  rw [thickness_scale]
  cases nc.thickness debug a (c.center ix) (c.center iy) with
  | error e => rfl
  | ok t => exact addAt_scale s g iy ix t

theorem forRes_scale {ι S : Type} (m : S → S) (f f' : ι → S → Res S) (hf : ∀ i x, f' i (m x) = (f i x).map m) (l : List ι) (x : S) :
    forRes f' l (m x) = (forRes f l x).map m := by
  induction l generalizing x with
  | nil => rfl
  | cons i l ih =>
    rw [forRes, forRes, hf]
    cases f i x with
    | error e => rfl
    | ok y => exact ih y

theorem depositNucleon_scale {n : ℕ} (s : ℝ) (c : EventCfg ℝ) (nc : NucleonCommon ℝ) (debug : Bool) (a : NucleonData ℝ) (g : Grid ℝ n) :
    depositNucleon c nc debug (a.scaleWeights s) (scaleGrid s g) = (depositNucleon c nc debug a g).map (scaleGrid s) := by
  unfold depositNucleon
  rw [boundary_scale]
  simp only [bind, Except.bind]
  cases nc.boundary a with
  | error e => rfl
  | ok b =>
    dsimp only
    cases c.index b.xmin with
    | error e => rfl
    | ok i1 =>
      dsimp only
      cases c.index b.xmax with
      | error e => rfl
      | ok i2 =>
        dsimp only
        cases c.index b.ymin with
        | error e => rfl
        | ok i3 =>
          dsimp only
          cases c.index b.ymax with
          | error e => rfl
          | ok i4 =>
            dsimp only
            exact forRes_scale (scaleGrid s) _ _ (fun iy g => forRes_scale (scaleGrid s) _ _ (fun ix g => depositCell_scale s c nc debug a iy ix g) _ g) _ g

theorem depositAll_scale {n : ℕ} (s : ℝ) (c : EventCfg ℝ) (nc : NucleonCommon ℝ) (debug : Bool) (l : List (NucleonData ℝ)) (g : Grid ℝ n) (j : ℕ) :
    depositAll c nc debug (l.map (NucleonData.scaleWeights s)) (scaleGrid s g, j) = (depositAll c nc debug l (g, j)).map fun r => (scaleGrid s r.1, r.2) := by
  induction l generalizing g j with
  | nil => rfl
  | cons a l ih =>
    rw [List.map_cons, depositAll, depositAll]
    have hp : (a.scaleWeights s).isParticipant = a.isParticipant := rfl
    rw [hp, depositNucleon_scale]
    split
    · cases depositNucleon c nc debug a g with
      | error e => rfl
      | ok g' => exact ih g' (j+1)
    · exact ih g j

/-- **C115, weights.** Multiply all constituent weights of an event by one number `s`. The event still succeeds, with the same participants and `s` times the two thickness grids. For `s > 0`, if for a negative `p` the
thicknesses do not cross the floor, the reduced thickness and the multiplicity are multiplied by `s` and the centre of mass stays; an eccentricity stays if its floors are not crossed. -/
theorem C115_weights (c : EventCfg ℝ) (nc : NucleonCommon ℝ) (debug : Bool) {n : ℕ} (ev ev₁ ev' : Event ℝ n) (A B : List (NucleonData ℝ)) (s : ℝ)
    (h : Event.compute c nc debug ev A B = .ok ev') :
    ∃ ev'', Event.compute c nc debug ev₁ (A.map (NucleonData.scaleWeights s)) (B.map (NucleonData.scaleWeights s)) = .ok ev'' ∧
      ev''.npart = ev'.npart ∧ (∀ iy ix, ev''.TA iy ix = s * ev'.TA iy ix ∧ ev''.TB iy ix = s * ev'.TB iy ix) ∧
      (0 < s → (∀ iy ix, 0 ≤ ev'.TA iy ix ∧ 0 ≤ ev'.TB iy ix) →
        (-1e-12 < c.p ∨ ∀ iy ix, KeepsFloor s (ev'.TA iy ix) ∧ KeepsFloor s (ev'.TB iy ix)) →
        (∀ iy ix, ev''.TR iy ix = s * ev'.TR iy ix) ∧ ev''.multiplicity = s * ev'.multiplicity ∧ ev''.ixcm = ev'.ixcm ∧ ev''.iycm = ev'.iycm ∧
        (KeepsShape s ev'.TR 2 → ev''.ecc.e2 = ev'.ecc.e2) ∧ (KeepsShape s ev'.TR 3 → ev''.ecc.e3 = ev'.ecc.e3) ∧
        (KeepsShape s ev'.TR 4 → ev''.ecc.e4 = ev'.ecc.e4) ∧ (KeepsShape s ev'.TR 5 → ev''.ecc.e5 = ev'.ecc.e5)) := by
  obtain ⟨TA, TB, npA, npB, d1, d2, he⟩ := compute_ok h
  have hz : (fun _ _ => lit 0 : Grid ℝ n) = scaleGrid s (fun _ _ => lit 0) := by
    funext iy ix; simp [scaleGrid]
  have d1' := depositAll_scale s c nc debug A (fun _ _ => lit 0 : Grid ℝ n) 0
  rw [d1, ← hz] at d1'
  have d2' := depositAll_scale s c nc debug B (fun _ _ => lit 0 : Grid ℝ n) npA
  rw [d2, ← hz] at d2'
  have h2 : Event.compute c nc debug ev₁ (A.map (NucleonData.scaleWeights s)) (B.map (NucleonData.scaleWeights s)) =
      .ok (computeObservables (computeReducedThickness c { ev₁ with TA := scaleGrid s TA, TB := scaleGrid s TB, npart := npB })) := by
    unfold Event.compute computeNuclearThickness
    simp only [d1', d2', Except.map]
  refine ⟨_, h2, by rw [he]; rfl, fun iy ix => by rw [he]; exact ⟨rfl, rfl⟩, fun hs hn hk => ?_⟩
  have hT : ∀ iy ix, (computeObservables (computeReducedThickness c { ev₁ with TA := scaleGrid s TA, TB := scaleGrid s TB, npart := npB })).TR iy ix = s * ev'.TR iy ix := by
    intro iy ix
    rw [C25_reduced_thickness _ _ _ _ _ _ _ _ h2, C25_reduced_thickness _ _ _ _ _ _ _ _ h]
    have a1 : ev'.TA = TA := by rw [he]; rfl
    have a2 : ev'.TB = TB := by rw [he]; rfl
    rw [a1, a2] at hn hk
    rw [a1, a2]
    show c.norm * trentoMean c.p (s * TA iy ix) (s * TB iy ix) = _
    rw [C115_mean hs c.p _ _ (hn iy ix).1 (hn iy ix).2 (hk.imp id fun h => h iy ix)]
    ring
  generalize computeObservables (computeReducedThickness c { ev₁ with TA := scaleGrid s TA, TB := scaleGrid s TB, npart := npB }) = ev'' at *
  have hg : ev''.TR = fun iy ix => s * ev'.TR iy ix := by funext iy ix; exact hT iy ix
  obtain ⟨x1, y1, p2, p3, p4, p5⟩ := C28_eccentricities _ _ _ _ _ _ _ _ h2
  obtain ⟨x0, y0, q2, q3, q4, q5⟩ := C28_eccentricities _ _ _ _ _ _ _ _ h
  obtain ⟨cx, cy⟩ := C115_centre hs.ne' ev'.TR
  refine ⟨hT, ?_, by rw [x1, x0, hg, cx], by rw [y1, y0, hg, cy], fun k => ?_, fun k => ?_, fun k => ?_, fun k => ?_⟩
  · rw [C27_multiplicity _ _ _ _ _ _ _ _ h2, C27_multiplicity _ _ _ _ _ _ _ _ h, hg, gridSum_scale]; ring
  · rw [p2, q2, hg, C115_eccentricity hs _ _ k]
  · rw [p3, q3, hg, C115_eccentricity hs _ _ k]
  · rw [p4, q4, hg, C115_eccentricity hs _ _ k]
  · rw [p5, q5, hg, C115_eccentricity hs _ _ k]

/-! ## The normalization -/

variable {E D : Type} [Rng ℝ E D]

/-- the shape of every record of a run is that of its reduced thickness -/
theorem record_shape (o : Options ℝ) (sigma : ℝ) (hA : NucleusHistory E D o.projectileA) (hB : NucleusHistory E D o.projectileB) (debug : Bool) (rfuel fuel : ℕ)
    (ev0 : (n : ℕ) → Event ℝ n) (w : Rand E D) (n : ℕ) (rs : List (EventRecord ℝ n)) (h : runAll rfuel fuel o sigma debug ev0 w = .ok ⟨n, rs⟩) :
    ∀ r ∈ rs, r.event.ixcm = comX r.event.TR ∧ r.event.iycm = comY r.event.TR ∧ r.event.ecc.e2 = eccentricity r.event.TR 2 ∧ r.event.ecc.e3 = eccentricity r.event.TR 3 ∧
      r.event.ecc.e4 = eccentricity r.event.TR 4 ∧ r.event.ecc.e5 = eccentricity r.event.TR 5 := by
  obtain ⟨ec, -, -, key⟩ := runAll_records_inv o sigma debug (P := fun _ => True) (E := E) (D := D) ⟨fun _ _ _ => trivial, fun _ _ _ => trivial⟩
    (fun _ _ _ => trivial) hA hB rfuel fuel ev0 w n rs h
  intro r hr
  obtain ⟨A, B, -, -, -, -, -, hcomp⟩ := key r hr
  exact C28_eccentricities _ _ _ _ _ _ _ _ (hcomp (ev0 n))

/-- **C115, normalization.** Multiplying `--normalization` by a positive `s` multiplies the density and the multiplicity of every event by `s`, leaves its geometry, its thickness grids and its centre of mass
alone, and leaves each eccentricity alone whose floors of 1e-12 are not crossed. -/
theorem C115_normalization [LawfulRng E D] (o : Options ℝ) (s sigma : ℝ) (hs : 0 < s) (hA : NucleusHistory E D o.projectileA) (hB : NucleusHistory E D o.projectileB)
    (hv : 0 < o.constitWidth) (hstep : 0 < o.gridStep) (debug : Bool) (rfuel fuel : ℕ) (ev0 ev0' : (n : ℕ) → Event ℝ n) (w : Rand E D) (n : ℕ) (rs : List (EventRecord ℝ n))
    (h : runAll rfuel fuel o sigma debug ev0 w = .ok ⟨n, rs⟩) :
    ∃ rs', runAll rfuel fuel { o with normalization := s * o.normalization } sigma debug ev0' w = .ok ⟨n, rs'⟩ ∧
      List.Forall₂ (fun r r' => SameThickness r r' ∧ (∀ iy ix, r'.event.TR iy ix = s * r.event.TR iy ix) ∧ r'.event.multiplicity = s * r.event.multiplicity ∧
        r'.event.ixcm = r.event.ixcm ∧ r'.event.iycm = r.event.iycm ∧
        (KeepsShape s r.event.TR 2 → r'.event.ecc.e2 = r.event.ecc.e2) ∧ (KeepsShape s r.event.TR 3 → r'.event.ecc.e3 = r.event.ecc.e3) ∧
        (KeepsShape s r.event.TR 4 → r'.event.ecc.e4 = r.event.ecc.e4) ∧ (KeepsShape s r.event.TR 5 → r'.event.ecc.e5 = r.event.ecc.e5)) rs rs' := by
  obtain ⟨rs', h', hr⟩ := C111_normalization o s sigma hA hB hv hstep debug rfuel fuel ev0 ev0' w n rs h
  have f := record_shape o sigma hA hB debug rfuel fuel ev0 w n rs h
  have f' := record_shape { o with normalization := s * o.normalization } sigma hA hB debug rfuel fuel ev0' w n rs' h'
  refine ⟨rs', h', forall₂_with hr f f' ?_⟩
  rintro r r' ⟨st, hT, hm⟩ ⟨x0, y0, q2, q3, q4, q5⟩ ⟨x1, y1, p2, p3, p4, p5⟩
  have hg : r'.event.TR = fun iy ix => s * r.event.TR iy ix := by funext iy ix; exact hT iy ix
  obtain ⟨cx, cy⟩ := C115_centre hs.ne' r.event.TR
  refine ⟨st, hT, hm, by rw [x1, x0, hg, cx], by rw [y1, y0, hg, cy], fun k => ?_, fun k => ?_, fun k => ?_, fun k => ?_⟩
  · rw [p2, q2, hg, C115_eccentricity hs _ _ k]
  · rw [p3, q3, hg, C115_eccentricity hs _ _ k]
  · rw [p4, q4, hg, C115_eccentricity hs _ _ k]
  · rw [p5, q5, hg, C115_eccentricity hs _ _ k]

/-! ## Concrete cases -/

/-- two neighbouring cells of density 1 -/
def twoCells : Fin 2 → Fin 2 → ℝ := fun iy _ => if iy = 0 then 1 else 0

theorem twoCells_com : comX twoCells = 1/2 ∧ comY twoCells = 0 := by
  unfold comX comY gridSum twoCells
  simp [Fin.sum_univ_two]

theorem twoCells_norm (iy ix : Fin 2) : ‖cellZ (comX twoCells) (comY twoCells) iy ix‖^2 = ((ix.val : ℝ) - 1/2)^2 + (iy.val : ℝ)^2 := by
  rw [twoCells_com.1, twoCells_com.2, ← Complex.normSq_eq_norm_sq]
  unfold cellZ
  simp [Complex.normSq_apply]
  ring

theorem twoCells_moment : shapeMoment twoCells 2 = 1/2 := by
  unfold shapeMoment
  simp only [twoCells_norm, Fin.sum_univ_two]
  simp [twoCells]
  norm_num

theorem twoCells_keeps : KeepsShape 3 twoCells 2 := by
  refine ⟨fun iy ix => ?_, .inr ?_⟩
  · unfold twoCells
    split
    · right; norm_num
    · left; rfl
  · rw [twoCells_moment]; norm_num

/-- **C115, floors.** The floors are real: two neighbouring cells have eccentricity 1, and `10^-13` times these two cells have eccentricity 0. -/
theorem C115_floors : eccentricity twoCells 2 = 1 ∧ eccentricity (fun iy ix => 1e-13 * twoCells iy ix) 2 = 0 := by
  constructor
  · unfold eccentricity eccentricityAbout
    rw [twoCells_com.1, twoCells_com.2]
    have hz : ∀ iy ix : Fin 2, ‖cellZ (1/2) 0 iy ix‖^2 = ((ix.val : ℝ) - 1/2)^2 + (iy.val : ℝ)^2 := by
      have := twoCells_norm
      rwa [twoCells_com.1, twoCells_com.2] at this
    simp only [hz, Fin.sum_univ_two]
    have e0 : (cellZ (1/2) 0 (0 : Fin 2) 0)^2 = ((1/4 : ℝ) : ℂ) := by
      apply Complex.ext <;> simp [cellZ, pow_two] <;> norm_num
    have e1 : (cellZ (1/2) 0 (0 : Fin 2) 1)^2 = ((1/4 : ℝ) : ℂ) := by
      apply Complex.ext <;> simp [cellZ, pow_two] <;> norm_num
    rw [e0, e1]
    have t0 : ∀ ix, twoCells 0 ix = 1 := fun ix => by simp [twoCells]
    have t1 : ∀ ix, twoCells 1 ix = 0 := fun ix => by simp [twoCells]
    simp only [t0, t1]
    have c1 : ¬ (1:ℝ) < 1e-12 := by norm_num
    have c0 : (0:ℝ) < 1e-12 := by norm_num
    simp only [c1, c0, if_true, if_false]
    norm_num
  · unfold eccentricity eccentricityAbout
    have hlt : ∀ iy ix, 1e-13 * twoCells iy ix < 1e-12 := by
      intro iy ix
      unfold twoCells
      split <;> norm_num
    simp only [hlt, if_true]
    simp

example : KeepsShape 3 twoCells 2 ∧ eccentricity (fun iy ix => 3 * twoCells iy ix) 2 = eccentricity twoCells 2 :=
  ⟨twoCells_keeps, C115_eccentricity (by norm_num) _ _ twoCells_keeps⟩

/-- The generalized mean of 2 and 8 times 1 and 4, for a negative `p`. -/
example : trentoMean (-1) (2 * 1) (2 * 4) = 2 * trentoMean (-1) 1 4 :=
  C115_mean (by norm_num) _ _ _ (by norm_num) (by norm_num) (.inr ⟨.inr (by norm_num), .inr (by norm_num)⟩)

/-- An event of one participant on each side whose weights are tripled: three times the density and the multiplicity, the same centre of mass. -/
example : ∃ (c : EventCfg ℝ) (n : ℕ) (ev ev' ev'' : Event ℝ n) (A B : List (NucleonData ℝ)), A = [⟨0, 0, 0, true, true, [⟨0, 0, 1⟩]⟩] ∧ B = [⟨1, 0, 0, true, true, [⟨1, 0, 2⟩]⟩] ∧
    Event.compute c (NucleonCommon.make (1:ℝ) 1 1 1 false 1) false ev A B = .ok ev' ∧
    Event.compute c (NucleonCommon.make (1:ℝ) 1 1 1 false 1) false ev (A.map (NucleonData.scaleWeights 3)) (B.map (NucleonData.scaleWeights 3)) = .ok ev'' ∧
    ev''.multiplicity = 3 * ev'.multiplicity ∧ ev''.ixcm = ev'.ixcm ∧ ∀ iy ix, ev''.TR iy ix = 3 * ev'.TR iy ix := by
  obtain ⟨c, hc⟩ := C20_grid_exists 1 0.2 10 0 (by norm_num) (by norm_num) (by norm_num)
  obtain ⟨g1, g2, g3, -⟩ := C20_grid_geometry 1 0.2 10 0 (by norm_num) (by norm_num) c hc
  obtain ⟨p1, p2, p3⟩ := eventCfg_params hc
  have hns : c.nsteps = (100 : ℕ) := by
    rw [g1]; norm_num
  have hxy : c.xymax = 10 := by rw [hns] at g3; norm_num at g3; linarith
  obtain ⟨ev', h⟩ := C22_deposition_in_bounds 1 1 1 1 false 1 one_pos c (by rw [p2]; norm_num) false 100 hns (by norm_num)
    [⟨0, 0, 0, true, true, [⟨0, 0, 1⟩]⟩] [⟨1, 0, 0, true, true, [⟨1, 0, 2⟩]⟩] 1 (by
      intro a ha hp
      simp only [List.singleton_append, List.mem_cons, List.not_mem_nil, or_false] at ha
      rcases ha with rfl | rfl
      · simp
      · simp) (by rw [hxy, p2]; norm_num) ⟨fun _ _ => 0, fun _ _ => 0, fun _ _ => 0, 0, 0, 0, 0, ⟨0, 0, 0, 0⟩⟩
  obtain ⟨ev'', h'', -, -, k⟩ := C115_weights c _ false _ ⟨fun _ _ => 0, fun _ _ => 0, fun _ _ => 0, 0, 0, 0, 0, ⟨0, 0, 0, 0⟩⟩ ev' _ _ 3 h
  have hn := fun iy ix => C21_thickness_nonneg 1 1 1 1 false 1 one_pos c (by rw [p2]; norm_num) false 100 hns _ _ (by
    intro a ha hp
    simp only [List.mem_cons, List.not_mem_nil, or_false] at ha
    subst ha; simp) (by
    intro a ha hp
    simp only [List.mem_cons, List.not_mem_nil, or_false] at ha
    subst ha; simp) _ _ h iy ix
  obtain ⟨k1, k2, k3, -⟩ := k (by norm_num) hn (.inl (by rw [p3]; norm_num))
  exact ⟨c, 100, _, ev', ev'', _, _, rfl, rfl, h, h'', k2, k3, k1⟩

/-- The two proton-proton events of `exampleOptions` with three times the normalization. -/
example : ∃ (ev0 : (n : ℕ) → Event ℝ n) (n : ℕ) (rs rs' : List (EventRecord ℝ n)), runAll 0 1 exampleOptions 100 true ev0 halfTape = .ok ⟨n, rs⟩ ∧
    runAll 0 1 { exampleOptions with normalization := 3 } 100 true ev0 halfTape = .ok ⟨n, rs'⟩ ∧
    List.Forall₂ (fun r r' => r'.event.multiplicity = 3 * r.event.multiplicity ∧ r'.event.ixcm = r.event.ixcm ∧ r'.event.iycm = r.event.iycm) rs rs' := by
  obtain ⟨⟨n, rs⟩, h⟩ := example_run
  have hh : NucleusHistory Tape Unit (mkProton : Nucleus ℝ) := .create false (fun _ => .missing) "p" 0 _ rfl
  obtain ⟨rs', a1, a2⟩ := C115_normalization exampleOptions 3 100 (by norm_num) hh hh (by norm_num [exampleOptions]) (by norm_num [exampleOptions]) true 0 1 _ (fun n => ⟨fun _ _ => 0, fun _ _ => 0, fun _ _ => 0, 0, 0, 0, 0, ⟨0, 0, 0, 0⟩⟩) halfTape n rs h
  have e : 3 * exampleOptions.normalization = 3 := by norm_num [exampleOptions]
  rw [e] at a1
  exact ⟨_, n, rs, rs', h, a1, a2.imp fun _ _ h => ⟨h.2.2.1, h.2.2.2.1, h.2.2.2.2.1⟩⟩

end Trento
