import Verif.Lemmas.Rejection

/-!
# Placement of the nucleons of a deformed nucleus in its body frame

`placeDP`, `placeAllDP`: the loops of the deformed nucleus for positions in the body frame (no tilt, no spin).  The model's positions are the
rotated body positions, and the law of the body positions is invariant under rotations about the body axis.
-/

namespace Trento
open MeasureTheory Set Real Spec
open scoped ENNReal Classical

local notation "SO3" => Matrix.specialOrthogonalGroup (Fin 3) ℝ

variable {E D : Type} [Rng ℝ E D] [MeasurableSpace E] {μ : Measure E}

/-- the point at distance `s` from the axis, azimuth `φ` and height `z` -/
noncomputable def ringP (s φ z : ℝ) : P3 := vec (s * Real.cos φ, s * Real.sin φ, z)

theorem ringP_meas {Y : Type} [MeasurableSpace Y] {s φ z : Y → ℝ} (hs : Measurable s) (hφ : Measurable φ) (hz : Measurable z) :
    Measurable fun y => ringP (s y) (φ y) (z y) := by
  have : Measurable fun y => ((s y) * Real.cos (φ y), (s y) * Real.sin (φ y), z y) := by fun_prop
  exact vec_meas.comp this

theorem ringP_shift (s φ γ z : ℝ) : ringP s (φ + γ) z = (RZ γ).mulVec (ringP s φ z) := by
  ext i
  fin_cases i <;> simp [ringP, vec, RZ, rotZ, Matrix.mulVec, dotProduct, Fin.sum_univ_three, Real.cos_add, Real.sin_add] <;> ring

theorem ringP_periodic (s φ z : ℝ) : ringP s (φ + 2*π) z = ringP s φ z := by
  unfold ringP; rw [Real.cos_add_two_pi, Real.sin_add_two_pi]

/-- the placement of one nucleon in the body frame -/
noncomputable def placeDP (E D : Type) [Rng ℝ E D] (dm s : ℝ) (P : List P3) : ℕ → ℝ → P3 → E → P3 × E
  | 0, _, v, e => (v, e)
  | left+1, z, _, e =>
    if 0 < left ∧ closeP dm P (ringP s (2 * π * (can E D e).1) z) then
      placeDP E D dm s P left (-z) (ringP s (2 * π * (can E D e).1) z) (can E D e).2
    else (ringP s (2 * π * (can E D e).1) z, (can E D e).2)

/-- the matrix of the tilt and the spin -/
noncomputable def tsMat (t : TiltSpin ℝ) : Matrix (Fin 3) (Fin 3) ℝ := rotZ t.cosB t.sinB * rotX t.cosA t.sinA

omit [MeasurableSpace E] in
theorem placeDef_P (b dm : ℝ) (t : TiltSpin ℝ) (hR : tsMat t ∈ SO3) (s : ℝ) (placed : List (NucleonData ℝ)) (P : List P3)
    (hP : placed.map (relPos b) = P.map (tsMat t).mulVec) (left : ℕ) (z : ℝ) (n : NucleonData ℝ) (v : P3) (w : Rand E D) :
    relPos b (placeDef b dm t s placed (left+1) z n w).1 = (tsMat t).mulVec (placeDP E D dm s P (left+1) z v w.eng).1 ∧
    (placeDef b dm t s placed (left+1) z n w).2 = ⟨(placeDP E D dm s P (left+1) z v w.eng).2, w.dist⟩ := by
  have key : ∀ (n : NucleonData ℝ) (z : ℝ) (w : Rand E D),
      relPos b (setNucleonPosition b n (rotateTS t (s * Real.cos (phi (F := ℝ) w).1) (s * Real.sin (phi (F := ℝ) w).1) z).1
      (rotateTS t (s * Real.cos (phi (F := ℝ) w).1) (s * Real.sin (phi (F := ℝ) w).1) z).2.1
      (rotateTS t (s * Real.cos (phi (F := ℝ) w).1) (s * Real.sin (phi (F := ℝ) w).1) z).2.2) =
      (tsMat t).mulVec (ringP s (2 * π * (can E D w.eng).1) z) := by
    intro n z w
    rw [relPos_set, C16_tilt_spin]
    rfl
  have e3 : ∀ w : Rand E D, (phi (F := ℝ) w).2 = ⟨(can E D w.eng).2, w.dist⟩ := fun w => rfl
  have hz : ∀ z : ℝ, z * lit (-1) = -z := by intro z; simp
  induction left generalizing z n v w with
  | zero =>
    rw [placeDef, placeDP]
    simp only [cos_real, sin_real, hz, e3, lt_irrefl, decide_false, Bool.false_and, false_and, if_false]
    simp only [Bool.false_eq_true, if_false]
    exact ⟨key _ _ _, trivial⟩
  | succ left ih =>
    rw [placeDef, placeDP]
    simp only [cos_real, sin_real, hz, isTooClose_P b, key, e3, hP, closeP_rot hR, Bool.and_eq_true, decide_eq_true_eq]
    by_cases hc : 0 < left + 1 ∧ closeP dm P (ringP s (2 * π * (can E D w.eng).1) z)
    · simp only [if_pos hc]
      exact ih _ _ _ _
    · simp only [if_neg hc]
      exact ⟨key _ _ _, trivial⟩

theorem placeDP_meas (h : IdealSource E D μ) (dm : ℝ) {Y : Type} [MeasurableSpace Y] {s z : Y → ℝ} {P : Y → List P3} {v : Y → P3} {e : Y → E}
    (hs : Measurable s) (hP : MeasL P) (left : ℕ) (hz : Measurable z) (hv : Measurable v) (he : Measurable e) :
    Measurable fun y => placeDP E D dm (s y) (P y) left (z y) (v y) (e y) := by
  induction left generalizing z v e with
  | zero => exact hv.prodMk he
  | succ left ih =>
    have h2 : Measurable fun y => can E D (e y) := h.can_meas.comp he
    have hd : Measurable fun y => ringP (s y) (2 * π * (can E D (e y)).1) (z y) :=
      ringP_meas hs ((measurable_fst.comp h2).const_mul _) hz
    have he2 : Measurable fun y => (can E D (e y)).2 := measurable_snd.comp h2
    simp only [placeDP]
    refine Measurable.ite ?_ (ih hz.neg hd he2) (hd.prodMk he2)
    by_cases h0 : 0 < left
    · simpa [h0] using closeP_meas dm hP hd
    · simp [h0]

/-- The law of the position of one nucleon follows a rotation about the axis of the nucleons placed before. -/
theorem placeDP_rot (h : IdealSource E D μ) (dm s : ℝ) (P : List P3) (γ : ℝ)
    {k1 k2 : P3 × E → ℝ≥0∞} (h1 : Measurable k1) (h2 : Measurable k2) (hk : ∀ v, ∫⁻ e, k1 ((RZ γ).mulVec v, e) ∂μ = ∫⁻ e, k2 (v, e) ∂μ)
    (left : ℕ) (z : ℝ) (v v' : P3) :
    ∫⁻ e, k1 (placeDP E D dm s (P.map (RZ γ).mulVec) (left+1) z v e) ∂μ = ∫⁻ e, k2 (placeDP E D dm s P (left+1) z v' e) ∂μ := by
  have hp := h.prob
  have hQ := RZ_mem γ
  have step : ∀ (P : List P3) (k : P3 × E → ℝ≥0∞), Measurable k → ∀ (left : ℕ) (z : ℝ) (v0 : P3), ∀ I : ℝ≥0∞,
      (∀ v, 0 < left → ∫⁻ e, k (placeDP E D dm s P left (-z) v e) ∂μ = I) →
      ∫⁻ e, k (placeDP E D dm s P (left+1) z v0 e) ∂μ =
        ENNReal.ofReal (1/(2*π)) * circ fun φ => if 0 < left ∧ closeP dm P (ringP s φ z) then I else ∫⁻ e, k (ringP s φ z, e) ∂μ := by
    intro P k hkm left z v0 I hI
    set g : ℝ × E → ℝ≥0∞ := fun t => if 0 < left ∧ closeP dm P (ringP s (2 * π * t.1) z) then
      k (placeDP E D dm s P left (-z) (ringP s (2 * π * t.1) z) t.2) else k (ringP s (2 * π * t.1) z, t.2) with hg
    have hv : Measurable fun t : ℝ × E => ringP s (2 * π * t.1) z := ringP_meas measurable_const (measurable_fst.const_mul _) measurable_const
    have hgm : Measurable g := by
      refine Measurable.ite ?_ (hkm.comp (placeDP_meas h dm measurable_const (MeasL.const P) left measurable_const hv measurable_snd))
        (hkm.comp (hv.prodMk measurable_snd))
      by_cases h0 : 0 < left
      · simpa [h0] using closeP_meas dm (MeasL.const P) hv
      · simp [h0]
    have e1 := h.can_lintegral hgm
    have e2 : ∀ e, k (placeDP E D dm s P (left+1) z v0 e) = g (can E D e) := by
      intro e
      rw [placeDP, hg]
      dsimp only
      split <;> rfl
    simp only [e2]
    rw [e1, ← lintegral_phiU]
    · apply lintegral_congr
      intro u
      rw [hg]
      by_cases hc : 0 < left ∧ closeP dm P (ringP s (2 * π * u) z)
      · simp only [if_pos hc]; exact hI _ hc.1
      · simp only [if_neg hc]
    · intro φ
      simp only [ringP_periodic]
  have both : ∀ (left : ℕ) (z : ℝ) (I : ℝ≥0∞), (∀ v, 0 < left → ∫⁻ e, k1 (placeDP E D dm s (P.map (RZ γ).mulVec) left (-z) v e) ∂μ = I) →
      (∀ v, 0 < left → ∫⁻ e, k2 (placeDP E D dm s P left (-z) v e) ∂μ = I) → ∀ v v',
      ∫⁻ e, k1 (placeDP E D dm s (P.map (RZ γ).mulVec) (left+1) z v e) ∂μ = ∫⁻ e, k2 (placeDP E D dm s P (left+1) z v' e) ∂μ := by
    intro left z I hI1 hI2 v v'
    rw [step _ k1 h1 left z v I hI1, step _ k2 h2 left z v' I hI2]
    rw [← circ_shift (k := fun φ => if 0 < left ∧ closeP dm (P.map (RZ γ).mulVec) (ringP s φ z) then I else ∫⁻ e, k1 (ringP s φ z, e) ∂μ)
      (fun φ => by simp only [ringP_periodic]) γ]
    congr 2
    funext φ
    simp only [ringP_shift, closeP_rot hQ, hk]
  induction left generalizing z v v' with
  | zero => exact both 0 z 0 (fun v h => absurd h (lt_irrefl 0)) (fun v h => absurd h (lt_irrefl 0)) v v'
  | succ left ih =>
    exact both (left+1) z (∫⁻ e, k2 (placeDP E D dm s P (left+1) (-z) 0 e) ∂μ) (fun v _ => ih (-z) v 0)
      (fun v _ => by rw [← ih (-z) v v, ih (-z) v 0]) v v'

/-- distance from the axis of a sample `(r, cos θ)` -/
noncomputable def ringR (p : ℝ × ℝ) : ℝ := p.1 * √(1 - p.2 * p.2)

/-- the placement of all nucleons in the body frame -/
noncomputable def placeAllDP (E D : Type) [Rng ℝ E D] (dm : ℝ) : List P3 → List (ℝ × ℝ) → E → List P3 × E
  | P, [], e => (P, e)
  | P, p :: ps, e => placeAllDP E D dm (P ++ [(placeDP E D dm (ringR p) P 1000 (p.1 * p.2) 0 e).1]) ps
      (placeDP E D dm (ringR p) P 1000 (p.1 * p.2) 0 e).2

omit [MeasurableSpace E] in
theorem placeAllDef_P (b dm : ℝ) (t : TiltSpin ℝ) (hR : tsMat t ∈ SO3) (placed : List (NucleonData ℝ)) (P : List P3)
    (hP : placed.map (relPos b) = P.map (tsMat t).mulVec) (ps : List (ℝ × ℝ)) (ns : List (NucleonData ℝ)) (w : Rand E D)
    (hl : ps.length = ns.length) :
    (placeAllDef b dm t placed ps ns w).1.map (relPos b) = (placeAllDP E D dm P ps w.eng).1.map (tsMat t).mulVec := by
  induction ps generalizing placed P ns w with
  | nil =>
    have : ns = [] := List.eq_nil_of_length_eq_zero (by simpa using hl.symm)
    subst this
    simpa [placeAllDef, placeAllDP] using hP
  | cons p ps ih =>
    cases ns with
    | nil => simp at hl
    | cons n ns =>
      rw [placeAllDef, placeAllDP]
      obtain ⟨p1, p2⟩ := placeDef_P b dm t hR (ringR p) placed P hP 999 (p.1 * p.2) n 0 w
      have hr : p.1 * √(1 - p.2 * p.2) = ringR p := rfl
      have hl' : ps.length = ns.length := by simpa using hl
      simp only [sqrt_real, lit_real, Rat.cast_one, hr]
      rw [ih _ (P ++ [(placeDP E D dm (ringR p) P 1000 (p.1 * p.2) 0 w.eng).1]) ?_ _ _ hl', p2]
      rw [List.map_append, List.map_append, hP, List.map_cons, List.map_nil, p1]
      rfl

theorem ringR_meas : Measurable ringR := by unfold ringR; fun_prop

theorem placeAllDP_meas (h : IdealSource E D μ) (dm : ℝ) {Y : Type} [MeasurableSpace Y] {P : Y → List P3} {ps : Y → List (ℝ × ℝ)} {e : Y → E}
    (hP : MeasL P) (hr : MeasL ps) (he : Measurable e) : MeasL fun y => (placeAllDP E D dm (P y) (ps y) (e y)).1 := by
  obtain ⟨n, hn⟩ := hr.len
  induction n generalizing P ps e with
  | zero =>
    have e : ∀ y, ps y = [] := fun y => List.eq_nil_of_length_eq_zero (hn y)
    simp only [e, placeAllDP]
    exact hP
  | succ n ih =>
    have e1 : ∀ y, ps y = (ps y).getD 0 0 :: (ps y).tail := by
      intro y
      have := hn y
      cases hL : ps y with
      | nil => rw [hL] at this; simp at this
      | cons x xs => simp
    have h0 := hr.coord 0
    have hp := placeDP_meas h dm (ringR_meas.comp h0) hP 1000 ((measurable_fst.comp h0).mul (measurable_snd.comp h0))
      (measurable_const (a := (0 : P3))) he
    have := ih (hP.snoc (measurable_fst.comp hp)) hr.tail (measurable_snd.comp hp) (fun y => by simp [hn])
    have e2 : ∀ y, placeAllDP E D dm (P y) (ps y) (e y) = placeAllDP E D dm
        (P y ++ [(placeDP E D dm (ringR ((ps y).getD 0 0)) (P y) 1000 (((ps y).getD 0 0).1 * ((ps y).getD 0 0).2) 0 (e y)).1])
        (ps y).tail (placeDP E D dm (ringR ((ps y).getD 0 0)) (P y) 1000 (((ps y).getD 0 0).1 * ((ps y).getD 0 0).2) 0 (e y)).2 := by
      intro y
      conv_lhs => rw [e1 y]
      rw [placeAllDP]
    simp only [e2]
    exact this

/-- The law of all positions follows a rotation about the axis of the nucleons placed before. -/
theorem placeAllDP_rot (h : IdealSource E D μ) (dm : ℝ) (P : List P3) (ps : List (ℝ × ℝ)) (γ : ℝ)
    {f : (ℕ → P3) → ℝ≥0∞} (hf : Measurable f) :
    ∫⁻ e, f (cfg (placeAllDP E D dm (P.map (RZ γ).mulVec) ps e).1) ∂μ =
      ∫⁻ e, f (fun i => (RZ γ).mulVec (cfg (placeAllDP E D dm P ps e).1 i)) ∂μ := by
  induction ps generalizing P with
  | nil => simp only [placeAllDP, cfg_rot]
  | cons p ps ih =>
    simp only [placeAllDP]
    have hm : ∀ P : List P3, Measurable fun t : P3 × E => cfg (placeAllDP E D dm (P ++ [t.1]) ps t.2).1 := fun P =>
      cfg_meas (placeAllDP_meas h dm ((MeasL.const P).snoc measurable_fst) (MeasL.const ps) measurable_snd)
    refine placeDP_rot h dm (ringR p) P γ (k1 := fun t => f (cfg (placeAllDP E D dm (P.map (RZ γ).mulVec ++ [t.1]) ps t.2).1))
      (k2 := fun t => f (fun i => (RZ γ).mulVec (cfg (placeAllDP E D dm (P ++ [t.1]) ps t.2).1 i))) (hf.comp (hm _))
      (hf.comp ((rot_meas (RZ γ)).comp (hm P))) ?_ 999 (p.1 * p.2) 0 0
    intro v
    have := ih (P ++ [v])
    rwa [List.map_append, List.map_cons, List.map_nil] at this

end Trento
