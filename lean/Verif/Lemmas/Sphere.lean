import Mathlib.Analysis.SpecialFunctions.PolarCoord
import Mathlib.MeasureTheory.Measure.Lebesgue.EqHaar
import Mathlib.MeasureTheory.Function.JacobianOneDim
import Mathlib.MeasureTheory.Integral.IntervalIntegral.Periodic
import Mathlib.LinearAlgebra.Matrix.Determinant.Basic
import Mathlib.LinearAlgebra.Matrix.ToLin
import Mathlib.LinearAlgebra.Matrix.Notation
import Mathlib.Analysis.SpecialFunctions.Trigonometric.Inverse

/-!
# The uniform direction

`cos θ` uniform in `[-1, 1]` and `φ` uniform over a full turn give a direction whose law does not change under rotations (Archimedes).
-/

namespace Trento
open MeasureTheory Set Real
open scoped ENNReal

/-- vectors -/
abbrev V3 := ℝ × ℝ × ℝ

/-- the action of a matrix on a vector -/
def act (Q : Matrix (Fin 3) (Fin 3) ℝ) (p : V3) : V3 :=
  (Q 0 0 * p.1 + Q 0 1 * p.2.1 + Q 0 2 * p.2.2, Q 1 0 * p.1 + Q 1 1 * p.2.1 + Q 1 2 * p.2.2,
    Q 2 0 * p.1 + Q 2 1 * p.2.1 + Q 2 2 * p.2.2)

/-- squared length -/
def nsq (p : V3) : ℝ := p.1^2 + p.2.1^2 + p.2.2^2

/-- A proper rotation. -/
def Spec.IsRotation (Q : Matrix (Fin 3) (Fin 3) ℝ) : Prop := Q.transpose * Q = 1 ∧ Q.det = 1

/-- the direction with polar cosine `c` and azimuth `φ` -/
noncomputable def dir (c φ : ℝ) : V3 := (√(1 - c^2) * cos φ, √(1 - c^2) * sin φ, c)

theorem act_mul (P Q : Matrix (Fin 3) (Fin 3) ℝ) (p : V3) : act (P * Q) p = act P (act Q p) := by
  simp only [act, Matrix.mul_apply, Fin.sum_univ_three]
  refine Prod.ext ?_ (Prod.ext ?_ ?_) <;> simp only <;> ring

theorem act_one (p : V3) : act 1 p = p := by
  simp [act]

theorem act_measurable (Q : Matrix (Fin 3) (Fin 3) ℝ) : Measurable (act Q) := by unfold act; fun_prop

theorem transpose_mul_apply {Q : Matrix (Fin 3) (Fin 3) ℝ} (h : Q.transpose * Q = 1) (i j : Fin 3) :
    Q 0 i * Q 0 j + Q 1 i * Q 1 j + Q 2 i * Q 2 j = if i = j then 1 else 0 := by
  have := congrFun (congrFun h i) j
  rw [Matrix.mul_apply, Fin.sum_univ_three] at this
  simp only [Matrix.transpose_apply] at this
  rw [this, Matrix.one_apply]

theorem nsq_act {Q : Matrix (Fin 3) (Fin 3) ℝ} (h : Q.transpose * Q = 1) (p : V3) : nsq (act Q p) = nsq p := by
  have e := transpose_mul_apply h
  have h00 := e 0 0; have h11 := e 1 1; have h22 := e 2 2
  have h01 := e 0 1; have h02 := e 0 2; have h12 := e 1 2
  simp at h00 h11 h22 h01 h02 h12
  obtain ⟨x, y, z⟩ := p
  simp only [nsq, act]
  linear_combination x^2 * h00 + y^2 * h11 + z^2 * h22 + 2*x*y*h01 + 2*x*z*h02 + 2*y*z*h12

/-- vectors as functions -/
def vecEquiv : V3 ≃ₗ[ℝ] (Fin 3 → ℝ) where
  toFun p := ![p.1, p.2.1, p.2.2]
  invFun f := (f 0, f 1, f 2)
  map_add' p q := by ext i; fin_cases i <;> rfl
  map_smul' a p := by ext i; fin_cases i <;> rfl
  left_inv p := rfl
  right_inv f := by ext i; fin_cases i <;> rfl

/-- the action as a linear map -/
def actLin (Q : Matrix (Fin 3) (Fin 3) ℝ) : V3 →ₗ[ℝ] V3 :=
  (vecEquiv.symm : (Fin 3 → ℝ) →ₗ[ℝ] V3) ∘ₗ Matrix.toLin' Q ∘ₗ (vecEquiv : V3 →ₗ[ℝ] (Fin 3 → ℝ))

theorem actLin_apply (Q : Matrix (Fin 3) (Fin 3) ℝ) (p : V3) : actLin Q p = act Q p := by
  show ((Q.mulVec ![p.1, p.2.1, p.2.2]) 0, (Q.mulVec ![p.1, p.2.1, p.2.2]) 1, (Q.mulVec ![p.1, p.2.1, p.2.2]) 2) = act Q p
  simp [act, Matrix.mulVec, dotProduct, Fin.sum_univ_three]

instance : (volume : Measure V3).IsAddHaarMeasure :=
  Measure.prod.instIsAddHaarMeasure _ _

theorem actLin_det (Q : Matrix (Fin 3) (Fin 3) ℝ) : LinearMap.det (actLin Q) = Q.det := by
  have := LinearMap.det_conj (Matrix.toLin' Q) vecEquiv.symm
  rw [LinearMap.det_toLin'] at this
  exact this

/-- Rotations preserve volume. -/
theorem lintegral_act {Q : Matrix (Fin 3) (Fin 3) ℝ} (h : Q.det = 1) (F : V3 → ℝ≥0∞) (hF : Measurable F) :
    ∫⁻ p : V3, F (act Q p) = ∫⁻ p : V3, F p := by
  have hd : LinearMap.det (actLin Q) = 1 := by rw [actLin_det, h]
  have := Measure.map_linearMap_addHaar_eq_smul_addHaar (volume : Measure V3) (f := actLin Q) (by rw [hd]; norm_num)
  rw [hd] at this
  simp only [inv_one, abs_one, ENNReal.ofReal_one, one_smul] at this
  have e : (actLin Q : V3 → V3) = act Q := funext (actLin_apply Q)
  rw [e] at this
  conv_rhs => rw [← this]
  rw [lintegral_map hF (act_measurable Q)]

/-- The substitution `c = cos θ`. -/
theorem lintegral_cos (k : ℝ → ℝ≥0∞) : ∫⁻ θ in Ioo 0 π, ENNReal.ofReal (sin θ) * k (cos θ) = ∫⁻ c in Ioo (-1) 1, k c := by
  have hinj : InjOn cos (Ioo 0 π) := injOn_cos.mono Ioo_subset_Icc_self
  have himg : cos '' (Ioo 0 π) = Ioo (-1) 1 := by
    ext c
    constructor
    · rintro ⟨θ, ⟨h0, h1⟩, rfl⟩
      constructor
      · rw [← cos_pi]; exact cos_lt_cos_of_nonneg_of_le_pi h0.le le_rfl h1
      · rw [← cos_zero]; exact cos_lt_cos_of_nonneg_of_le_pi le_rfl h1.le h0
    · rintro ⟨h0, h1⟩
      refine ⟨arccos c, ⟨arccos_pos.2 h1, ?_⟩, cos_arccos h0.le h1.le⟩
      refine lt_of_le_of_ne (arccos_le_pi c) ?_
      intro h
      have := cos_arccos h0.le h1.le
      rw [h, cos_pi] at this
      linarith
  have := lintegral_image_eq_lintegral_abs_deriv_mul (s := Ioo 0 π) measurableSet_Ioo (f := cos) (f' := fun θ => -sin θ)
    (fun x _ => (hasDerivAt_cos x).hasDerivWithinAt) hinj k
  rw [himg] at this
  rw [this]
  refine setLIntegral_congr_fun measurableSet_Ioo ?_
  intro θ hθ
  show ENNReal.ofReal (sin θ) * k (cos θ) = ENNReal.ofReal (|-sin θ|) * k (cos θ)
  rw [abs_neg, abs_of_pos (sin_pos_of_mem_Ioo hθ)]

/-- Polar coordinates as an iterated integral. -/
theorem lintegral_polar (G : ℝ × ℝ → ℝ≥0∞) (hG : Measurable G) :
    ∫⁻ x, ∫⁻ y, G (x, y) = ∫⁻ φ in Ioo (-π) π, ∫⁻ r in Ioi 0, ENNReal.ofReal r * G (r * cos φ, r * sin φ) := by
  have h := lintegral_comp_polarCoord_symm G
  have hm : Measurable fun p : ℝ × ℝ => ENNReal.ofReal p.1 * G (p.1 * cos p.2, p.1 * sin p.2) := by fun_prop
  have e1 : ∫⁻ x, ∫⁻ y, G (x, y) = ∫⁻ p : ℝ × ℝ, G p := (lintegral_prod _ hG.aemeasurable).symm
  rw [e1, ← h]
  have e2 : (volume : Measure (ℝ × ℝ)).restrict polarCoord.target = (volume.restrict (Ioi (0:ℝ))).prod (volume.restrict (Ioo (-π) π)) := by
    rw [Measure.prod_restrict]; rfl
  rw [e2]
  exact lintegral_prod_symm _ hm.aemeasurable

/-- Spherical coordinates. -/
theorem lintegral_spherical (F : V3 → ℝ≥0∞) (hF : Measurable F) :
    ∫⁻ p : V3, F p = ∫⁻ φ in Ioo (-π) π, ∫⁻ c in Ioo (-1) 1, ∫⁻ r in Ioi 0,
      ENNReal.ofReal (r^2) * F (r * (dir c φ).1, r * (dir c φ).2.1, r * (dir c φ).2.2) := by
  have hH : Measurable fun q : ℝ × ℝ => ∫⁻ z, F (q.1, q.2, z) := by
    apply Measurable.lintegral_prod_right' (f := fun t : (ℝ × ℝ) × ℝ => F (t.1.1, t.1.2, t.2))
    fun_prop
  have e1 : ∫⁻ p : V3, F p = ∫⁻ x, ∫⁻ y, ∫⁻ z, F (x, y, z) := by
    have : ∫⁻ p : V3, F p = ∫⁻ x, ∫⁻ q : ℝ × ℝ, F (x, q) := lintegral_prod _ hF.aemeasurable
    rw [this]
    apply lintegral_congr
    intro x
    exact lintegral_prod _ (by fun_prop)
  rw [e1, lintegral_polar _ hH]
  apply lintegral_congr
  intro φ
  -- the half plane of azimuth `φ`
  set K : ℝ × ℝ → ℝ≥0∞ := fun t => (Ioi (0:ℝ)).indicator (fun ρ => ENNReal.ofReal ρ * F (ρ * cos φ, ρ * sin φ, t.1)) t.2 with hK
  have hKm : Measurable K := by
    have : K = ((univ : Set ℝ) ×ˢ Ioi (0:ℝ)).indicator (fun t : ℝ × ℝ => ENNReal.ofReal t.2 * F (t.2 * cos φ, t.2 * sin φ, t.1)) := by
      funext t
      by_cases h : t.2 ∈ Ioi (0:ℝ)
      · rw [hK]; simp only; rw [indicator_of_mem h, indicator_of_mem (by exact ⟨mem_univ _, h⟩)]
      · rw [hK]; simp only; rw [indicator_of_notMem h, indicator_of_notMem (by rintro ⟨-, h'⟩; exact h h')]
    rw [this]
    exact Measurable.indicator (by fun_prop) (MeasurableSet.univ.prod measurableSet_Ioi)
  have e2 : ∫⁻ ρ in Ioi 0, ENNReal.ofReal ρ * ∫⁻ z, F (ρ * cos φ, ρ * sin φ, z) = ∫⁻ z, ∫⁻ ρ, K (z, ρ) := by
    rw [lintegral_lintegral_swap (f := fun z ρ => K (z, ρ)) hKm.aemeasurable, ← lintegral_indicator measurableSet_Ioi]
    apply lintegral_congr
    intro ρ
    by_cases h : ρ ∈ Ioi (0:ℝ)
    · rw [indicator_of_mem h, ← lintegral_const_mul _ (by fun_prop)]
      apply lintegral_congr
      intro z
      rw [hK]; simp only; rw [indicator_of_mem h]
    · rw [indicator_of_notMem h]
      simp [hK, indicator_of_notMem h]
  rw [e2, lintegral_polar K hKm]
  -- only the upper half contributes
  have e3 : ∫⁻ θ in Ioo (-π) π, ∫⁻ r in Ioi 0, ENNReal.ofReal r * K (r * cos θ, r * sin θ) =
      ∫⁻ θ in Ioo 0 π, ENNReal.ofReal (sin θ) * ∫⁻ r in Ioi 0, ENNReal.ofReal (r^2) *
        F (r * (dir (cos θ) φ).1, r * (dir (cos θ) φ).2.1, r * (dir (cos θ) φ).2.2) := by
    rw [← lintegral_indicator measurableSet_Ioo, ← lintegral_indicator measurableSet_Ioo]
    apply lintegral_congr
    intro θ
    by_cases h : θ ∈ Ioo 0 π
    · have h' : θ ∈ Ioo (-π) π := ⟨by linarith [h.1, pi_pos], h.2⟩
      have hs := sin_pos_of_mem_Ioo h
      have hd : √(1 - cos θ ^ 2) = sin θ := by
        rw [← abs_of_pos hs, ← sqrt_sq_eq_abs]; congr 1; linarith [sin_sq_add_cos_sq θ]
      rw [indicator_of_mem h, indicator_of_mem h', ← lintegral_const_mul _ (by unfold dir; fun_prop)]
      refine setLIntegral_congr_fun measurableSet_Ioi ?_
      intro r hr
      have hr0 : 0 < r := hr
      have hrs : r * sin θ ∈ Ioi (0:ℝ) := mul_pos hr0 hs
      simp only [hK, dir, hd]
      rw [indicator_of_mem hrs, ← mul_assoc, ← mul_assoc, ← ENNReal.ofReal_mul hr0.le, ← ENNReal.ofReal_mul hs.le]
      have a1 : r * (r * sin θ) = sin θ * r^2 := by ring
      have a2 : r * sin θ * cos φ = r * (sin θ * cos φ) := by ring
      have a3 : r * sin θ * sin φ = r * (sin θ * sin φ) := by ring
      rw [a1, a2, a3]
    · rw [indicator_of_notMem h]
      by_cases h' : θ ∈ Ioo (-π) π
      · rw [indicator_of_mem h']
        have hs : sin θ ≤ 0 := by
          have : θ ≤ 0 := by
            by_contra hc
            exact h ⟨not_le.1 hc, h'.2⟩
          exact sin_nonpos_of_nonpos_of_neg_pi_le this h'.1.le
        rw [setLIntegral_congr_fun (g := fun _ => 0) measurableSet_Ioi]
        · simp
        intro r hr
        have hr0 : 0 < r := hr
        have hrs : r * sin θ ∉ Ioi (0:ℝ) := by
          simp only [mem_Ioi, not_lt]; exact mul_nonpos_of_nonneg_of_nonpos hr0.le hs
        simp only [hK]
        rw [indicator_of_notMem hrs, mul_zero]
      · rw [indicator_of_notMem h']
  rw [e3]
  exact lintegral_cos fun c => ∫⁻ r in Ioi 0, ENNReal.ofReal (r^2) * F (r * (dir c φ).1, r * (dir c φ).2.1, r * (dir c φ).2.2)

/-- the mean of `g` over directions, up to a constant -/
noncomputable def sphereInt (g : V3 → ℝ≥0∞) : ℝ≥0∞ := ∫⁻ φ in Ioo (-π) π, ∫⁻ c in Ioo (-1) 1, g (dir c φ)

theorem nsq_dir {c φ : ℝ} (h : c ∈ Ioo (-1:ℝ) 1) : nsq (dir c φ) = 1 := by
  have h1 : 0 ≤ 1 - c^2 := by nlinarith [h.1, h.2]
  simp only [nsq, dir, mul_pow, sq_sqrt h1]
  linear_combination (1 - c^2) * (sin_sq_add_cos_sq φ)

/-- a function of the direction, extended to the unit ball -/
noncomputable def radial (g : V3 → ℝ≥0∞) (p : V3) : ℝ≥0∞ :=
  (Iic (1:ℝ)).indicator 1 (nsq p) * g ((√(nsq p))⁻¹ * p.1, (√(nsq p))⁻¹ * p.2.1, (√(nsq p))⁻¹ * p.2.2)

theorem radial_measurable {g : V3 → ℝ≥0∞} (hg : Measurable g) : Measurable (radial g) := by
  unfold radial nsq
  refine Measurable.mul ?_ (hg.comp (by fun_prop))
  exact (measurable_one.indicator measurableSet_Iic).comp (by fun_prop)

theorem lintegral_radial {g : V3 → ℝ≥0∞} (hg : Measurable g) :
    ∫⁻ p : V3, radial g p = (∫⁻ r in Ioi (0:ℝ), ENNReal.ofReal (r^2) * (Iic (1:ℝ)).indicator 1 (r^2)) * sphereInt g := by
  rw [lintegral_spherical _ (radial_measurable hg)]
  unfold sphereInt
  have hm : Measurable fun q : ℝ × ℝ => g (dir q.2 q.1) := by
    unfold dir; exact hg.comp (by fun_prop)
  rw [← lintegral_const_mul _ (Measurable.lintegral_prod_right' hm)]
  refine setLIntegral_congr_fun measurableSet_Ioo ?_
  intro φ _
  simp only
  rw [← lintegral_const_mul _ (by exact hm.comp (by fun_prop : Measurable fun c : ℝ => (φ, c)))]
  refine setLIntegral_congr_fun measurableSet_Ioo ?_
  intro c hc
  simp only
  rw [← lintegral_mul_const _ (by
    refine Measurable.mul (by fun_prop) ?_
    exact (measurable_one.indicator measurableSet_Iic).comp (by fun_prop))]
  refine setLIntegral_congr_fun measurableSet_Ioi ?_
  intro r hr
  have hr0 : 0 < r := hr
  have hn : nsq (r * (dir c φ).1, r * (dir c φ).2.1, r * (dir c φ).2.2) = r^2 := by
    have := nsq_dir (φ := φ) hc
    simp only [nsq] at this ⊢
    linear_combination r^2 * this
  simp only [radial, hn, sqrt_sq hr0.le, ← mul_assoc, inv_mul_cancel₀ hr0.ne', one_mul]

/-- **Archimedes.** The law of the direction is invariant under rotations. -/
theorem sphereInt_act {Q : Matrix (Fin 3) (Fin 3) ℝ} (hQ : Spec.IsRotation Q) {g : V3 → ℝ≥0∞} (hg : Measurable g) :
    sphereInt (fun n => g (act Q n)) = sphereInt g := by
  have h1 := lintegral_radial hg
  have h2 := lintegral_radial (hg.comp (act_measurable Q))
  have h3 := lintegral_act hQ.2 _ (radial_measurable hg)
  have h4 : (fun p => radial g (act Q p)) = radial (g ∘ act Q) := by
    funext p
    unfold radial
    rw [nsq_act hQ.1]
    simp only [Function.comp]
    congr 2
    simp only [act]
    refine Prod.ext ?_ (Prod.ext ?_ ?_) <;> simp only <;> ring
  rw [h4, h1, h2] at h3
  have hk0 : (∫⁻ r in Ioi (0:ℝ), ENNReal.ofReal (r^2) * (Iic (1:ℝ)).indicator 1 (r^2)) ≠ 0 := by
    intro h0
    have hm : Measurable fun r : ℝ => ENNReal.ofReal (r^2) * (Iic (1:ℝ)).indicator (1 : ℝ → ℝ≥0∞) (r^2) :=
      Measurable.mul (by fun_prop) ((measurable_one.indicator measurableSet_Iic).comp (by fun_prop))
    rw [lintegral_eq_zero_iff hm] at h0
    have : (volume.restrict (Ioi (0:ℝ))) (Ioo (0:ℝ) 1) = 0 := by
      refine measure_mono_null ?_ h0
      intro r hr hz
      replace hz : ENNReal.ofReal (r^2) * (Iic (1:ℝ)).indicator (1 : ℝ → ℝ≥0∞) (r^2) = 0 := hz
      rw [mul_eq_zero, ENNReal.ofReal_eq_zero] at hz
      have hr2 : r^2 ≤ 1 := by nlinarith [hr.1, hr.2]
      rw [indicator_of_mem (show r^2 ∈ Iic (1:ℝ) from hr2)] at hz
      rcases hz with hz | hz
      · nlinarith [hr.1, hr.2]
      · simp at hz
    rw [Measure.restrict_apply measurableSet_Ioo, inter_eq_left.2 (fun r hr => hr.1)] at this
    simp at this
  have hkt : (∫⁻ r in Ioi (0:ℝ), ENNReal.ofReal (r^2) * (Iic (1:ℝ)).indicator 1 (r^2)) ≠ ∞ := by
    refine ne_of_lt (lt_of_le_of_lt (b := ∫⁻ r, (Ioc (0:ℝ) 1).indicator 1 r) ?_ ?_)
    · rw [← lintegral_indicator measurableSet_Ioi]
      apply lintegral_mono
      intro r
      by_cases h : r ∈ Ioi (0:ℝ)
      · simp only [indicator_of_mem h]
        by_cases h1 : r^2 ≤ 1
        · have : r ∈ Ioc (0:ℝ) 1 := ⟨h, by have : 0 < r := h; nlinarith⟩
          rw [indicator_of_mem this, indicator_of_mem (show r^2 ∈ Iic (1:ℝ) from h1)]
          simp only [Pi.one_apply, mul_one]
          exact ENNReal.ofReal_le_one.2 h1
        · rw [indicator_of_notMem (show r^2 ∉ Iic (1:ℝ) from h1), mul_zero]
          exact bot_le
      · simp only [indicator_of_notMem h]; exact bot_le
    · rw [lintegral_indicator_one measurableSet_Ioc]; simp
  exact (ENNReal.mul_right_inj hk0 hkt).1 h3

end Trento
