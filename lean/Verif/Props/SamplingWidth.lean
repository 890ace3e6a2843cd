import Verif.Props.Nucleon
import Mathlib.Probability.Distributions.Gaussian.Real
import Mathlib.Probability.HasLaw
import Mathlib.Probability.Independence.Integration
import Mathlib.Probability.Moments.Covariance

/-! # C09: the constituent sampling width -/

namespace Trento
open MeasureTheory ProbabilityTheory

/-- **C09.** For widths `0 ≤ v`, `w - v ≥ 10⁻⁶` and `m ≥ 2` constituents the sampling width `r` is non-negative and
satisfies `r² (1 - 1/m) + v² = w²`. -/
theorem C09_sampling_width (w v : ℝ) (m : ℕ) (hv : 0 ≤ v) (hwv : 1e-6 ≤ w - v) (hm : 2 ≤ m) :
    0 ≤ calcSamplingWidth w v m ∧ (calcSamplingWidth w v m)^2 * (1 - 1/m) + v^2 = w^2 := by
  have h1 : ¬ (m:ℤ) = 1 := by omega
  have h2 : lt (w - v) (lit 1e-6) = false := by
    simp only [lt_real, lit_real, decide_eq_false_iff_not, not_lt]
    refine le_trans (le_of_eq ?_) hwv
    norm_num
  have hcalc : calcSamplingWidth w v m = Real.sqrt ((w^2 - v^2) / (1 - 1/m)) := by
    unfold calcSamplingWidth
    simp only [h1, h2, decide_false, Bool.or_false, Bool.false_eq_true, if_false]
    simp
  have hm' : (2:ℝ) ≤ m := by exact_mod_cast hm
  have hden : 0 < 1 - 1/(m:ℝ) := by
    have : 1/(m:ℝ) ≤ 1/2 := one_div_le_one_div_of_le (by norm_num) hm'
    linarith
  have hnum : 0 ≤ w^2 - v^2 := by
    have : 0 ≤ w - v := le_trans (by norm_num) hwv
    nlinarith
  rw [hcalc]
  refine ⟨Real.sqrt_nonneg _, ?_⟩
  rw [Real.sq_sqrt (div_nonneg hnum hden.le), div_mul_cancel₀ _ hden.ne']
  ring

/-- **C09, degenerate cases.** With one constituent, or widths that agree within 10⁻⁶, the sampling width is zero. -/
theorem C09_sampling_width_zero (w v : ℝ) (m : ℕ) (h : m = 1 ∨ w - v < 1e-6) : calcSamplingWidth w v m = 0 := by
  unfold calcSamplingWidth
  rcases h with rfl | h
  · simp
  · have h2 : lt (w - v) (lit 1e-6) = true := by
      simp only [lt_real, lit_real, decide_eq_true_eq]
      refine lt_of_lt_of_eq h ?_
      norm_num
    simp only [h2, Bool.or_true, if_true]
    simp

/-- What the code does with the `m` numbers drawn for one coordinate: the constituents end up at the nucleon position
plus (draw − mean of the draws). -/
theorem sampled_position_is_draw_minus_mean {E D : Type} [Rng ℝ E D] (nc : NucleonCommon ℝ) (n : NucleonData ℝ)
    (r : Rand E D) (hn : n.constituentsExist = false) :
    ∃ draws : List (ℝ × ℝ), draws.length = nc.constituentNumber ∧
      (nc.sampleConstituents n r).1.constituents.map (fun c => (c.x - n.x, c.y - n.y)) =
        draws.map (fun d => (d.1 - (draws.map (·.1)).sum / nc.constituentNumber,
                             d.2 - (draws.map (·.2)).sum / nc.constituentNumber)) := by
  have hz : (lit 0 : ℝ) = 0 := by simp
  obtain ⟨h1, h2, h3⟩ := drawConstituents_spec nc nc.constituentNumber 0 0 r
  refine ⟨(drawConstituents nc nc.constituentNumber 0 0 r).1.1.map (fun c => (c.x, c.y)), by simpa using h1, ?_⟩
  unfold NucleonCommon.sampleConstituents
  simp only [hn, Bool.false_eq_true, if_false, hz, List.map_map]
  apply List.map_congr_left
  intro c _
  simp only [Function.comp]
  rw [h2, h3]
  simp only [ofInt_real, Int.cast_natCast, Function.comp_def, Prod.mk.injEq]
  constructor <;> ring

section variance
variable {Ω : Type} [MeasurableSpace Ω] {μ : Measure Ω}

theorem recentred_second_moment {m : ℕ} (hm : 0 < m) (X : Fin m → Ω → ℝ) (s : ℝ)
    (hint : ∀ i j, Integrable (fun ω => X i ω * X j ω) μ)
    (hvar : ∀ i, ∫ ω, X i ω * X i ω ∂μ = s) (hcov : ∀ i j, i ≠ j → ∫ ω, X i ω * X j ω ∂μ = 0) (i : Fin m) :
    ∫ ω, (X i ω - (∑ j, X j ω) / m)^2 ∂μ = s * (1 - 1/m) := by
  have hm' : (m:ℝ) ≠ 0 := by exact_mod_cast hm.ne'
  have hexp : ∀ ω, (X i ω - (∑ j, X j ω) / m)^2 =
      X i ω * X i ω - (2/m) * (∑ j, X i ω * X j ω) + (1/m^2) * (∑ j, ∑ k, X j ω * X k ω) := by
    intro ω
    rw [← Finset.mul_sum]
    have : ∑ j, ∑ k, X j ω * X k ω = (∑ j, X j ω) * (∑ k, X k ω) := by
      rw [Finset.sum_mul_sum]
    rw [this]
    field_simp
    ring
  simp_rw [hexp]
  have hi1 : Integrable (fun ω => ∑ j, X i ω * X j ω) μ := integrable_finsetSum _ fun j _ => hint i j
  have hi2 : Integrable (fun ω => ∑ j, ∑ k, X j ω * X k ω) μ :=
    integrable_finsetSum _ fun j _ => integrable_finsetSum _ fun k _ => hint j k
  rw [integral_add, integral_sub, integral_const_mul, integral_const_mul, integral_finsetSum, integral_finsetSum]
  · have e1 : ∀ i : Fin m, ∑ j, ∫ ω, X i ω * X j ω ∂μ = s := by
      intro i
      rw [Finset.sum_eq_single i, hvar]
      · intro j _ hj; exact hcov i j hj.symm
      · intro h; exact absurd (Finset.mem_univ _) h
    have e2 : ∀ j : Fin m, ∫ ω, ∑ k, X j ω * X k ω ∂μ = s := by
      intro j
      rw [integral_finsetSum _ fun k _ => hint j k]
      exact e1 j
    rw [hvar, e1]
    simp only [e2, Finset.sum_const, Finset.card_univ, Fintype.card_fin, nsmul_eq_mul]
    field_simp
    ring
  · exact fun j _ => integrable_finsetSum _ fun k _ => hint j k
  · exact fun j _ => hint i j
  · exact hint i i
  · exact hi1.const_mul _
  · exact (hint i i).sub (hi1.const_mul _)
  · exact hi2.const_mul _

/-- **C09, variance.** If the `m` numbers drawn for one coordinate are independent centred normal variables whose
standard deviation is the sampling width, then after recentring (subtracting their mean, see
`sampled_position_is_draw_minus_mean`) each constituent's mean squared displacement from the nucleon plus the
constituent's own variance `v²` is exactly `w²`. -/
theorem C09_variance [IsProbabilityMeasure μ] (w v : ℝ) (m : ℕ) (hv : 0 ≤ v) (hwv : 1e-6 ≤ w - v) (hm : 2 ≤ m)
    (X : Fin m → Ω → ℝ)
    (hlaw : ∀ i, HasLaw (X i) (gaussianReal 0 ((calcSamplingWidth w v m)^2).toNNReal) μ)
    (hindep : ∀ i j, i ≠ j → IndepFun (X i) (X j) μ) (i : Fin m) :
    ∫ ω, (X i ω - (∑ j, X j ω) / m)^2 ∂μ + v^2 = w^2 := by
  have hL : ∀ i, MemLp (X i) 2 μ := by
    intro i
    have := memLp_id_gaussianReal' (μ := 0) (v := ((calcSamplingWidth w v m)^2).toNNReal) 2 (by simp)
    rw [← (hlaw i).map_eq] at this
    exact this.comp_of_map (hlaw i).aemeasurable
  have hmean : ∀ i, ∫ ω, X i ω ∂μ = 0 := by
    intro i; rw [(hlaw i).integral_eq, integral_id_gaussianReal]
  rw [recentred_second_moment (by omega) X ((calcSamplingWidth w v m)^2)]
  · exact (C09_sampling_width w v m hv hwv hm).2
  · intro i j; exact (hL i).integrable_mul (hL j)
  · intro i
    have h1 : Var[X i; μ] = ((calcSamplingWidth w v m)^2) := by
      rw [(hlaw i).variance_eq, variance_id_gaussianReal, Real.coe_toNNReal _ (sq_nonneg _)]
    rw [variance_of_integral_eq_zero (hlaw i).aemeasurable (hmean i)] at h1
    rw [← h1]
    congr 1; ext ω; ring
  · intro i j hij
    rw [(hindep i j hij).integral_fun_mul_eq_mul_integral (hL i).aestronglyMeasurable (hL j).aestronglyMeasurable,
      hmean, zero_mul]

end variance

/-- Non-vacuity: the product of `m = 3` normal distributions, `w = 1`, `v = 0.5`. -/
example : ∃ (X : Fin 3 → (Fin 3 → ℝ) → ℝ) (μ : Measure (Fin 3 → ℝ)), IsProbabilityMeasure μ ∧
    (∀ i, HasLaw (X i) (gaussianReal 0 ((calcSamplingWidth (1:ℝ) 0.5 3)^2).toNNReal) μ) ∧
    (∀ i j, i ≠ j → IndepFun (X i) (X j) μ) ∧ (1e-6:ℝ) ≤ 1 - 0.5 := by
  refine ⟨fun i f => f i, Measure.pi fun _ => gaussianReal 0 ((calcSamplingWidth (1:ℝ) 0.5 3)^2).toNNReal,
    inferInstance, ?_, ?_, by norm_num⟩
  · intro i
    exact ⟨(measurable_pi_apply i).aemeasurable, (measurePreserving_eval _ i).map_eq⟩
  · intro i j hij
    have := iIndepFun_pi (μ := fun _ : Fin 3 => gaussianReal 0 ((calcSamplingWidth (1:ℝ) 0.5 3)^2).toNNReal)
      (X := fun _ x => x) (fun _ => aemeasurable_id)
    exact this.indepFun hij

end Trento
