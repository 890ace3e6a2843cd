import Mathlib.Probability.Distributions.Gaussian.Real
import Mathlib.Probability.Distributions.Gamma
import Mathlib.MeasureTheory.Constructions.Pi
import Mathlib.MeasureTheory.Integral.Pi
import Mathlib.MeasureTheory.Measure.CharacteristicFunction.Basic
import Mathlib.Analysis.SpecialFunctions.Gaussian.GaussianIntegral

/-!
# Linear forms of independent normal numbers, Gaussian smearing, moments of gamma numbers
-/

namespace Trento
open MeasureTheory Set ProbabilityTheory
open scoped ENNReal NNReal

/-- A linear form of independent centred normal numbers. -/
theorem gauss_linear {m : ℕ} (s : ℝ≥0) (a : Fin m → ℝ) (t : ℝ≥0) (ht : (t:ℝ) = s * ∑ i, a i ^ 2) :
    (Measure.pi fun _ : Fin m => gaussianReal 0 s).map (fun v => ∑ i, a i * v i) = gaussianReal 0 t := by
  have hm : Measurable fun v : Fin m → ℝ => ∑ i, a i * v i := by fun_prop
  have : IsProbabilityMeasure ((Measure.pi fun _ : Fin m => gaussianReal 0 s).map fun v => ∑ i, a i * v i) :=
    Measure.isProbabilityMeasure_map hm.aemeasurable
  refine Measure.ext_of_charFun (funext fun x => ?_)
  rw [charFun_apply_real, integral_map hm.aemeasurable (by fun_prop), charFun_gaussianReal]
  have h1 : ∀ v : Fin m → ℝ, Complex.exp ((x:ℂ) * ((∑ i, a i * v i : ℝ) : ℂ) * Complex.I) = ∏ i, Complex.exp (((x * a i : ℝ) : ℂ) * (v i : ℂ) * Complex.I) := by
    intro v
    rw [← Complex.exp_sum]
    congr 1
    push_cast
    rw [Finset.mul_sum, Finset.sum_mul]
    refine Finset.sum_congr rfl fun i _ => by ring
  simp only [h1]
  rw [integral_fintype_prod_eq_prod (fun i (z : ℝ) => Complex.exp (((x * a i : ℝ) : ℂ) * (z : ℂ) * Complex.I))]
  simp only [← charFun_apply_real, charFun_gaussianReal]
  rw [← Complex.exp_sum]
  congr 1
  have hc : (t : ℂ) = s * ∑ i, (a i : ℂ) ^ 2 := by exact_mod_cast congrArg (fun r : ℝ => (r : ℂ)) ht
  push_cast
  rw [hc]
  simp only [mul_zero, zero_mul, zero_sub]
  rw [Finset.mul_sum, Finset.sum_mul, Finset.sum_div, ← Finset.sum_neg_distrib]
  refine Finset.sum_congr rfl fun i _ => by ring

/-- The distance of one of `m` independent normal numbers from their mean. -/
theorem gauss_offset {m : ℕ} (i : Fin m) (s t : ℝ≥0) (ht : (t:ℝ) = s * (1 - 1 / m)) :
    (Measure.pi fun _ : Fin m => gaussianReal 0 s).map (fun v : Fin m → ℝ => v i - (∑ j, v j) / (m:ℝ)) = gaussianReal 0 t := by
  have hm : (m:ℝ) ≠ 0 := by
    have := i.pos
    positivity
  have e : (fun v : Fin m → ℝ => v i - (∑ j, v j) / (m:ℝ)) = fun v => ∑ j, ((if j = i then (1:ℝ) else 0) - 1 / m) * v j := by
    funext v
    simp only [sub_mul, Finset.sum_sub_distrib, ite_mul, one_mul, zero_mul, Finset.sum_ite_eq', Finset.mem_univ, if_true, ← Finset.mul_sum]
    ring
  rw [e]
  refine gauss_linear s _ t ?_
  rw [ht]
  congr 1
  have : ∀ j : Fin m, ((if j = i then (1:ℝ) else 0) - 1 / m) ^ 2 = (if j = i then (1:ℝ) - 2 / m else 0) + 1 / (m:ℝ)^2 := by
    intro j
    split <;> ring
  simp only [this, Finset.sum_add_distrib, Finset.sum_ite_eq', Finset.mem_univ, if_true, Finset.sum_const, Finset.card_univ, Fintype.card_fin, nsmul_eq_mul]
  field_simp
  ring

/-- Smearing a Gaussian of width `v` with a normal number of variance `u` gives a Gaussian of width `√(v² + u)`. -/
theorem gauss_smear {v W x : ℝ} {u : ℝ≥0} (hv : 0 < v) (hW : 0 < W) (h : W^2 = v^2 + u) :
    ∫⁻ z, ENNReal.ofReal (Real.exp (-(x - z)^2 / (2 * v^2))) ∂gaussianReal 0 u = ENNReal.ofReal (v / W * Real.exp (-x^2 / (2 * W^2))) := by
  have hm : Measurable fun z : ℝ => ENNReal.ofReal (Real.exp (-(x - z)^2 / (2 * v^2))) := by fun_prop
  by_cases hu : u = 0
  · have : W = v := by
      rw [hu] at h
      simp only [NNReal.coe_zero, add_zero] at h
      exact (sq_eq_sq₀ hW.le hv.le).1 h
    rw [hu, gaussianReal_zero_var, lintegral_dirac' _ hm, this, sub_zero, div_self hv.ne', one_mul]
  · have hu0 : (0:ℝ) < u := by positivity
    rw [gaussianReal_of_var_ne_zero _ hu, lintegral_withDensity_eq_lintegral_mul _ (measurable_gaussianPDF 0 u) hm]
    have hpdf : ∀ z, (gaussianPDF 0 u * fun z => ENNReal.ofReal (Real.exp (-(x - z)^2 / (2 * v^2)))) z =
        ENNReal.ofReal ((√(2 * Real.pi * u))⁻¹ * Real.exp (-x^2 / (2 * W^2)) * Real.exp (-(W^2 / (2 * u * v^2)) * (z - x * u / W^2)^2)) := by
      intro z
      rw [Pi.mul_apply, gaussianPDF, gaussianPDFReal, ← ENNReal.ofReal_mul (by positivity), sub_zero]
      congr 1
      set q := (√(2 * Real.pi * u))⁻¹
      rw [mul_assoc q, mul_assoc q, ← Real.exp_add, ← Real.exp_add]
      congr 2
      have hv2 : v^2 = W^2 - u := by linarith
      have hne : W^2 - u ≠ 0 := by rw [← hv2]; positivity
      rw [hv2]
      field_simp
      ring
    simp only [hpdf]
    rw [← ofReal_integral_eq_lintegral_ofReal]
    · congr 1
      rw [integral_const_mul, integral_sub_right_eq_self (fun z => Real.exp (-(W^2 / (2 * u * v^2)) * z^2)), integral_gaussian]
      have h1 : Real.pi / (W^2 / (2 * u * v^2)) = 2 * Real.pi * u * (v / W)^2 := by
        have := Real.pi_pos
        field_simp
      have h2 : √(2 * Real.pi * u) ≠ 0 := by
        have := Real.pi_pos
        positivity
      rw [h1, Real.sqrt_mul (x := 2 * Real.pi * u) (by have := Real.pi_pos; positivity) ((v / W)^2), Real.sqrt_sq (by positivity)]
      field_simp
    · refine Integrable.const_mul ?_ _
      exact (integrable_exp_neg_mul_sq (b := W^2 / (2 * u * v^2)) (by positivity)).comp_sub_right _
    · exact Filter.Eventually.of_forall fun z => by positivity

/-- moments of a gamma number -/
theorem gamma_moment {a r : ℝ} (ha : 0 < a) (hr : 0 < r) (n : ℕ) :
    ∫⁻ x, ENNReal.ofReal (x ^ n) ∂gammaMeasure a r = ENNReal.ofReal (Real.Gamma (a + n) / Real.Gamma a / r ^ n) := by
  have hG := Real.Gamma_pos_of_pos ha
  have hG2 : 0 < Real.Gamma (a + n) := Real.Gamma_pos_of_pos (by positivity)
  have hm : Measurable fun x : ℝ => ENNReal.ofReal (x ^ n) := by fun_prop
  have hg : ∀ b, Measurable (gammaPDF b r) := fun b => (measurable_gammaPDFReal b r).ennreal_ofReal
  rw [gammaMeasure, lintegral_withDensity_eq_lintegral_mul _ (hg a) hm]
  have h1 : ∀ x, ((gammaPDF a r) * fun x => ENNReal.ofReal (x ^ n)) x =
      ENNReal.ofReal (Real.Gamma (a + n) / Real.Gamma a / r ^ n) * gammaPDF (a + n) r x := by
    intro x
    rw [Pi.mul_apply]
    rcases lt_or_ge x 0 with hx | hx
    · rw [gammaPDF_of_neg hx, gammaPDF_of_neg hx]; simp
    · rw [gammaPDF_of_nonneg hx, gammaPDF_of_nonneg hx, ← ENNReal.ofReal_mul (by positivity), ← ENNReal.ofReal_mul (by positivity)]
      congr 1
      rw [Real.rpow_add hr, Real.rpow_natCast]
      rcases hx.lt_or_eq with hx | hx
      · rw [show a + n - 1 = (a - 1) + n by ring, Real.rpow_add hx, Real.rpow_natCast]
        field_simp
      · rw [← hx]
        rcases Nat.eq_zero_or_pos n with hn | hn
        · subst hn
          simp
          field_simp
        · have h2 : a + n - 1 ≠ 0 := by
            have : (1:ℝ) ≤ n := by exact_mod_cast hn
            have : 0 < a + n - 1 := by linarith
            exact this.ne'
          rw [zero_pow hn.ne', Real.zero_rpow h2]
          simp
  simp only [h1]
  rw [lintegral_const_mul _ (hg _)]
  have h2 := lintegral_gammaPDF_eq_one (a := a + n) (by positivity) hr
  rw [h2, mul_one]

theorem gamma_mean {k : ℝ} (hk : 0 < k) : ∫⁻ x, ENNReal.ofReal x ∂gammaMeasure k k = 1 := by
  have h := gamma_moment hk hk 1
  simp only [pow_one, Nat.cast_one] at h
  rw [h, Real.Gamma_add_one hk.ne']
  have := (Real.Gamma_pos_of_pos hk).ne'
  rw [mul_div_assoc, div_self this, mul_one, div_self hk.ne', ENNReal.ofReal_one]

theorem gamma_square {k : ℝ} (hk : 0 < k) : ∫⁻ x, ENNReal.ofReal (x^2) ∂gammaMeasure k k = ENNReal.ofReal (1 + 1 / k) := by
  rw [gamma_moment hk hk 2]
  congr 1
  have := (Real.Gamma_pos_of_pos hk).ne'
  rw [show k + (2:ℕ) = (k + 1) + 1 by push_cast; ring, Real.Gamma_add_one (by positivity), Real.Gamma_add_one hk.ne']
  field_simp

end Trento
