import Verif.Model.RealArith
import Mathlib.Analysis.SpecialFunctions.Gaussian.GaussianIntegral
import Mathlib.Probability.Distributions.Gaussian.Real
import Mathlib.MeasureTheory.Integral.IntegralEqImproper

/-! # The error function and the normal distribution -/

namespace Trento
open MeasureTheory Set Filter Topology

/-- The error function. -/
noncomputable def erf (x : ℝ) : ℝ := 2 / Real.sqrt Real.pi * ∫ t in (0:ℝ)..x, Real.exp (-t^2)

theorem gauss_cont : Continuous fun t : ℝ => Real.exp (-t^2) := by fun_prop

theorem gauss_integrable : Integrable fun t : ℝ => Real.exp (-t^2) := by
  simpa using integrable_exp_neg_mul_sq (b := 1) one_pos

theorem erf_continuous : Continuous erf :=
  continuous_const.mul (intervalIntegral.continuous_primitive (fun a b => gauss_cont.intervalIntegrable a b) 0)

theorem erf_strictMono : StrictMono erf := by
  intro a b hab
  have h : erf b - erf a = 2 / Real.sqrt Real.pi * ∫ t in a..b, Real.exp (-t^2) := by
    unfold erf
    rw [← mul_sub, intervalIntegral.integral_interval_sub_left (gauss_cont.intervalIntegrable _ _) (gauss_cont.intervalIntegrable _ _)]
  have hpos : 0 < ∫ t in a..b, Real.exp (-t^2) :=
    intervalIntegral.intervalIntegral_pos_of_pos (gauss_cont.intervalIntegrable _ _) (fun x => Real.exp_pos _) hab
  have : 0 < erf b - erf a := by rw [h]; have := Real.sqrt_pos.mpr Real.pi_pos; positivity
  linarith

theorem erf_neg (x : ℝ) : erf (-x) = -erf x := by
  unfold erf
  have h := intervalIntegral.integral_comp_neg (a := 0) (b := x) (fun t : ℝ => Real.exp (-t^2))
  simp only [neg_sq, neg_zero] at h
  rw [intervalIntegral.integral_symm (-x) 0, ← h]; ring

theorem gauss_half : ∫ t in Ioi (0:ℝ), Real.exp (-t^2) = Real.sqrt Real.pi / 2 := by
  simpa using integral_gaussian_Ioi 1

theorem erf_tendsto : Tendsto erf atTop (𝓝 1) := by
  have h := intervalIntegral_tendsto_integral_Ioi 0 gauss_integrable.integrableOn tendsto_id
  have h2 := h.const_mul (2 / Real.sqrt Real.pi)
  rw [gauss_half] at h2
  have hs := Real.sqrt_pos.mpr Real.pi_pos
  have e : 2 / Real.sqrt Real.pi * (Real.sqrt Real.pi / 2) = 1 := by field_simp
  rw [e] at h2
  exact h2

theorem erf_surj {z : ℝ} (h1 : -1 < z) (h2 : z < 1) : ∃ x, erf x = z := by
  have key : ∀ y, y < 1 → ∃ x, y < erf x := fun y hy =>
    ((erf_tendsto.eventually (lt_mem_nhds hy)).exists)
  obtain ⟨b, hb⟩ := key z h2
  obtain ⟨a, ha⟩ := key (-z) (by linarith)
  have ha' : erf (-a) < z := by rw [erf_neg]; linarith
  have := mem_range_of_exists_le_of_exists_ge erf_continuous ⟨-a, ha'.le⟩ ⟨b, hb.le⟩
  exact this

theorem erf_erfInv {z : ℝ} (h1 : -1 < z) (h2 : z < 1) : erf (erfInv z) = z := by
  rw [erfInv_real]
  exact Function.invFun_eq (f := erf) (erf_surj h1 h2)

theorem erfInv_neg {z : ℝ} (h1 : -1 < z) (h2 : z < 1) : erfInv (-z) = -(erfInv z : ℝ) := by
  apply erf_strictMono.injective
  rw [erf_erfInv (by linarith) (by linarith), erf_neg, erf_erfInv h1 h2]

/-- The integral of the Gauss function from minus infinity. -/
theorem gauss_Iic (x : ℝ) : ∫ t in Iic x, Real.exp (-t^2) = Real.sqrt Real.pi / 2 * (1 + erf x) := by
  have h0 : ∫ t in Iic (0:ℝ), Real.exp (-t^2) = Real.sqrt Real.pi / 2 := by
    have := integral_comp_neg_Iic (0:ℝ) (fun t : ℝ => Real.exp (-t^2))
    simp only [neg_sq, neg_zero] at this
    rw [this, gauss_half]
  have h := intervalIntegral.integral_Iic_sub_Iic (f := fun t : ℝ => Real.exp (-t^2)) (μ := volume) (a := 0) (b := x)
    gauss_integrable.integrableOn gauss_integrable.integrableOn
  have hs := Real.sqrt_pos.mpr Real.pi_pos
  unfold erf
  rw [← h, h0]
  field_simp
  ring

open ProbabilityTheory in
/-- The normal distribution function. -/
theorem gaussian_cdf (m s : ℝ) (hs : 0 < s) (x : ℝ) :
    (gaussianReal m (Real.toNNReal (s^2))).real (Iic (m + s * (Real.sqrt 2 * x))) = (1 + erf x) / 2 := by
  have h2 := Real.sqrt_pos.mpr (show (0:ℝ) < 2 by norm_num)
  have hmap : gaussianReal m (Real.toNNReal (s^2)) = (gaussianReal 0 (1/2)).map (fun t => m + (s * Real.sqrt 2) * t) := by
    have h1 := gaussianReal_map_const_mul (μ := 0) (v := 1/2) (s * Real.sqrt 2)
    have h3 := gaussianReal_map_const_add (μ := 0) (v := Real.toNNReal (s^2)) m
    have hv : NNReal.mk ((s * Real.sqrt 2)^2) (sq_nonneg _) * (1/2) = Real.toNNReal (s^2) := by
      apply NNReal.eq
      rw [NNReal.coe_mul, Real.coe_toNNReal _ (sq_nonneg s)]
      show (s * Real.sqrt 2)^2 * (((1/2 : NNReal)) : ℝ) = s^2
      rw [mul_pow, Real.sq_sqrt (by norm_num)]
      have : (((1/2 : NNReal)) : ℝ) = 1/2 := by norm_num
      rw [this]; ring
    rw [hv, mul_zero] at h1
    rw [← h1, zero_add, Measure.map_map (by fun_prop) (by fun_prop)] at h3
    exact h3.symm
  rw [hmap, map_measureReal_apply (by fun_prop) measurableSet_Iic]
  have hpre : (fun t => m + (s * Real.sqrt 2) * t) ⁻¹' Iic (m + s * (Real.sqrt 2 * x)) = Iic x := by
    ext t
    simp only [mem_preimage, mem_Iic]
    rw [← mul_assoc, add_le_add_iff_left, mul_le_mul_iff_right₀ (mul_pos hs h2)]
  rw [hpre, measureReal_def, gaussianReal_apply_eq_integral _ (by norm_num), ENNReal.toReal_ofReal
    (integral_nonneg fun t => gaussianPDFReal_nonneg 0 (1/2) t)]
  have hpdf : ∀ t, gaussianPDFReal 0 (1/2) t = (Real.sqrt Real.pi)⁻¹ * Real.exp (-t^2) := by
    intro t
    unfold gaussianPDFReal
    have : (((1/2 : NNReal)) : ℝ) = 1/2 := by norm_num
    rw [this]
    congr 2
    · congr 1; ring_nf
    · ring
  simp_rw [hpdf]
  rw [integral_const_mul, gauss_Iic]
  have hs := Real.sqrt_pos.mpr Real.pi_pos
  field_simp

end Trento
