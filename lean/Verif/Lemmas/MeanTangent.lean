import Verif.Props.GenMean
import Mathlib.Analysis.Convex.SpecificFunctions.Basic
import Mathlib.Analysis.Convex.SpecificFunctions.Pow

/-!
# Tangents of the generalized mean

For `0 ≤ p ≤ 1` the generalized mean lies below its tangent in each thickness, for `p ≥ 1` above it.
-/

namespace Trento
open Spec

theorem trentoMean_pm {p a b : ℝ} (hp : 1e-12 ≤ p) : trentoMean p a b = pm p a b := by
  have hq0 : 0 < p := lt_of_lt_of_le (by norm_num) hp
  rw [C25_trentoMean_eq p a b (.inl ⟨by rw [abs_of_pos hq0]; exact hp, .inl hq0⟩), powerMean_pos hq0]

theorem trentoMean_geo {p a b : ℝ} (hp0 : 0 ≤ p) (hp : ¬ 1e-12 ≤ p) : trentoMean p a b = Real.sqrt (a * b) := by
  unfold trentoMean
  rw [if_pos (by rw [abs_of_nonneg hp0]; exact not_le.mp hp), powerMean_zero]

theorem trentoMean_comm (p a b : ℝ) : trentoMean p a b = trentoMean p b a := by
  have e : powerMean p a b = powerMean p b a := by
    unfold powerMean
    rw [mul_comm a b, add_comm (a ^ p)]
    simp only [or_comm (a := a = 0) (b := b = 0)]
  have e0 : powerMean 0 a b = powerMean 0 b a := by rw [powerMean_zero, powerMean_zero, mul_comm]
  unfold trentoMean
  rw [e, e0]
  simp only [or_comm (a := a < 1e-12) (b := b < 1e-12)]

/-- rescaling one argument of the power mean is a weighted power mean -/
theorem pm_ratio {p x b : ℝ} (_hp : 0 < p) (hx : 0 < x) (hb : 0 ≤ b) :
    ∃ t : ℝ, 0 ≤ t ∧ t ≤ 1 ∧ ∀ r, 0 ≤ r → pm p (x * r) b = pm p x b * (t * r ^ p + (1 - t)) ^ (1 / p) := by
  have hxp : 0 < x ^ p := Real.rpow_pos_of_pos hx p
  have hbp : 0 ≤ b ^ p := Real.rpow_nonneg hb p
  have hs : 0 < x ^ p + b ^ p := by linarith
  refine ⟨x ^ p / (x ^ p + b ^ p), by positivity, (div_le_one hs).mpr (by linarith), fun r hr => ?_⟩
  have hrp : 0 ≤ r ^ p := Real.rpow_nonneg hr p
  have e : ((x * r) ^ p + b ^ p) / 2 = (x ^ p + b ^ p) / 2 * (x ^ p / (x ^ p + b ^ p) * r ^ p + (1 - x ^ p / (x ^ p + b ^ p))) := by
    rw [Real.mul_rpow hx.le hr]
    field_simp
    ring
  unfold pm
  rw [e, Real.mul_rpow (by positivity)]
  have h1 : x ^ p / (x ^ p + b ^ p) ≤ 1 := (div_le_one hs).mpr (by linarith)
  have : 0 ≤ x ^ p / (x ^ p + b ^ p) * r ^ p := by positivity
  linarith

theorem pow_inv_pow {p y : ℝ} (hp : 0 < p) (hy : 0 ≤ y) : (y ^ p) ^ (1 / p) = y := by
  rw [← Real.rpow_mul hy, mul_one_div_cancel hp.ne', Real.rpow_one]

/-- For `0 ≤ p ≤ 1` the mean is below its tangent. -/
theorem mean_below {p u v b : ℝ} (hp0 : 0 ≤ p) (hp1 : p ≤ 1) (hu : 0 ≤ u) (hv : 0 ≤ v) (hb : 0 ≤ b) :
    ∃ c : ℝ, 0 ≤ c ∧ ∀ f : ℝ, 0 ≤ f → trentoMean p (u + f * v) b ≤ trentoMean p (u + v) b + (f - 1) * c := by
  rcases hv.eq_or_lt with rfl | hv
  · exact ⟨0, le_rfl, fun f _ => by simp⟩
  have hx : 0 < u + v := by linarith
  have hr : ∀ f, 0 ≤ f → 0 ≤ (u + f * v) / (u + v) := fun f hf => by positivity
  have hxr : ∀ f, u + f * v = (u + v) * ((u + f * v) / (u + v)) := fun f => by field_simp
  have hlin : ∀ f, (u + f * v) / (u + v) - 1 = (f - 1) * (v / (u + v)) := fun f => by field_simp; ring
  by_cases hp : 1e-12 ≤ p
  · have hpp : 0 < p := lt_of_lt_of_le (by norm_num) hp
    obtain ⟨t, t0, t1, ht⟩ := pm_ratio hpp hx hb
    have hM : 0 ≤ pm p (u + v) b := pm_nonneg hx.le hb
    refine ⟨pm p (u + v) b * (t * (v / (u + v))), by positivity, fun f hf => ?_⟩
    rw [trentoMean_pm hp, trentoMean_pm hp, hxr f, ht _ (hr f hf)]
    have hf' := hr f hf
    have hl := hlin f
    generalize (u + f * v) / (u + v) = r at *
    have hy : 0 ≤ t * r + (1 - t) := by have := mul_nonneg t0 hf'; linarith
    have hc := (Real.concaveOn_rpow hpp.le hp1).2 (x := r) hf' (y := 1) (by simp) t0 (by linarith : 0 ≤ 1 - t) (by ring)
    simp only [smul_eq_mul, Real.one_rpow, mul_one] at hc
    have h0 : 0 ≤ t * r ^ p + (1 - t) := by
      have := mul_nonneg t0 (Real.rpow_nonneg hf' p)
      linarith
    have hle := Real.rpow_le_rpow h0 hc (by positivity : 0 ≤ 1 / p)
    rw [pow_inv_pow hpp hy] at hle
    have := mul_le_mul_of_nonneg_left hle hM
    have e : t * r + (1 - t) = 1 + t * (r - 1) := by ring
    rw [e, hl] at this
    linarith
  · have hM : 0 ≤ Real.sqrt ((u + v) * b) := Real.sqrt_nonneg _
    refine ⟨Real.sqrt ((u + v) * b) * (v / (u + v) / 2), by positivity, fun f hf => ?_⟩
    rw [trentoMean_geo hp0 hp, trentoMean_geo hp0 hp, hxr f, mul_right_comm, Real.sqrt_mul' _ (hr f hf)]
    have hf' := hr f hf
    have hl := hlin f
    generalize (u + f * v) / (u + v) = r at *
    have hs : Real.sqrt r ≤ 1 + (r - 1) / 2 := by
      have := Real.sq_sqrt hf'
      nlinarith [sq_nonneg (Real.sqrt r - 1)]
    have := mul_le_mul_of_nonneg_left hs hM
    rw [hl] at this
    linarith

/-- For `p ≥ 1` the mean is above its tangent. -/
theorem mean_above {p u v b : ℝ} (hp1 : 1 ≤ p) (hu : 0 ≤ u) (hv : 0 ≤ v) (hb : 0 ≤ b) :
    ∃ c : ℝ, 0 ≤ c ∧ ∀ f : ℝ, 0 ≤ f → trentoMean p (u + v) b + (f - 1) * c ≤ trentoMean p (u + f * v) b := by
  rcases hv.eq_or_lt with rfl | hv
  · exact ⟨0, le_rfl, fun f _ => by simp⟩
  have hx : 0 < u + v := by linarith
  have hr : ∀ f, 0 ≤ f → 0 ≤ (u + f * v) / (u + v) := fun f hf => by positivity
  have hxr : ∀ f, u + f * v = (u + v) * ((u + f * v) / (u + v)) := fun f => by field_simp
  have hlin : ∀ f, (u + f * v) / (u + v) - 1 = (f - 1) * (v / (u + v)) := fun f => by field_simp; ring
  have hp : 1e-12 ≤ p := le_trans (by norm_num) hp1
  have hpp : 0 < p := by linarith
  obtain ⟨t, t0, t1, ht⟩ := pm_ratio hpp hx hb
  have hM : 0 ≤ pm p (u + v) b := pm_nonneg hx.le hb
  refine ⟨pm p (u + v) b * (t * (v / (u + v))), by positivity, fun f hf => ?_⟩
  rw [trentoMean_pm hp, trentoMean_pm hp, hxr f, ht _ (hr f hf)]
  have hf' := hr f hf
  have hl := hlin f
  generalize (u + f * v) / (u + v) = r at *
  have hy : 0 ≤ t * r + (1 - t) := by have := mul_nonneg t0 hf'; linarith
  have hc := (convexOn_rpow hp1).2 (x := r) hf' (y := 1) (by simp) t0 (by linarith : 0 ≤ 1 - t) (by ring)
  simp only [smul_eq_mul, Real.one_rpow, mul_one] at hc
  have hle := Real.rpow_le_rpow (Real.rpow_nonneg hy p) hc (by positivity : 0 ≤ 1 / p)
  rw [pow_inv_pow hpp hy] at hle
  have := mul_le_mul_of_nonneg_left hle hM
  have e : t * r + (1 - t) = 1 + t * (r - 1) := by ring
  rw [e, hl] at this
  linarith

/-- The mean is continuous for `p ≥ 0`. -/
theorem mean_continuous {p : ℝ} (hp0 : 0 ≤ p) : Continuous fun q : ℝ × ℝ => trentoMean p q.1 q.2 := by
  by_cases hp : 1e-12 ≤ p
  · have hpp : 0 < p := lt_of_lt_of_le (by norm_num) hp
    simp only [trentoMean_pm hp]
    unfold pm
    exact (Real.continuous_rpow_const (by positivity)).comp
      ((((Real.continuous_rpow_const hp0).comp continuous_fst).add ((Real.continuous_rpow_const hp0).comp continuous_snd)).div_const _)
  · simp only [trentoMean_geo hp0 hp]
    fun_prop

end Trento
