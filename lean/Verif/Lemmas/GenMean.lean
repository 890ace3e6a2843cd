import Verif.Model.Event
import Verif.Model.RealArith
import Verif.Spec.Event
import Mathlib.Analysis.MeanInequalitiesPow
import Mathlib.Analysis.MeanInequalities
import Mathlib.Analysis.SpecialFunctions.Trigonometric.Series

/-! Power means of two numbers. -/

namespace Trento
open Spec

/-- `((a^p+b^p)/2)^(1/p)` -/
noncomputable def pm (p a b : ℝ) : ℝ := ((a ^ p + b ^ p) / 2) ^ (1 / p)

theorem positivePmean_real (p a b : ℝ) : positivePmean p a b = pm p a b := by
  unfold positivePmean pm
  simp only [pow_real, lit_real]
  congr 1
  · push_cast; ring
  · push_cast; ring

theorem pm_nonneg {p a b : ℝ} (ha : 0 ≤ a) (hb : 0 ≤ b) : 0 ≤ pm p a b := by
  unfold pm
  have := Real.rpow_nonneg ha p
  have := Real.rpow_nonneg hb p
  apply Real.rpow_nonneg; linarith

theorem pm_same {p a : ℝ} (ha : 0 ≤ a) (hp : p ≠ 0) : pm p a a = a := by
  unfold pm
  rw [show (a^p + a^p)/2 = a^p by ring, ← Real.rpow_mul ha, mul_one_div_cancel hp, Real.rpow_one]

theorem pm_comm (p a b : ℝ) : pm p a b = pm p b a := by unfold pm; rw [add_comm]

/-- inversion formula -/
theorem pm_neg {p a b : ℝ} (ha : 0 < a) (hb : 0 < b) : pm (-p) a b = (pm p a⁻¹ b⁻¹)⁻¹ := by
  unfold pm
  rw [Real.inv_rpow ha.le, Real.inv_rpow hb.le, Real.rpow_neg ha.le, Real.rpow_neg hb.le]
  rw [show (1 / -p) = -(1/p) by ring, Real.rpow_neg]
  have := Real.rpow_pos_of_pos ha p
  have := Real.rpow_pos_of_pos hb p
  positivity

/-- monotone for positive orders -/
theorem pm_mono_pos {p q a b : ℝ} (ha : 0 ≤ a) (hb : 0 ≤ b) (hp : 0 < p) (hpq : p ≤ q) : pm p a b ≤ pm q a b := by
  have hq : 0 < q := lt_of_lt_of_le hp hpq
  have hap := Real.rpow_nonneg ha p
  have hbp := Real.rpow_nonneg hb p
  have hr : 1 ≤ q / p := by rw [le_div_iff₀ hp]; linarith
  have key : (1/2 * a^p + 1/2 * b^p)^(q/p) ≤ 1/2 * (a^p)^(q/p) + 1/2 * (b^p)^(q/p) := by
    have := (convexOn_rpow hr).2 (Set.mem_Ici.mpr hap) (Set.mem_Ici.mpr hbp) (by norm_num : (0:ℝ) ≤ 1/2)
      (by norm_num : (0:ℝ) ≤ 1/2) (by norm_num)
    simpa [smul_eq_mul] using this
  rw [← Real.rpow_mul ha, ← Real.rpow_mul hb, mul_div_cancel₀ _ hp.ne'] at key
  unfold pm
  have h0 : 0 ≤ (a^p + b^p)/2 := by linarith
  have h1 : ((a^p + b^p)/2) ^ (1/p) = (((a^p + b^p)/2) ^ (q/p)) ^ (1/q) := by
    rw [← Real.rpow_mul h0]; congr 1; field_simp
  rw [h1]
  apply Real.rpow_le_rpow (Real.rpow_nonneg h0 _) _ (by positivity)
  calc ((a^p + b^p)/2)^(q/p) = (1/2 * a^p + 1/2 * b^p)^(q/p) := by congr 1; ring
    _ ≤ 1/2 * a^q + 1/2 * b^q := key
    _ = (a^q + b^q)/2 := by ring

/-- geometric mean below positive orders -/
theorem geo_le_pm {p a b : ℝ} (ha : 0 ≤ a) (hb : 0 ≤ b) (hp : 0 < p) : Real.sqrt (a*b) ≤ pm p a b := by
  have hap := Real.rpow_nonneg ha p
  have hbp := Real.rpow_nonneg hb p
  have key : Real.sqrt (a^p * b^p) ≤ (a^p + b^p)/2 := by
    rw [Real.sqrt_le_left (by linarith)]
    nlinarith [sq_nonneg (a^p - b^p)]
  have h1 : Real.sqrt (a*b) = (Real.sqrt (a^p * b^p)) ^ (1/p) := by
    rw [← Real.mul_rpow ha hb, Real.sqrt_eq_rpow, Real.sqrt_eq_rpow, ← Real.rpow_mul (by positivity),
      ← Real.rpow_mul (by positivity)]
    congr 1; field_simp
  rw [h1]
  exact Real.rpow_le_rpow (Real.sqrt_nonneg _) key (by positivity)

theorem pm_neg_le_geo {p a b : ℝ} (ha : 0 < a) (hb : 0 < b) (hp : p < 0) : pm p a b ≤ Real.sqrt (a*b) := by
  have h := geo_le_pm (p := -p) (inv_nonneg.mpr ha.le) (inv_nonneg.mpr hb.le) (by linarith)
  have h2 := pm_neg (p := -p) ha hb
  rw [neg_neg] at h2
  rw [h2, ← mul_inv, Real.sqrt_inv] at *
  have hpos : 0 < (Real.sqrt (a*b))⁻¹ := by positivity
  exact inv_le_of_inv_le₀ (by positivity) h

theorem pm_mono_neg {p q a b : ℝ} (ha : 0 < a) (hb : 0 < b) (hq : q < 0) (hpq : p ≤ q) : pm p a b ≤ pm q a b := by
  have h := pm_mono_pos (p := -q) (q := -p) (inv_nonneg.mpr ha.le) (inv_nonneg.mpr hb.le) (by linarith) (by linarith)
  have h1 := pm_neg (p := -p) ha hb
  have h2 := pm_neg (p := -q) ha hb
  rw [neg_neg] at h1 h2
  rw [h1, h2]
  apply inv_anti₀ _ h
  unfold pm
  have := Real.rpow_pos_of_pos (inv_pos.mpr ha) (-q)
  have := Real.rpow_pos_of_pos (inv_pos.mpr hb) (-q)
  positivity

theorem pm_le_max {p a b : ℝ} (ha : 0 ≤ a) (hb : 0 ≤ b) (hp : 0 < p) : pm p a b ≤ max a b := by
  have hm : 0 ≤ max a b := le_max_of_le_left ha
  have h1 : a^p ≤ (max a b)^p := Real.rpow_le_rpow ha (le_max_left _ _) hp.le
  have h2 : b^p ≤ (max a b)^p := Real.rpow_le_rpow hb (le_max_right _ _) hp.le
  unfold pm
  have hap := Real.rpow_nonneg ha p
  have hbp := Real.rpow_nonneg hb p
  calc ((a^p + b^p)/2)^(1/p) ≤ ((max a b)^p)^(1/p) := by
        apply Real.rpow_le_rpow (by linarith) (by linarith) (by positivity)
    _ = max a b := by rw [← Real.rpow_mul hm, mul_one_div_cancel hp.ne', Real.rpow_one]

theorem min_le_geo {a b : ℝ} (ha : 0 ≤ a) (hb : 0 ≤ b) : min a b ≤ Real.sqrt (a*b) := by
  apply Real.le_sqrt_of_sq_le
  rw [pow_two]
  exact mul_le_mul (min_le_left _ _) (min_le_right _ _) (le_min ha hb) ha

theorem geo_le_max {a b : ℝ} (ha : 0 ≤ a) (hb : 0 ≤ b) : Real.sqrt (a*b) ≤ max a b := by
  have hm : 0 ≤ max a b := le_max_of_le_left ha
  rw [Real.sqrt_le_left hm, pow_two]
  exact mul_le_mul (le_max_left _ _) (le_max_right _ _) hb hm

theorem min_le_pm_neg {p a b : ℝ} (ha : 0 < a) (hb : 0 < b) (hp : p < 0) : min a b ≤ pm p a b := by
  have h := pm_le_max (p := -p) (inv_nonneg.mpr ha.le) (inv_nonneg.mpr hb.le) (by linarith)
  have h2 := pm_neg (p := -p) ha hb
  rw [neg_neg] at h2
  rw [h2]
  have hpos : 0 < pm (-p) a⁻¹ b⁻¹ := by
    unfold pm
    have := Real.rpow_pos_of_pos (inv_pos.mpr ha) (-p)
    have := Real.rpow_pos_of_pos (inv_pos.mpr hb) (-p)
    positivity
  rw [le_inv_comm₀ (lt_min ha hb) hpos]
  refine h.trans ?_
  apply max_le
  · exact inv_anti₀ (lt_min ha hb) (min_le_left _ _)
  · exact inv_anti₀ (lt_min ha hb) (min_le_right _ _)

/-- Quantitative continuity: `M_p = G · cosh(p L/2)^(1/p)`. -/
theorem pm_eq_geo_mul {p a b : ℝ} (ha : 0 < a) (hb : 0 < b) :
    pm p a b = Real.sqrt (a*b) ^ (p * (1/p)) * (Real.cosh (p * (Real.log a - Real.log b) / 2)) ^ (1/p) := by
  unfold pm
  have hG : 0 < Real.sqrt (a*b) := Real.sqrt_pos.mpr (by positivity)
  have h1 : (a^p + b^p)/2 = Real.sqrt (a*b)^p * Real.cosh (p * (Real.log a - Real.log b) / 2) := by
    rw [Real.cosh_eq, Real.sqrt_eq_rpow, ← Real.rpow_mul (by positivity), Real.mul_rpow ha.le hb.le,
      Real.rpow_def_of_pos ha, Real.rpow_def_of_pos hb, Real.rpow_def_of_pos ha, Real.rpow_def_of_pos hb]
    rw [mul_div_assoc', mul_add, ← Real.exp_add, ← Real.exp_add, ← Real.exp_add]
    congr 3 <;> ring
  rw [h1, Real.mul_rpow (by positivity) (Real.cosh_pos _).le, Real.rpow_mul hG.le]

/-- For `p > 0`: `G ≤ M_p ≤ G · exp(p L²/8)`, `L = log(a/b)`. -/
theorem pm_le_geo_mul_exp {p a b : ℝ} (ha : 0 < a) (hb : 0 < b) (hp : 0 < p) :
    pm p a b ≤ Real.sqrt (a*b) * Real.exp (p * (Real.log a - Real.log b)^2 / 8) := by
  rw [pm_eq_geo_mul ha hb, mul_one_div_cancel hp.ne', Real.rpow_one]
  apply mul_le_mul_of_nonneg_left _ (Real.sqrt_nonneg _)
  have h := Real.cosh_le_exp_half_sq (p * (Real.log a - Real.log b) / 2)
  calc (Real.cosh (p * (Real.log a - Real.log b) / 2)) ^ (1/p)
      ≤ (Real.exp ((p * (Real.log a - Real.log b) / 2)^2/2)) ^ (1/p) :=
        Real.rpow_le_rpow (Real.cosh_pos _).le h (by positivity)
    _ = Real.exp (p * (Real.log a - Real.log b)^2 / 8) := by
        rw [← Real.exp_mul]; congr 1; field_simp; ring

/-- For `p < 0`: `G · exp(-|p| L²/8) ≤ M_p ≤ G`. -/
theorem geo_mul_exp_le_pm {p a b : ℝ} (ha : 0 < a) (hb : 0 < b) (hp : p < 0) :
    Real.sqrt (a*b) * Real.exp (p * (Real.log a - Real.log b)^2 / 8) ≤ pm p a b := by
  have h := pm_le_geo_mul_exp (p := -p) (inv_pos.mpr ha) (inv_pos.mpr hb) (by linarith)
  have h2 := pm_neg (p := -p) ha hb
  rw [neg_neg] at h2
  rw [h2]
  have hpos : 0 < pm (-p) a⁻¹ b⁻¹ := by
    unfold pm
    have := Real.rpow_pos_of_pos (inv_pos.mpr ha) (-p)
    have := Real.rpow_pos_of_pos (inv_pos.mpr hb) (-p)
    positivity
  have hG : 0 < Real.sqrt (a*b) := Real.sqrt_pos.mpr (by positivity)
  rw [le_inv_comm₀ (by positivity) hpos]
  refine h.trans (le_of_eq ?_)
  rw [← mul_inv, Real.sqrt_inv, mul_inv, ← Real.exp_neg, Real.log_inv, Real.log_inv]
  congr 2; ring

end Trento
