import Mathlib.Analysis.SpecialFunctions.ExpDeriv
import Mathlib.Analysis.Calculus.Deriv.MeanValue
import Mathlib.Analysis.Calculus.Deriv.Pow
import Mathlib.Tactic.Ring
import Mathlib.Tactic.Linarith

/-! Error of the first-order expansion of the exponential. -/

namespace Trento

/-- `(1 - s) e^s ≥ 1 - s²/2` for `s ≤ 0`. -/
theorem one_sub_mul_exp_ge {s : ℝ} (hs : s ≤ 0) : 1 - s^2/2 ≤ (1 - s) * Real.exp s := by
  have hd : ∀ t : ℝ, HasDerivAt (fun t : ℝ => (1 - t) * Real.exp t - 1 + t^2/2) (t * (1 - Real.exp t)) t := by
    intro t
    have h1 : HasDerivAt (fun t : ℝ => 1 - t) (-1) t := by
      simpa using (hasDerivAt_id t).const_sub 1
    have h2 := (h1.mul (Real.hasDerivAt_exp t)).sub_const 1
    have h3 : HasDerivAt (fun t : ℝ => t^2/2) t t := by
      have := (hasDerivAt_pow 2 t).div_const 2
      exact this.congr_deriv (by norm_num)
    have := h2.add h3
    exact this.congr_deriv (by ring)
  have hanti : AntitoneOn (fun t : ℝ => (1 - t) * Real.exp t - 1 + t^2/2) (Set.Iic 0) := by
    apply antitoneOn_of_deriv_nonpos (convex_Iic 0)
    · exact fun t _ => (hd t).continuousAt.continuousWithinAt
    · exact fun t _ => (hd t).differentiableAt.differentiableWithinAt
    · intro t ht
      rw [interior_Iic] at ht
      rw [(hd t).deriv]
      have : Real.exp t ≤ 1 := Real.exp_le_one_iff.mpr ht.le
      exact mul_nonpos_of_nonpos_of_nonneg ht.le (by linarith)
  have := hanti (Set.mem_Iic.mpr hs) (Set.mem_Iic.mpr le_rfl) hs
  simp only [sub_zero, Real.exp_zero, mul_one, sub_self, ne_eq, OfNat.ofNat_ne_zero, not_false_eq_true,
    zero_pow, zero_div, add_zero] at this
  linarith

/-- `e^s ≤ 1 + s + s²/2` for `s ≤ 0`. -/
theorem exp_le_quadratic {s : ℝ} (hs : s ≤ 0) : Real.exp s ≤ 1 + s + s^2/2 := by
  have hd : ∀ t : ℝ, HasDerivAt (fun t : ℝ => 1 + t + t^2/2 - Real.exp t) (1 + t - Real.exp t) t := by
    intro t
    have h1 : HasDerivAt (fun t : ℝ => 1 + t) 1 t := by
      simpa using (hasDerivAt_id t).const_add 1
    have h3 : HasDerivAt (fun t : ℝ => t^2/2) t t := by
      have := (hasDerivAt_pow 2 t).div_const 2
      exact this.congr_deriv (by norm_num)
    exact (h1.add h3).sub (Real.hasDerivAt_exp t)
  have hanti : AntitoneOn (fun t : ℝ => 1 + t + t^2/2 - Real.exp t) (Set.Iic 0) := by
    apply antitoneOn_of_deriv_nonpos (convex_Iic 0)
    · exact fun t _ => (hd t).continuousAt.continuousWithinAt
    · exact fun t _ => (hd t).differentiableAt.differentiableWithinAt
    · intro t ht
      rw [(hd t).deriv]
      have := Real.add_one_le_exp t
      linarith
  have := hanti (Set.mem_Iic.mpr hs) (Set.mem_Iic.mpr le_rfl) hs
  simp only [add_zero, ne_eq, OfNat.ofNat_ne_zero, not_false_eq_true,
    zero_pow, zero_div, Real.exp_zero, sub_self] at this
  linarith

/-- For `|d| ≤ h/2` the linear approximation `e^{x-d} (1+d)` of `e^x` is below it by a relative error of at most
`h²/8 e^{h/2}`. -/
theorem linear_exp_error {x d h : ℝ} (hd : |d| ≤ h/2) :
    Real.exp (x - d) * (1 + d) ≤ Real.exp x ∧
    Real.exp x - Real.exp (x - d) * (1 + d) ≤ Real.exp x * (h^2/8 * Real.exp (h/2)) := by
  have hx : Real.exp x = Real.exp (x - d) * Real.exp d := by rw [← Real.exp_add]; congr 1; ring
  constructor
  · rw [hx]
    apply mul_le_mul_of_nonneg_left _ (Real.exp_pos _).le
    have := Real.add_one_le_exp d; linarith
  · have hsq : d^2 ≤ h^2/4 := by
      have h0 : 0 ≤ |d| := abs_nonneg d
      have : |d|^2 ≤ (h/2)^2 := by gcongr
      rw [sq_abs] at this; linarith [this, (by ring : (h/2)^2 = h^2/4)]
    have hpos := Real.exp_pos x
    have hxd : Real.exp (x - d) = Real.exp x * Real.exp (-d) := by rw [← Real.exp_add]; congr 1
    have h1 : 0 ≤ h := by have := abs_nonneg d; linarith
    have he : 1 ≤ Real.exp (h/2) := Real.one_le_exp (by linarith)
    suffices 1 - Real.exp (-d) * (1 + d) ≤ h^2/8 * Real.exp (h/2) by
      have := mul_le_mul_of_nonneg_left this hpos.le
      rw [hxd]; linarith [this, (by ring : Real.exp x * (1 - Real.exp (-d) * (1 + d)) = Real.exp x - Real.exp x * Real.exp (-d) * (1 + d))]
    have hge : h^2/8 ≤ h^2/8 * Real.exp (h/2) := le_mul_of_one_le_right (by positivity) he
    rcases le_or_gt 0 d with h0 | h0
    · have := one_sub_mul_exp_ge (s := -d) (by linarith)
      have e1 : (1 - -d) * Real.exp (-d) = Real.exp (-d) * (1 + d) := by ring
      rw [e1] at this
      have : 1 - Real.exp (-d) * (1 + d) ≤ d^2/2 := by
        have : (-d)^2 = d^2 := by ring
        linarith
      linarith
    · have h2 := exp_le_quadratic (s := d) h0.le
      have h3 : Real.exp (-d) * Real.exp d = 1 := by rw [← Real.exp_add]; simp
      have h4 : 0 < Real.exp (-d) := Real.exp_pos _
      have h5 : 1 - Real.exp (-d) * (1 + d) = Real.exp (-d) * (Real.exp d - (1 + d)) := by
        rw [mul_sub, h3]
      rw [h5]
      have h6 : Real.exp (-d) ≤ Real.exp (h/2) := by
        apply Real.exp_le_exp.mpr
        have := neg_abs_le d; linarith
      calc Real.exp (-d) * (Real.exp d - (1 + d)) ≤ Real.exp (-d) * (h^2/8) := by
              apply mul_le_mul_of_nonneg_left _ h4.le; linarith
        _ ≤ Real.exp (h/2) * (h^2/8) := by
              apply mul_le_mul_of_nonneg_right h6 (by positivity)
        _ = _ := by ring

end Trento
