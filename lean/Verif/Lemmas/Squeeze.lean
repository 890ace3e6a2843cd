import Mathlib.Analysis.SpecialFunctions.Log.Deriv
import Mathlib.Analysis.SpecialFunctions.Pow.Real
import Mathlib.Analysis.Complex.ExponentialBounds
import Mathlib.Analysis.Convex.SpecificFunctions.Basic

/-!
# The squeeze of Marsaglia and Tsang

`std::gamma_distribution` accepts a candidate without computing logarithms if `u ≤ 1 - 0.0331 n^4`.  That is correct for every shape
parameter: the exact acceptance probability is never smaller.
-/

namespace Trento
open Set

theorem exp_sixteenth : (1.064494458:ℝ) ≤ Real.exp (1 / 16) := by
  have h := Real.exp_one_gt_d9
  have e : Real.exp (1 / 16) ^ 16 = Real.exp 1 := by rw [← Real.exp_nat_mul]; norm_num
  by_contra hc
  push Not at hc
  have := pow_le_pow_left₀ (Real.exp_pos _).le hc.le 16
  rw [e] at this
  norm_num at this
  linarith

theorem exp_sixteenths (k : ℕ) : (1.064494458:ℝ) ^ k ≤ Real.exp (k / 16) := by
  have := pow_le_pow_left₀ (by norm_num) exp_sixteenth k
  rwa [← Real.exp_nat_mul, mul_one_div] at this

theorem squeeze_piece0 {s : ℝ} (h0 : (13/25:ℝ) ≤ s) (h1 : s ≤ 129/200) :
    0 ≤ (1 - s) ^ 2 * (477073/100000) * (1 + (2 * s + s ^ 2 + 2 / 3 * s ^ 3 - 25/16)) - 1 + 1.1916 * s ^ 4 := by
  have a0 : 0 ≤ s - 13/25 := by linarith
  have a1 : 0 ≤ 129/200 - s := by linarith
  have e : (1 - s) ^ 2 * (477073/100000) * (1 + (2 * s + s ^ 2 + 2 / 3 * s ^ 3 - 25/16)) - 1 + 1.1916 * s ^ 4 =
      (12234400922624/30517578125) * ((s - 13/25) ^ 0 * (129/200 - s) ^ 5) + (31021962841024/6103515625) * ((s - 13/25) ^ 1 * (129/200 - s) ^ 4) + (221898648462169/18310546875) * ((s - 13/25) ^ 2 * (129/200 - s) ^ 3) + (64513542198773/6103515625) * ((s - 13/25) ^ 3 * (129/200 - s) ^ 2) + (77464776366771/24414062500) * ((s - 13/25) ^ 4 * (129/200 - s) ^ 1) + (21055803243359/488281250000) * ((s - 13/25) ^ 5 * (129/200 - s) ^ 0) := by ring
  rw [e]
  positivity

theorem squeeze_piece1 {s : ℝ} (h0 : (129/200:ℝ) ≤ s) (h1 : s ≤ 77/100) :
    0 ≤ (1 - s) ^ 2 * (837289/100000) * (1 + (2 * s + s ^ 2 + 2 / 3 * s ^ 3 - 17/8)) - 1 + 1.1916 * s ^ 4 := by
  have a0 : 0 ≤ s - 129/200 := by linarith
  have a1 : 0 ≤ 77/100 - s := by linarith
  have e : (1 - s) ^ 2 * (837289/100000) * (1 + (2 * s + s ^ 2 + 2 / 3 * s ^ 3 - 17/8)) - 1 + 1.1916 * s ^ 4 =
      (129543150168887/488281250000) * ((s - 129/200) ^ 0 * (77/100 - s) ^ 5) + (286980958807481/48828125000) * ((s - 129/200) ^ 1 * (77/100 - s) ^ 4) + (174900994910103/12207031250) * ((s - 129/200) ^ 2 * (77/100 - s) ^ 3) + (218845274156417/18310546875) * ((s - 129/200) ^ 3 * (77/100 - s) ^ 2) + (59220856784621/18310546875) * ((s - 129/200) ^ 4 * (77/100 - s) ^ 1) + (346458508846/91552734375) * ((s - 129/200) ^ 5 * (77/100 - s) ^ 0) := by ring
  rw [e]
  positivity

theorem squeeze_piece2 {s : ℝ} (h0 : (77/100:ℝ) ≤ s) (h1 : s ≤ 17/20) :
    0 ≤ (1 - s) ^ 2 * (1469489/100000) * (1 + (2 * s + s ^ 2 + 2 / 3 * s ^ 3 - 43/16)) - 1 + 1.1916 * s ^ 4 := by
  have a0 : 0 ≤ s - 77/100 := by linarith
  have a1 : 0 ≤ 17/20 - s := by linarith
  have e : (1 - s) ^ 2 * (1469489/100000) * (1 + (2 * s + s ^ 2 + 2 / 3 * s ^ 3 - 43/16)) - 1 + 1.1916 * s ^ 4 =
      (2569804956073/4915200000) * ((s - 77/100) ^ 0 * (17/20 - s) ^ 5) + (284370332499/13107200) * ((s - 77/100) ^ 1 * (17/20 - s) ^ 4) + (346141398219/6553600) * ((s - 77/100) ^ 2 * (17/20 - s) ^ 3) + (166437820789/3932160) * ((s - 77/100) ^ 3 * (17/20 - s) ^ 2) + (5661063027/524288) * ((s - 77/100) ^ 4 * (17/20 - s) ^ 1) + (65100911/524288) * ((s - 77/100) ^ 5 * (17/20 - s) ^ 0) := by ring
  rw [e]
  positivity

theorem squeeze_piece3 {s : ℝ} (h0 : (17/20:ℝ) ≤ s) (h1 : s ≤ 883/1000) :
    0 ≤ (1 - s) ^ 2 * (1886861/100000) * (1 + (2 * s + s ^ 2 + 2 / 3 * s ^ 3 - 47/16)) - 1 + 1.1916 * s ^ 4 := by
  have a0 : 0 ≤ s - 17/20 := by linarith
  have a1 : 0 ≤ 883/1000 - s := by linarith
  have e : (1 - s) ^ 2 * (1886861/100000) * (1 + (2 * s + s ^ 2 + 2 / 3 * s ^ 3 - 47/16)) - 1 + 1.1916 * s ^ 4 =
      (1741630868750/39135393) * ((s - 17/20) ^ 0 * (883/1000 - s) ^ 5) + (10309416210625/39135393) * ((s - 17/20) ^ 1 * (883/1000 - s) ^ 4) + (17357655225050/39135393) * ((s - 17/20) ^ 2 * (883/1000 - s) ^ 3) + (21456054163219/78270786) * ((s - 17/20) ^ 3 * (883/1000 - s) ^ 2) + (15759630659057/313083144) * ((s - 17/20) ^ 4 * (883/1000 - s) ^ 1) + (1614446046305041/1956769650000) * ((s - 17/20) ^ 5 * (883/1000 - s) ^ 0) := by ring
  rw [e]
  positivity

theorem squeeze_piece4 {s : ℝ} (h0 : (883/1000:ℝ) ≤ s) (h1 : s ≤ 24/25) :
    0 ≤ (1 - s) ^ 2 * (2008553/100000) * (1 + (2 * s + s ^ 2 + 2 / 3 * s ^ 3 - 3)) - 1 + 1.1916 * s ^ 4 := by
  have a0 : 0 ≤ s - 883/1000 := by linarith
  have a1 : 0 ≤ 24/25 - s := by linarith
  have e : (1 - s) ^ 2 * (2008553/100000) * (1 + (2 * s + s ^ 2 + 2 / 3 * s ^ 3 - 3)) - 1 + 1.1916 * s ^ 4 =
      (31257929034751693/135339207850000) * ((s - 883/1000) ^ 0 * (24/25 - s) ^ 5) + (2478216167142953/1353392078500) * ((s - 883/1000) ^ 1 * (24/25 - s) ^ 4) + (1678347444692428/203008811775) * ((s - 883/1000) ^ 2 * (24/25 - s) ^ 3) + (442745581782384/13533920785) * ((s - 883/1000) ^ 3 * (24/25 - s) ^ 2) + (128548995792128/2706784157) * ((s - 883/1000) ^ 4 * (24/25 - s) ^ 1) + (58082816407552/2706784157) * ((s - 883/1000) ^ 5 * (24/25 - s) ^ 0) := by ring
  rw [e]
  positivity

/-- the exponent -/
theorem squeeze_tangent {s E x : ℝ} (k : ℕ) (hx : x = k / 16) (hE0 : 0 ≤ E) (hE : E ≤ (1.064494458:ℝ) ^ k)
    (h : 0 ≤ (1 - s) ^ 2 * E * (1 + (2 * s + s ^ 2 + 2 / 3 * s ^ 3 - x)) - 1 + 1.1916 * s ^ 4) :
    1 - 1.1916 * s ^ 4 ≤ (1 - s) ^ 2 * Real.exp (2 * s + s ^ 2 + 2 / 3 * s ^ 3) := by
  set p := 2 * s + s ^ 2 + 2 / 3 * s ^ 3
  have h1 : Real.exp p = Real.exp x * Real.exp (p - x) := by rw [← Real.exp_add]; congr 1; ring
  have h2 : 1 + (p - x) ≤ Real.exp (p - x) := by linarith [Real.add_one_le_exp (p - x)]
  have h3 : E ≤ Real.exp x := by rw [hx]; exact hE.trans (exp_sixteenths k)
  have h4 : E * (1 + (p - x)) ≤ Real.exp p := by
    rw [h1]
    calc E * (1 + (p - x)) ≤ E * Real.exp (p - x) := mul_le_mul_of_nonneg_left h2 hE0
      _ ≤ _ := mul_le_mul_of_nonneg_right h3 (Real.exp_pos _).le
  have h5 := mul_le_mul_of_nonneg_left h4 (sq_nonneg (1 - s))
  nlinarith [h5]

theorem squeeze_small {s : ℝ} (h0 : 0 ≤ s) (h1 : s ≤ 13 / 25) :
    1 - 1.1916 * s ^ 4 ≤ (1 - s) ^ 2 * Real.exp (2 * s + s ^ 2 + 2 / 3 * s ^ 3) := by
  have hl := Real.abs_log_sub_add_sum_range_le (x := s) (by rw [abs_of_nonneg h0]; linarith) 7
  rw [abs_of_nonneg h0] at hl
  simp only [Finset.sum_range_succ, Finset.sum_range_zero] at hl
  norm_num at hl
  have hl := (abs_le.1 hl).1
  have hs1 : 0 < 1 - s := by linarith
  have e : (1 - s) ^ 2 * Real.exp (2 * s + s ^ 2 + 2 / 3 * s ^ 3) = Real.exp (2 * Real.log (1 - s) + (2 * s + s ^ 2 + 2 / 3 * s ^ 3)) := by
    rw [Real.exp_add (2 * Real.log (1 - s)), two_mul (Real.log _), Real.exp_add (Real.log (1 - s)), Real.exp_log hs1, sq]
  rw [e]
  refine le_trans ?_ (Real.add_one_le_exp _)
  have h8 : s ^ 8 / (1 - s) ≤ s ^ 4 * (0.1524) := by
    rw [div_le_iff₀ hs1]
    have hs4 : s ^ 4 ≤ (13 / 25) ^ 4 := pow_le_pow_left₀ h0 h1 4
    have : s ^ 4 * s ^ 4 ≤ s ^ 4 * (0.1524 * (1 - s)) := mul_le_mul_of_nonneg_left (by norm_num at hs4 ⊢; linarith) (by positivity)
    nlinarith
  have hr : s / 5 + s ^ 2 / 6 + s ^ 3 / 7 ≤ 0.1935 := by
    have : s ^ 2 ≤ (13/25) ^ 2 := pow_le_pow_left₀ h0 h1 2
    have : s ^ 3 ≤ (13/25) ^ 3 := pow_le_pow_left₀ h0 h1 3
    norm_num at *
    linarith
  have hr4 := mul_le_mul_of_nonneg_left hr (by positivity : 0 ≤ s ^ 4)
  nlinarith [hl, h8, hr4]

/-- below 1 -/
theorem squeeze_neg {s : ℝ} (h0 : 0 ≤ s) (h1 : s < 1) :
    1 - 1.1916 * s ^ 4 ≤ (1 - s) ^ 2 * Real.exp (2 * s + s ^ 2 + 2 / 3 * s ^ 3) := by
  rcases le_or_gt s (13 / 25) with h | h
  · exact squeeze_small h0 h
  rcases le_or_gt s (129/200) with h' | h'
  · exact squeeze_tangent (E := 477073/100000) (x := 25/16) 25 (by norm_num) (by norm_num) (by norm_num) (squeeze_piece0 h.le h')
  replace h := h'
  rcases le_or_gt s (77/100) with h' | h'
  · exact squeeze_tangent (E := 837289/100000) (x := 17/8) 34 (by norm_num) (by norm_num) (by norm_num) (squeeze_piece1 h.le h')
  replace h := h'
  rcases le_or_gt s (17/20) with h' | h'
  · exact squeeze_tangent (E := 1469489/100000) (x := 43/16) 43 (by norm_num) (by norm_num) (by norm_num) (squeeze_piece2 h.le h')
  replace h := h'
  rcases le_or_gt s (883/1000) with h' | h'
  · exact squeeze_tangent (E := 1886861/100000) (x := 47/16) 47 (by norm_num) (by norm_num) (by norm_num) (squeeze_piece3 h.le h')
  replace h := h'
  rcases le_or_gt s (24/25) with h' | h'
  · exact squeeze_tangent (E := 2008553/100000) (x := 3) 48 (by norm_num) (by norm_num) (by norm_num) (squeeze_piece4 h.le h')
  replace h := h'
  · have : (24 / 25 : ℝ) ^ 4 ≤ s ^ 4 := pow_le_pow_left₀ (by norm_num) h.le 4
    norm_num at this
    have : 0 ≤ (1 - s) ^ 2 * Real.exp (2 * s + s ^ 2 + 2 / 3 * s ^ 3) := by positivity
    norm_num
    linarith

/-! ### The exponent of the acceptance probability -/

/-- the logarithm of the acceptance probability, divided by three times the shape -/
noncomputable def mtPhi (t : ℝ) : ℝ := Real.log (1 + t) - t + t ^ 2 / 2 - t ^ 3 / 3

theorem mtPhi_deriv {t : ℝ} (ht : -1 < t) : HasDerivAt mtPhi (-t ^ 3 / (1 + t)) t := by
  have h0 : 1 + t ≠ 0 := by linarith
  have h1 : HasDerivAt (fun t : ℝ => 1 + t) 1 t := by simpa using (hasDerivAt_id t).const_add 1
  have := ((((h1.log h0).sub (hasDerivAt_id t)).add ((hasDerivAt_pow 2 t).div_const 2)).sub ((hasDerivAt_pow 3 t).div_const 3))
  refine this.congr_deriv ?_
  norm_num
  field_simp
  ring

theorem mtPhi_zero : mtPhi 0 = 0 := by simp [mtPhi]

theorem mtPhi_nonpos {t : ℝ} (ht : -1 < t) : mtPhi t ≤ 0 := by
  rcases le_total 0 t with h | h
  · have hd : AntitoneOn mtPhi (Ici 0) := by
      apply antitoneOn_of_deriv_nonpos (convex_Ici 0)
      · exact fun x hx => (mtPhi_deriv (by have : (0:ℝ) ≤ x := hx; linarith)).continuousAt.continuousWithinAt
      · rw [interior_Ici]
        exact fun x hx => (mtPhi_deriv (by have : (0:ℝ) < x := hx; linarith)).differentiableAt.differentiableWithinAt
      · rw [interior_Ici]
        intro x hx
        have hx : (0:ℝ) < x := hx
        rw [(mtPhi_deriv (by linarith)).deriv]
        rw [neg_div]
        exact neg_nonpos.2 (by positivity)
    rw [← mtPhi_zero]
    exact hd self_mem_Ici h h
  · have hd : MonotoneOn mtPhi (Icc t 0) := by
      apply monotoneOn_of_deriv_nonneg (convex_Icc t 0)
      · exact fun x hx => (mtPhi_deriv (by linarith [hx.1])).continuousAt.continuousWithinAt
      · rw [interior_Icc]
        exact fun x hx => (mtPhi_deriv (by linarith [hx.1])).differentiableAt.differentiableWithinAt
      · rw [interior_Icc]
        intro x hx
        rw [(mtPhi_deriv (by linarith [hx.1])).deriv]
        have h3 : -x ^ 3 = (-x) ^ 3 := by ring
        rw [h3]
        exact div_nonneg (pow_nonneg (by linarith [hx.2]) 3) (by linarith [hx.1])
    rw [← mtPhi_zero]
    exact hd ⟨le_rfl, h⟩ ⟨h, le_rfl⟩ h

theorem mtPhi_lower {t : ℝ} (ht : 0 ≤ t) : -(t ^ 4 / 4) ≤ mtPhi t := by
  have hder : ∀ x : ℝ, -1 < x → HasDerivAt (fun x => mtPhi x + x ^ 4 / 4) (x ^ 4 / (1 + x)) x := by
    intro x hx
    have := (mtPhi_deriv hx).add ((hasDerivAt_pow 4 x).div_const 4)
    refine this.congr_deriv ?_
    have : 1 + x ≠ 0 := by linarith
    norm_num
    field_simp
    ring
  have hd : MonotoneOn (fun x => mtPhi x + x ^ 4 / 4) (Ici 0) := by
    apply monotoneOn_of_deriv_nonneg (convex_Ici 0)
    · exact fun x hx => (hder x (by have : (0:ℝ) ≤ x := hx; linarith)).continuousAt.continuousWithinAt
    · rw [interior_Ici]
      exact fun x hx => (hder x (by have : (0:ℝ) < x := hx; linarith)).differentiableAt.differentiableWithinAt
    · rw [interior_Ici]
      intro x hx
      have hx : (0:ℝ) < x := hx
      rw [(hder x (by linarith)).deriv]
      positivity
  have := hd self_mem_Ici ht ht
  dsimp only at this
  rw [mtPhi_zero] at this
  linarith

theorem exp_two_mtPhi {t : ℝ} (ht : -1 < t) : 1 - 1.1916 * t ^ 4 ≤ Real.exp (2 * mtPhi t) := by
  rcases le_total 0 t with h | h
  · refine le_trans ?_ (Real.add_one_le_exp _)
    have := mtPhi_lower h
    have : 0 ≤ t ^ 4 := by positivity
    norm_num
    linarith
  · have := squeeze_neg (s := -t) (by linarith) (by linarith)
    have e : Real.exp (2 * mtPhi t) = (1 - -t) ^ 2 * Real.exp (2 * -t + (-t) ^ 2 + 2 / 3 * (-t) ^ 3) := by
      have h1 : 2 * mtPhi t = (Real.log (1 + t) + Real.log (1 + t)) + (2 * -t + (-t) ^ 2 + 2 / 3 * (-t) ^ 3) := by unfold mtPhi; ring
      rw [h1, Real.exp_add, Real.exp_add, Real.exp_log (by linarith)]
      ring
    rw [e]
    have h4 : (-t) ^ 4 = t ^ 4 := by ring
    rwa [h4] at this

/-- **The squeeze is correct**: `1 - 0.0331 n^4` never exceeds the acceptance probability `exp (3 d φ(n / √(9 d)))`, for every `d ≥ 2/3`. -/
theorem squeeze {d n : ℝ} (hd : 2 / 3 ≤ d) (hv : 0 < 1 + 1 / Real.sqrt (9 * d) * n) :
    1 - 0.0331 * n * n * n * n ≤ Real.exp (3 * d * mtPhi (1 / Real.sqrt (9 * d) * n)) := by
  set t := 1 / Real.sqrt (9 * d) * n with ht
  have hd0 : 0 < d := by linarith
  have hs : 0 < Real.sqrt (9 * d) := Real.sqrt_pos.2 (by linarith)
  have hn : n = Real.sqrt (9 * d) * t := by rw [ht]; field_simp
  have hn4 : n * n * n * n = 81 * d ^ 2 * t ^ 4 := by
    have h2 : Real.sqrt (9 * d) * Real.sqrt (9 * d) = 9 * d := Real.mul_self_sqrt (by linarith)
    rw [hn]
    calc _ = (Real.sqrt (9 * d) * Real.sqrt (9 * d)) * (Real.sqrt (9 * d) * Real.sqrt (9 * d)) * t ^ 4 := by ring
      _ = _ := by rw [h2]; ring
  have e : 1 - 0.0331 * n * n * n * n = 1 - 2.6811 * d ^ 2 * t ^ 4 := by
    have : 0.0331 * n * n * n * n = 0.0331 * (n * n * n * n) := by ring
    rw [this, hn4]; ring
  rw [e]
  have h := exp_two_mtPhi (t := t) (by linarith)
  have ht4 : 0 ≤ t ^ 4 := by positivity
  have hdd : 2 / 3 * d ≤ d ^ 2 := by nlinarith
  rcases le_or_gt (1.1916 * t ^ 4) 1 with h1 | h1
  · have hr : Real.exp (3 * d * mtPhi t) = Real.exp (2 * mtPhi t) ^ (3 / 2 * d) := by
      rw [← Real.exp_mul]; congr 1; ring
    rw [hr]
    have h2 : (1 - 1.1916 * t ^ 4) ^ (3 / 2 * d) ≤ Real.exp (2 * mtPhi t) ^ (3 / 2 * d) :=
      Real.rpow_le_rpow (by linarith) h (by linarith)
    refine le_trans ?_ h2
    have h3 := one_add_mul_self_le_rpow_one_add (s := -(1.1916 * t ^ 4)) (by linarith) (p := 3 / 2 * d) (by linarith)
    rw [← sub_eq_add_neg] at h3
    refine le_trans ?_ h3
    have := mul_le_mul_of_nonneg_right hdd ht4
    nlinarith [this]
  · have h2 : (0:ℝ) < Real.exp (3 * d * mtPhi t) := Real.exp_pos _
    have h3 : 4 / 9 ≤ d ^ 2 := by nlinarith
    have := mul_le_mul_of_nonneg_right h3 ht4
    norm_num at *
    nlinarith [this]

end Trento
