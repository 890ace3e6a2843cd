import Verif.Lemmas.RoundedSum
import Verif.Spec.Event
import Mathlib.Analysis.Complex.ExponentialBounds

/-! Error analysis of the generalized mean in rounded arithmetic. -/

namespace Trento
open Spec
variable {M : Machine}

theorem Machine.pow_near (x y : ℝ) (h : 0 < x) : |M.pow x y - x ^ y| ≤ 4.8e-16 * x ^ y + 2e-250 := by
  have h1 := M.pow_err x y h
  have h2 := mul_le_mul_of_nonneg_right (show 4 * uRound ≤ 4.8e-16 by linarith [Machine.uRound_le]) (Real.rpow_pos_of_pos h y).le
  linarith [Machine.etaRound_tiny]

/-! ## Exponents -/

theorem exp_thirty : (1e13:ℝ) ≤ Real.exp 30 := by
  have h := Real.exp_one_gt_d9
  have e : Real.exp 30 = (Real.exp 1) ^ 30 := by rw [← Real.exp_nat_mul]; norm_num
  rw [e]
  calc (1e13:ℝ) ≤ 2.718 ^ 30 := by norm_num
    _ ≤ (Real.exp 1) ^ 30 := pow_le_pow_left₀ (by norm_num) (by linarith) 30

theorem exp_neg_300 : (1e-145:ℝ) ≤ Real.exp (-300) := by
  have h := Real.exp_one_lt_d9
  have e : Real.exp (-300) = ((Real.exp 1) ^ 300)⁻¹ := by rw [← Real.exp_nat_mul, Real.exp_neg]; norm_num
  rw [e]
  have hp := Real.exp_pos 1
  have : (Real.exp 1) ^ 300 ≤ (1e145:ℝ) := by
    calc (Real.exp 1) ^ 300 ≤ 3 ^ 300 := pow_le_pow_left₀ hp.le (by linarith) 300
      _ = (3 ^ 100) ^ 3 := by rw [← pow_mul]
      _ ≤ 1e145 := by norm_num
  calc (1e-145:ℝ) = (1e145)⁻¹ := by norm_num
    _ ≤ _ := inv_anti₀ (by positivity) this

theorem log_bound {x : ℝ} (h1 : 9e-13 ≤ x) (h2 : x ≤ 1e12) : |Real.log x| ≤ 30 := by
  have hx : 0 < x := by linarith
  rw [abs_le]
  constructor
  · rw [Real.le_log_iff_exp_le hx, Real.exp_neg]
    calc (Real.exp 30)⁻¹ ≤ (1e13:ℝ)⁻¹ := inv_anti₀ (by norm_num) exp_thirty
      _ ≤ x := by norm_num at h1 ⊢; linarith
  · rw [Real.log_le_iff_le_exp hx]
    linarith [exp_thirty]

theorem rpow_lower {x p : ℝ} (h1 : 9e-13 ≤ x) (h2 : x ≤ 1e12) (hp : |p| ≤ 10) : 1e-145 ≤ x ^ p := by
  have hx : 0 < x := by linarith
  rw [Real.rpow_def_of_pos hx]
  refine exp_neg_300.trans (Real.exp_le_exp.2 ?_)
  have : |Real.log x * p| ≤ 300 := by
    rw [abs_mul]
    calc |Real.log x| * |p| ≤ 30 * 10 := mul_le_mul (log_bound h1 h2) hp (abs_nonneg _) (by norm_num)
      _ = 300 := by norm_num
  linarith [(abs_le.1 this).1]

theorem abs_log_one_add {θ : ℝ} (h : |θ| ≤ 1e-15) : |Real.log (1 + θ)| ≤ 1.1e-15 := by
  have h' := abs_le.1 h
  have hp : 0 < 1 + θ := by linarith
  rw [abs_le]
  constructor
  · have := Real.one_sub_inv_le_log_of_pos hp
    have h2 : (1 + θ)⁻¹ ≤ 1 + 1.1e-15 := by
      rw [inv_le_comm₀ hp (by norm_num)]
      calc (1 + 1.1e-15 : ℝ)⁻¹ ≤ 1 - 1e-15 := by norm_num
        _ ≤ 1 + θ := by linarith
    linarith
  · have := Real.log_le_sub_one_of_pos hp
    linarith

/-- Perturbing base and exponent of `S ^ (1/p)`. -/
theorem pow_perturb {S s e p : ℝ} (hS : 0 < S) (hp : 9e-13 ≤ |p|) (hs : |s - S| ≤ 1e-15 * S) (he : |e - 1 / p| ≤ 1.3e-16 * (1 / |p|))
    (hM : |Real.log S| / |p| ≤ 30 + 1 / |p|) : |s ^ e - S ^ (1 / p)| ≤ 8.2e-15 * (1 + 1 / |p|) * S ^ (1 / p) ∧ 0 < s := by
  have hp0 : 0 < |p| := by linarith
  have hpn : p ≠ 0 := abs_pos.1 hp0
  have hs' := abs_le.1 hs
  have hs0 : 0 < s := by nlinarith
  refine ⟨?_, hs0⟩
  obtain ⟨θ, hθ⟩ : ∃ θ, s = S * (1 + θ) := ⟨s / S - 1, by field_simp; ring⟩
  have hθ1 : |θ| ≤ 1e-15 := by
    have : s - S = θ * S := by rw [hθ]; ring
    rw [this, abs_mul, abs_of_pos hS] at hs
    exact le_of_mul_le_mul_right hs hS
  have hpos : 0 < 1 + θ := by linarith [(abs_le.1 hθ1).1]
  have hlog : Real.log s = Real.log S + Real.log (1 + θ) := by rw [hθ, Real.log_mul hS.ne' hpos.ne']
  have hl := abs_log_one_add hθ1
  have hr : 0 < 1 / |p| := by positivity
  have hr2 : 1 / |p| ≤ 1.2e12 := by
    rw [div_le_iff₀ hp0]; norm_num at hp ⊢; linarith
  have hinv : |1 / p| = 1 / |p| := by rw [abs_div, abs_one]
  have hx : |Real.log s * e - Real.log S * (1/p)| ≤ 4.1e-15 * (1 + 1 / |p|) := by
    have e1 : Real.log s * e - Real.log S * (1/p) = Real.log S * (e - 1/p) + Real.log (1+θ) * e := by rw [hlog]; ring
    have k1 : |Real.log S * (e - 1/p)| ≤ 1.3e-16 * (30 + 1 / |p|) := by
      rw [abs_mul]
      calc |Real.log S| * |e - 1/p| ≤ |Real.log S| * (1.3e-16 * (1 / |p|)) := mul_le_mul_of_nonneg_left he (abs_nonneg _)
        _ = 1.3e-16 * (|Real.log S| / |p|) := by ring
        _ ≤ _ := mul_le_mul_of_nonneg_left hM (by norm_num)
    have ke : |e| ≤ 1.01 * (1 / |p|) := by
      have := abs_add_le (e - 1/p) (1/p)
      rw [sub_add_cancel, hinv] at this
      linarith
    have k2 : |Real.log (1+θ) * e| ≤ 1.1e-15 * (1.01 * (1 / |p|)) := by
      rw [abs_mul]; exact mul_le_mul hl ke (abs_nonneg _) (by norm_num)
    rw [e1]
    have := abs_add_le (Real.log S * (e - 1/p)) (Real.log (1+θ) * e)
    linarith
  rw [Real.rpow_def_of_pos hs0, Real.rpow_def_of_pos hS]
  generalize hX : Real.log s * e - Real.log S * (1/p) = X at *
  have e2 : Real.log s * e = Real.log S * (1/p) + X := by linarith
  rw [e2, Real.exp_add]
  have hX1 : |X| ≤ 1 := by linarith
  have h3 := Real.abs_exp_sub_one_le hX1
  have hE := Real.exp_pos (Real.log S * (1/p))
  have e3 : Real.exp (Real.log S * (1/p)) * Real.exp X - Real.exp (Real.log S * (1/p)) = (Real.exp X - 1) * Real.exp (Real.log S * (1/p)) := by ring
  rw [e3, abs_mul, abs_of_pos hE]
  exact mul_le_mul_of_nonneg_right (by linarith) hE.le

/-! ## The inner sum -/

theorem pow_term (a p : ℝ) (ha : 0 ≤ a) (hp : 0 < p ∨ 0 < a) : |M.pow a p - a ^ p| ≤ 4.8e-16 * a ^ p + 2e-250 := by
  rcases eq_or_lt_of_le ha with h | h
  · subst h
    have hp : 0 < p := by
      rcases hp with h | h
      · exact h
      · exact absurd h (lt_irrefl _)
    rw [M.pow_zero p hp, Real.zero_rpow hp.ne']
    norm_num
  · exact M.pow_near a p h

theorem inner_sum {A B pa pb t s : ℝ} (hA : 0 ≤ A) (hB : 0 ≤ B) (ha : |pa - A| ≤ 4.8e-16 * A + 2e-250) (hb : |pb - B| ≤ 4.8e-16 * B + 2e-250)
    (ht : |t - (pa + pb)| ≤ 1.2e-16 * |pa + pb| + 1e-250) (hs : |s - 1/2 * t| ≤ 1.2e-16 * |1/2 * t| + 1e-250) :
    |s - (A + B) / 2| ≤ 8e-16 * ((A + B) / 2) + 1e-249 := by
  have ha := abs_le.1 ha
  have hb := abs_le.1 hb
  have h1 : |pa + pb| ≤ (1 + 4.8e-16) * (A + B) + 4e-250 := by
    rw [abs_le]; constructor <;> linarith
  have ht : |t - (pa + pb)| ≤ 1.2e-16 * ((1 + 4.8e-16) * (A + B) + 4e-250) + 1e-250 := by linarith
  have ht := abs_le.1 ht
  have h2 : |1/2 * t| ≤ (1 + 7e-16) * (A + B) / 2 + 4e-250 := by
    rw [abs_le]; constructor <;> linarith
  have hs : |s - 1/2 * t| ≤ 1.2e-16 * ((1 + 7e-16) * (A + B) / 2 + 4e-250) + 1e-250 := by linarith
  have hs := abs_le.1 hs
  rw [abs_le]; constructor <;> linarith

theorem inner_sum_fl (p a b : Fl M) (ha : 0 ≤ a.val) (hb : 0 ≤ b.val) (hp : 0 < p.val ∨ 0 < a.val ∧ 0 < b.val) :
    |(lit 0.5 * (pow a p + pow b p) : Fl M).val - (a.val ^ p.val + b.val ^ p.val) / 2| ≤ 8e-16 * ((a.val ^ p.val + b.val ^ p.val) / 2) + 1e-249 := by
  rw [Fl.mul_val, M.lit_half, Fl.add_val, Fl.pow_val, Fl.pow_val]
  refine inner_sum (Real.rpow_nonneg ha _) (Real.rpow_nonneg hb _) (pow_term _ _ ha (hp.imp_right And.left)) (pow_term _ _ hb (hp.imp_right And.right)) (M.fl_near _) (M.fl_near _)

theorem exponent_fl (p : Fl M) (h1 : 9e-13 ≤ |p.val|) (h2 : |p.val| ≤ 10) : |(lit 1 / p : Fl M).val - 1 / p.val| ≤ 1.3e-16 * (1 / |p.val|) := by
  rw [Fl.div_val, M.lit_one]
  have h := M.fl_near (1 / p.val)
  have hp0 : 0 < |p.val| := by linarith
  rw [abs_div, abs_one] at h
  have : 1/10 ≤ 1 / |p.val| := one_div_le_one_div_of_le hp0 h2
  linarith

theorem finish_pow {mean c ε : ℝ} {m : ℝ} (hm : 0 ≤ mean) (hε : 1 ≤ ε) (hε2 : ε ≤ 2e12) (h1 : |c - mean| ≤ 8.2e-15 * ε * mean) (h2 : |m - c| ≤ 4.8e-16 * c + 2e-250) :
    |m - mean| ≤ 9e-15 * ε * mean + 2e-250 := by
  have h1 := abs_le.1 h1
  have h2 := abs_le.1 h2
  have k1 : mean ≤ ε * mean := by nlinarith
  have k2 : 8.2e-15 * ε * mean = 8.2e-15 * (ε * mean) := by ring
  have k3 : 9e-15 * ε * mean = 9e-15 * (ε * mean) := by ring
  have k4 : ε * mean ≤ 2e12 * mean := mul_le_mul_of_nonneg_right hε2 hm
  rw [k2] at h1
  rw [k3]
  rw [abs_le]; constructor <;> linarith

/-- The p-mean when the dominating argument `x` (the larger for `p > 0`, the smaller for `p < 0`) is in the ordinary range. -/
theorem pmean_fl (p a b : Fl M) (h1 : 9e-13 ≤ |p.val|) (h2 : |p.val| ≤ 10) (ha : 0 ≤ a.val) (hb : 0 ≤ b.val) (hp : 0 < p.val ∨ 0 < a.val ∧ 0 < b.val)
    (x : ℝ) (hx1 : 9e-13 ≤ x) (hx2 : x ≤ 1e12) (hS1 : x ^ p.val ≤ a.val ^ p.val + b.val ^ p.val) (hS2 : a.val ^ p.val + b.val ^ p.val ≤ 2 * x ^ p.val) :
    |(positivePmean p a b).val - ((a.val ^ p.val + b.val ^ p.val) / 2) ^ (1 / p.val)| ≤
      9e-15 * (1 + 1 / |p.val|) * ((a.val ^ p.val + b.val ^ p.val) / 2) ^ (1 / p.val) + 2e-250 := by
  have hxp : 0 < x := by linarith
  have hlow := rpow_lower hx1 hx2 h2
  have hin := inner_sum_fl p a b ha hb hp
  have he := exponent_fl p h1 h2
  have hp0 : 0 < |p.val| := by linarith
  unfold positivePmean
  rw [Fl.pow_val]
  generalize (lit 0.5 * (pow a p + pow b p) : Fl M).val = s at *
  generalize (lit 1 / p : Fl M).val = e at *
  have hlogS : |Real.log ((a.val ^ p.val + b.val ^ p.val) / 2)| / |p.val| ≤ 30 + 1 / |p.val| := by
    have hX : 0 < x ^ p.val := by linarith
    have l1 : Real.log (x ^ p.val) - 1 ≤ Real.log ((a.val ^ p.val + b.val ^ p.val) / 2) := by
      have hl2 : Real.log (x ^ p.val / 2) = Real.log (x ^ p.val) - Real.log 2 := Real.log_div hX.ne' (by norm_num)
      have : Real.log (x ^ p.val / 2) ≤ Real.log ((a.val ^ p.val + b.val ^ p.val) / 2) := Real.log_le_log (by positivity) (by linarith)
      linarith [Real.log_two_lt_d9]
    have l2 : Real.log ((a.val ^ p.val + b.val ^ p.val) / 2) ≤ Real.log (x ^ p.val) := Real.log_le_log (by linarith) (by linarith)
    rw [Real.log_rpow hxp] at l1 l2
    have hL : |p.val * Real.log x| ≤ 30 * |p.val| := by
      rw [abs_mul, mul_comm]; exact mul_le_mul_of_nonneg_right (log_bound hx1 hx2) (abs_nonneg _)
    have hL := abs_le.1 hL
    have : |Real.log ((a.val ^ p.val + b.val ^ p.val) / 2)| ≤ 30 * |p.val| + 1 := by
      rw [abs_le]; constructor <;> linarith
    rw [div_le_iff₀ hp0, add_mul, one_div, inv_mul_cancel₀ hp0.ne']
    exact this
  have hSlow : 1e-145 / 2 ≤ (a.val ^ p.val + b.val ^ p.val) / 2 := by linarith
  generalize (a.val ^ p.val + b.val ^ p.val) / 2 = S at *
  have hS0 : 0 < S := lt_of_lt_of_le (by norm_num) hSlow
  have hs : |s - S| ≤ 1e-15 * S := by
    have : (1e-249:ℝ) ≤ 1e-16 * S := by
      calc (1e-249:ℝ) ≤ 1e-16 * (1e-145 / 2) := by norm_num
        _ ≤ _ := mul_le_mul_of_nonneg_left hSlow (by norm_num)
    linarith
  obtain ⟨k1, k2⟩ := pow_perturb hS0 h1 hs he hlogS
  have hr : 1 / |p.val| ≤ 1.2e12 := by
    rw [div_le_iff₀ hp0]; norm_num at h1 ⊢; linarith
  exact finish_pow (Real.rpow_nonneg hS0.le _) (by have : 0 < 1 / |p.val| := by positivity
                                                   linarith) (by linarith) k1 (M.pow_near s e k2)

theorem rpow_sum_pos {a b p : ℝ} (ha : 0 ≤ a) (hb : 0 ≤ b) (hp : 0 < p) : (max a b) ^ p ≤ a ^ p + b ^ p ∧ a ^ p + b ^ p ≤ 2 * (max a b) ^ p := by
  have h1 : a ^ p ≤ (max a b) ^ p := Real.rpow_le_rpow ha (le_max_left _ _) hp.le
  have h2 : b ^ p ≤ (max a b) ^ p := Real.rpow_le_rpow hb (le_max_right _ _) hp.le
  have p1 := Real.rpow_nonneg ha p
  have p2 := Real.rpow_nonneg hb p
  refine ⟨?_, by linarith⟩
  rcases max_choice a b with h | h <;> rw [h] <;> linarith

theorem rpow_sum_neg {a b p : ℝ} (ha : 0 < a) (hb : 0 < b) (hp : p < 0) : (min a b) ^ p ≤ a ^ p + b ^ p ∧ a ^ p + b ^ p ≤ 2 * (min a b) ^ p := by
  have hm : 0 < min a b := lt_min ha hb
  have h1 : a ^ p ≤ (min a b) ^ p := Real.rpow_le_rpow_of_nonpos hm (min_le_left _ _) hp.le
  have h2 : b ^ p ≤ (min a b) ^ p := Real.rpow_le_rpow_of_nonpos hm (min_le_right _ _) hp.le
  have p1 := (Real.rpow_pos_of_pos ha p).le
  have p2 := (Real.rpow_pos_of_pos hb p).le
  refine ⟨?_, by linarith⟩
  rcases min_choice a b with h | h <;> rw [h] <;> linarith

/-- Both arguments negligible, `p > 0`: so is the mean. -/
theorem pmean_fl_tiny (p a b : Fl M) (h1 : 9e-13 ≤ p.val) (h2 : p.val ≤ 10) (ha : 0 ≤ a.val) (hb : 0 ≤ b.val) (ha1 : a.val ≤ 1e-12) (hb1 : b.val ≤ 1e-12) :
    (positivePmean p a b).val ≤ 1.1e-12 := by
  have hp : 0 < p.val := by linarith
  have habs : |p.val| = p.val := abs_of_pos hp
  have hin := inner_sum_fl p a b ha hb (.inl hp)
  have he := exponent_fl p (by rw [habs]; exact h1) (by rw [habs]; exact h2)
  have hlow := rpow_lower (x := 1e-12) (p := p.val) (by norm_num) (by norm_num) (by rw [habs]; exact h2)
  have u1 : a.val ^ p.val ≤ (1e-12:ℝ) ^ p.val := Real.rpow_le_rpow ha ha1 hp.le
  have u2 : b.val ^ p.val ≤ (1e-12:ℝ) ^ p.val := Real.rpow_le_rpow hb hb1 hp.le
  have hnn : 0 ≤ (lit 0.5 * (pow a p + pow b p) : Fl M).val := by
    rw [Fl.mul_val, M.lit_half, Fl.add_val, Fl.pow_val, Fl.pow_val]
    exact M.fl_nonneg (mul_nonneg (by norm_num) (M.fl_nonneg (add_nonneg (M.pow_nonneg _ _ ha) (M.pow_nonneg _ _ hb))))
  unfold positivePmean
  rw [Fl.pow_val]
  generalize (lit 0.5 * (pow a p + pow b p) : Fl M).val = s at *
  generalize (lit 1 / p : Fl M).val = e at *
  have hT0 : 0 < (1e-12:ℝ) ^ p.val := by linarith
  have hlogT : Real.log ((1e-12:ℝ) ^ p.val) = p.val * Real.log 1e-12 := Real.log_rpow (by norm_num) _
  have hroot : ((1e-12:ℝ) ^ p.val) ^ (1 / p.val) = 1e-12 := by
    rw [← Real.rpow_mul (by norm_num), mul_one_div_cancel hp.ne', Real.rpow_one]
  generalize (1e-12:ℝ) ^ p.val = T at *
  rw [habs] at he
  have hr : 0 < 1 / p.val := by positivity
  have hr2 : 1 / p.val ≤ 1.2e12 := by
    rw [div_le_iff₀ hp]; norm_num at h1 ⊢; linarith
  have he0 : 0 < e := by linarith [(abs_le.1 he).1]
  rcases eq_or_lt_of_le hnn with h0 | h0
  · rw [← h0, M.pow_zero e he0]; norm_num
  · have hs : s ≤ T * (1 + 1e-15) := by
      have : (1e-249:ℝ) ≤ 1e-16 * T := by
        calc (1e-249:ℝ) ≤ 1e-16 * 1e-145 := by norm_num
          _ ≤ _ := mul_le_mul_of_nonneg_left hlow (by norm_num)
      linarith [(abs_le.1 hin).2]
    obtain ⟨k1, -⟩ := pow_perturb (S := T) (s := T * (1 + 1e-15)) (e := e) (p := p.val) hT0 (by rw [habs]; exact h1)
      (by rw [show T * (1 + 1e-15) - T = 1e-15 * T by ring, abs_of_pos (by positivity)]) (by rw [habs]; exact he) (by
        rw [hlogT, habs, abs_mul, habs, mul_div_assoc, mul_comm, div_mul_cancel₀ _ hp.ne']
        have := log_bound (x := 1e-12) (by norm_num) (by norm_num)
        linarith)
    rw [hroot, habs] at k1
    have hmono : s ^ e ≤ (T * (1 + 1e-15)) ^ e := Real.rpow_le_rpow hnn hs he0.le
    have k2 := (abs_le.1 k1).2
    have k3 := (abs_le.1 (M.pow_near s e h0)).2
    have k4 : 8.2e-15 * (1 + 1 / p.val) * 1e-12 ≤ (0.0099:ℝ) * 1e-12 := mul_le_mul_of_nonneg_right (by linarith) (by norm_num)
    have : (2e-250:ℝ) ≤ 1e-20 := by norm_num
    linarith

end Trento
