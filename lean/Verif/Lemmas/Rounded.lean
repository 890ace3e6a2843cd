import Verif.Model.Rounded
import Verif.Lemmas.Nucleon
import Mathlib.Analysis.Complex.ExponentialBounds

/-! # Lemmas about rounded arithmetic: bounds that survive rounding, and the exponential table -/

namespace Trento
namespace Machine
variable (M : Machine)

/-- A bound by an exactly represented number survives rounding. -/
theorem fl_le_int {x : ℝ} {k : ℤ} (hk : |k| < 2 ^ 53) (h : x ≤ k) : M.fl x ≤ k := by
  rw [← M.exact_int k hk]; exact M.fl_mono _ _ h

theorem int_le_fl {x : ℝ} {k : ℤ} (hk : |k| < 2 ^ 53) (h : (k:ℝ) ≤ x) : (k:ℝ) ≤ M.fl x := by
  rw [← M.exact_int k hk]; exact M.fl_mono _ _ h

theorem abs_fl_le_nat {x : ℝ} {k : ℕ} (hk : k < 2 ^ 53) (h : |x| ≤ k) : |M.fl x| ≤ k := by
  rw [abs_le] at h ⊢
  have hk' : |(k:ℤ)| < 2 ^ 53 := by rw [Nat.abs_cast]; exact_mod_cast hk
  have hk'' : |-(k:ℤ)| < 2 ^ 53 := by rw [abs_neg]; exact hk'
  constructor
  · have := M.int_le_fl hk'' (x := x) (by push_cast; exact h.1)
    push_cast at this; exact this
  · have := M.fl_le_int hk' (x := x) (by push_cast; exact h.2)
    push_cast at this; exact this

theorem abs_fl_le_one {x : ℝ} (h : |x| ≤ 1) : |M.fl x| ≤ 1 := by
  have := M.abs_fl_le_nat (k := 1) (by norm_num) (by simpa using h)
  simpa using this

/-- Absolute error for moderate numbers. -/
theorem fl_abs_err {x : ℝ} (h : |x| ≤ 4096) : |M.fl x - x| ≤ 1e-12 := by
  have h1 := M.fl_err x
  have h2 := uRound_le
  have h3 := etaRound_le
  have h4 := uRound_pos
  nlinarith [abs_nonneg x]

theorem etaRound_tiny : etaRound ≤ 1e-250 := by
  unfold etaRound
  calc ((2:ℝ)⁻¹) ^ 1075 ≤ (2⁻¹) ^ 840 := pow_le_pow_of_le_one (by norm_num) (by norm_num) (by norm_num)
    _ = ((2⁻¹) ^ 10) ^ 84 := by rw [← pow_mul]
    _ ≤ (1e-3) ^ 84 := pow_le_pow_left₀ (by norm_num) (by norm_num) 84
    _ ≤ 1e-250 := by norm_num

/-- Relative error for numbers far from underflow. -/
theorem fl_rel_err {x : ℝ} (h : 1e-200 ≤ |x|) : |M.fl x - x| ≤ 2e-16 * |x| := by
  have h1 := M.fl_err x
  have h2 := uRound_le
  have h3 := etaRound_tiny
  have h5 : (1e-250:ℝ) = 1e-50 * 1e-200 := by norm_num
  nlinarith [abs_nonneg x]

theorem lit_exact (q : ℚ) (k : ℤ) (j : ℕ) (h : q = k / 2 ^ j) (hk : |k| < 2 ^ 53) (hj : j ≤ 1000) :
    (lit q : Fl M).val = (q : ℝ) := by
  rw [Fl.lit_val]
  apply M.exact_dyadic k j _ _ hk hj
  rw [h]; push_cast; rfl

theorem lit_zero : (lit 0 : Fl M).val = 0 := by
  rw [M.lit_exact 0 0 0 (by norm_num) (by norm_num) (by norm_num)]; norm_num
theorem lit_one : (lit 1 : Fl M).val = 1 := by
  rw [M.lit_exact 1 1 0 (by norm_num) (by norm_num) (by norm_num)]; norm_num
theorem lit_two : (lit 2 : Fl M).val = 2 := by
  rw [M.lit_exact 2 2 0 (by norm_num) (by norm_num) (by norm_num)]; norm_num
theorem lit_half : (lit 0.5 : Fl M).val = 1/2 := by
  rw [M.lit_exact 0.5 1 1 (by norm_num) (by norm_num) (by norm_num)]; norm_num
theorem lit_quarter : (lit 0.25 : Fl M).val = 1/4 := by
  rw [M.lit_exact 0.25 1 2 (by norm_num) (by norm_num) (by norm_num)]; norm_num
theorem lit_five : (lit 5 : Fl M).val = 5 := by
  rw [M.lit_exact 5 5 0 (by norm_num) (by norm_num) (by norm_num)]; norm_num

theorem ofInt_exact (k : ℤ) (hk : |k| < 2 ^ 53) : (ofInt k : Fl M).val = k := by
  rw [Fl.ofInt_val]; exact M.exact_int k hk

/-! ## Conversions -/

theorem castInt_fl_ok {x : Fl M} (h0 : -2147483649 < x.val) (h1 : x.val < 2147483648) :
    castInt x = .ok (if 0 ≤ x.val then ⌊x.val⌋ else ⌈x.val⌉) := by
  have h := castInt_ok (x := x.val) h0 h1
  rw [← h]
  unfold castInt
  rw [Fl.trunc_eq, trunc_real]

theorem castSize_fl (x : Fl M) : castSize x = castSize x.val := by
  unfold castSize
  rw [Fl.trunc_eq, trunc_real]

/-! ## The exponential table -/

/-- The table `thickness` uses. -/
theorem fastExp_xmin : (-(lit 0.5) * sqr maxRadiusWidths : Fl M).val = -12.5 := by
  have h1 : (sqr maxRadiusWidths : Fl M).val = 25 := by
    rw [Fl.sqr_val]
    have : (maxRadiusWidths : Fl M).val = 5 := M.lit_five
    rw [this]
    exact (M.exact_dyadic 25 0 _ (by norm_num) (by norm_num) (by norm_num)).trans (by norm_num)
  rw [Fl.mul_val, Fl.neg_val, M.lit_half, h1]
  exact (M.exact_dyadic (-25) 1 _ (by norm_num) (by norm_num) (by norm_num)).trans (by norm_num)

/-- The table step as computed: 12.5/999, rounded. -/
noncomputable def tableStep : ℝ := M.fl (12.5 / 999)

theorem tableStep_err : |M.tableStep - 12.5 / 999| ≤ 1e-17 := by
  have h1 := M.fl_err (12.5 / 999)
  have h2 := uRound_le
  have h3 := etaRound_le
  rw [abs_of_pos (by norm_num : (0:ℝ) < 12.5 / 999)] at h1
  unfold tableStep
  nlinarith

/-- The table of the fast exponential, on machine `M`. -/
noncomputable def expTable : FastExp (Fl M) := FastExp.make (-(lit 0.5) * sqr maxRadiusWidths) (lit 0) 1000

theorem make_fastExp_fl (w v : Fl M) (m : ℕ) (σ : Fl M) (nc : Bool) (k : Fl M) :
    (NucleonCommon.make w v m σ nc k).fastExp = M.expTable := rfl

theorem expTable_xmin : M.expTable.xmin.val = -12.5 := M.fastExp_xmin
theorem expTable_dx : M.expTable.dx.val = M.tableStep := by
  unfold expTable FastExp.make
  simp only [Nat.reduceSub, show (1000:ℕ) ≠ 0 by norm_num, if_false, Fl.div_val, Fl.sub_val]
  rw [M.fastExp_xmin, M.lit_zero, M.ofInt_exact _ (by norm_num)]
  have : M.fl (0 - -12.5) = 12.5 :=
    (M.exact_dyadic 25 1 _ (by norm_num) (by norm_num) (by norm_num)).trans (by norm_num)
  rw [this]
  unfold tableStep
  norm_num

theorem expTable_get (i : ℕ) (hi : i < 1000) :
    ∃ t : Fl M, M.expTable.table[i]? = some t ∧ t.val = M.exp (M.fl (-12.5 + M.fl (i * M.tableStep))) := by
  have hdx := M.expTable_dx
  unfold expTable FastExp.make at hdx ⊢
  dsimp only at hdx ⊢
  rw [List.getElem?_map, List.getElem?_range hi]
  refine ⟨_, rfl, ?_⟩
  rw [Fl.exp_val, Fl.add_val, Fl.mul_val (ofInt _), hdx, M.fastExp_xmin, M.ofInt_exact _ (by rw [Nat.abs_cast]; exact_mod_cast (by omega : i < 2^53))]
  push_cast
  rfl

/-! The error analysis of one lookup, in pieces. -/

theorem lookup_index {x s dx q z : ℝ} (hdx1 : dx ≤ 12.5/999 + 1e-17)
    (hdx2 : 12.5/999 - 1e-17 ≤ dx) (es : |s - (x + 12.5)| ≤ 1e-12) (hs : -2e-11 ≤ s ∧ s ≤ 12.5)
    (eq1 : |q - s / dx| ≤ 1e-12) (ez : |z - (q + 1/2)| ≤ 1e-12) :
    0 ≤ z ∧ z < 1000 ∧ ∀ i : ℝ, i ≤ z → z < i + 1 → |x - (-12.5 + i * dx)| ≤ (12.5/999 + 1e-10)/2 := by
  have hdxp : 0.0125 < dx := lt_of_lt_of_le (by norm_num) hdx2
  have hqdx : |q * dx - s| ≤ 1e-13 := by
    have e : q * dx - s = (q - s / dx) * dx := by
      rw [sub_mul, div_mul_cancel₀ _ (by linarith : dx ≠ 0)]
    rw [e, abs_mul, abs_of_pos (by linarith : 0 < dx)]
    have : dx ≤ 0.1 := by linarith
    calc |q - s/dx| * dx ≤ 1e-12 * 0.1 := mul_le_mul eq1 this (by linarith) (by norm_num)
      _ = 1e-13 := by norm_num
  rw [abs_le] at hqdx ez es
  have hqlo : -1e-8 ≤ q := by
    by_contra hc
    push Not at hc
    have : q * dx ≤ -1e-8 * dx := mul_le_mul_of_nonneg_right hc.le (by linarith)
    linarith [hqdx.1, hs.1]
  have hqhi : q ≤ 999 + 1e-9 := by
    by_contra hc
    push Not at hc
    have : (999 + 1e-9) * (12.5/999 - 1e-17) ≤ q * dx := by
      apply mul_le_mul hc.le hdx2 (by norm_num) (by linarith)
    have h3 : (999 + 1e-9) * (12.5/999 - 1e-17 : ℝ) > 12.5 + 1e-12 := by norm_num
    linarith [hqdx.2, hs.2]
  refine ⟨by linarith [ez.1], by linarith [ez.2], ?_⟩
  intro i hi1 hi2
  have e1 : x - (-12.5 + i * dx) = (x + 12.5 - s) + (s - q * dx) + (q - i) * dx := by ring
  have e2 : |q - i| ≤ 1/2 + 1e-12 := by rw [abs_le]; constructor <;> linarith [ez.1, ez.2]
  have e3 : |(q - i) * dx| ≤ (1/2 + 1e-12) * (12.5/999 + 1e-17) := by
    rw [abs_mul, abs_of_pos (by linarith : 0 < dx)]
    exact mul_le_mul e2 hdx1 (by linarith) (by norm_num)
  have e4 : (1/2 + 1e-12) * (12.5/999 + 1e-17 : ℝ) ≤ 12.5/999/2 + 1e-11 := by norm_num
  rw [abs_le] at e3
  rw [abs_le, e1]
  constructor <;> linarith [e3.1, e3.2, hqdx.1, hqdx.2, es.1, es.2]

theorem exp_near {δ : ℝ} (h : |δ| ≤ 2e-12) : |Real.exp δ - 1| ≤ 3e-12 := by
  have h3 : Real.exp δ ≤ 1 + 3e-12 := by
    have : Real.exp δ ≤ Real.exp 2e-12 := Real.exp_le_exp.2 (le_trans (le_abs_self _) h)
    have h4 := Real.abs_exp_sub_one_sub_id_le (x := (2e-12:ℝ)) (by rw [abs_le]; constructor <;> norm_num)
    rw [abs_le] at h4
    have : (1:ℝ) + 2e-12 + (2e-12)^2 ≤ 1 + 3e-12 := by norm_num
    linarith [h4.2]
  have h5 := Real.add_one_le_exp δ
  rw [abs_le] at h ⊢
  constructor <;> linarith [h.1]

theorem exp_ge_of_ge_neg13 {y : ℝ} (h : -13 ≤ y) : (1e-6:ℝ) ≤ Real.exp y := by
  refine le_trans ?_ (Real.exp_le_exp.2 h)
  rw [Real.exp_neg, le_inv_comm₀ (by norm_num) (Real.exp_pos _)]
  have : Real.exp 13 = Real.exp 1 ^ 13 := by rw [← Real.exp_nat_mul]; norm_num
  rw [this]
  have h1 : Real.exp 1 ≤ 2.7182818286 := Real.exp_one_lt_d9.le
  calc Real.exp 1 ^ 13 ≤ 2.7182818286 ^ 13 := pow_le_pow_left₀ (Real.exp_pos _).le h1 13
    _ ≤ (1e-6)⁻¹ := by norm_num

theorem exp_small {y : ℝ} (h : |y| ≤ 0.0063) : Real.exp y ≤ 1.01 := by
  have : Real.exp y ≤ Real.exp 0.0063 := Real.exp_le_exp.2 (le_trans (le_abs_self _) h)
  have h4 := Real.abs_exp_sub_one_sub_id_le (x := (0.0063:ℝ)) (by rw [abs_le]; constructor <;> norm_num)
  rw [abs_le] at h4
  have : (1:ℝ) + 0.0063 + (0.0063)^2 ≤ 1.01 := by norm_num
  linarith [h4.2]

theorem feErr_step : (12.5/999 + 1e-10:ℝ)^2/8 * Real.exp ((12.5/999 + 1e-10)/2) ≤ feErr + 5e-10 := by
  unfold feErr
  have e1 : Real.exp ((12.5/999 + 1e-10)/2) = Real.exp (12.5/999/2) * Real.exp (1e-10/2) := by
    rw [← Real.exp_add]; congr 1; ring
  have e2 : Real.exp (1e-10/2) ≤ 1 + 1e-10 := by
    have h4 := Real.abs_exp_sub_one_sub_id_le (x := (1e-10/2:ℝ)) (by rw [abs_le]; constructor <;> norm_num)
    rw [abs_le] at h4
    have : (1:ℝ) + 1e-10/2 + (1e-10/2)^2 ≤ 1 + 1e-10 := by norm_num
    linarith [h4.2]
  have e3 : Real.exp (12.5/999/2) ≤ 1.01 := exp_small (by rw [abs_le]; constructor <;> norm_num)
  generalize Real.exp (12.5/999/2) = E1 at *
  rw [e1]
  by_cases hE : 0 ≤ E1
  · have h5 : (12.5/999 + 1e-10:ℝ)^2/8 * (E1 * Real.exp (1e-10/2)) ≤ (12.5/999 + 1e-10)^2/8 * (E1 * (1 + 1e-10)) := by
      apply mul_le_mul_of_nonneg_left _ (by positivity)
      exact mul_le_mul_of_nonneg_left e2 hE
    have h6 : (12.5/999 + 1e-10:ℝ)^2/8 * (1 + 1e-10) ≤ (12.5/999)^2/8 + 4e-10 := by norm_num
    have h7 := mul_le_mul_of_nonneg_right h6 hE
    linarith
  · exfalso
    push Not at hE
    have := Real.exp_pos ((12.5/999 + 1e-10)/2)
    rw [e1] at this
    have := mul_nonpos_of_nonpos_of_nonneg hE.le (Real.exp_pos (1e-10/2)).le
    linarith

/-- the value: table entry times correction -/
theorem lookup_value {x d g f : ℝ} (hx : -12.5 - 1e-11 ≤ x) (hd : |d| ≤ (12.5/999 + 1e-10)/2) (hg : |g - (x - d)| ≤ 2e-12)
    (hf : |f - (1 + d)| ≤ 4e-12) :
    0 ≤ M.fl (M.exp g * f) ∧ |M.fl (M.exp g * f) - Real.exp x| ≤ (feErr + 1e-9) * Real.exp x := by
  have hlin := linear_exp_error (x := x) hd
  have hfe := feErr_step
  have hd63 : |d| ≤ 0.0063 := hd.trans (by norm_num)
  have het := M.exp_err g
  have hT0 := M.exp_nonneg g
  have hXp := Real.exp_pos x
  have he0p := Real.exp_pos (x - d)
  have hgexp : |Real.exp g - Real.exp (x - d)| ≤ 3e-12 * Real.exp (x - d) := by
    have e1 : Real.exp g = Real.exp (x - d) * Real.exp (g - (x - d)) := by rw [← Real.exp_add]; congr 1; ring
    have e2 : Real.exp g - Real.exp (x - d) = Real.exp (x - d) * (Real.exp (g - (x - d)) - 1) := by rw [e1]; ring
    rw [e2, abs_mul, abs_of_pos he0p, mul_comm]
    exact mul_le_mul_of_nonneg_right (exp_near hg) he0p.le
  have hbig : (1e-6:ℝ) ≤ Real.exp (x - d) := exp_ge_of_ge_neg13 (by rw [abs_le] at hd63; linarith [hd63.2])
  have hXe : Real.exp (x - d) ≤ 1.01 * Real.exp x := by
    have : Real.exp (x - d) = Real.exp (-d) * Real.exp x := by rw [← Real.exp_add]; congr 1; ring
    rw [this]
    exact mul_le_mul_of_nonneg_right (exp_small (by rwa [abs_neg])) hXp.le
  have hfe0 : 0 ≤ feErr := by unfold feErr; positivity
  generalize Real.exp x = X at *
  generalize Real.exp (x - d) = e0 at *
  generalize Real.exp g = G at *
  generalize M.exp g = T at *
  have hu := uRound_le
  have hu0 := uRound_pos
  have hη := etaRound_le
  have hG : G ≤ 2 * e0 := by rw [abs_le] at hgexp; linarith [hgexp.2]
  have hG0 : 0 ≤ G := by rw [abs_le] at hgexp; linarith [hgexp.1]
  have hTe : |T - e0| ≤ 4e-12 * e0 := by
    have h1 : |T - e0| ≤ |T - G| + |G - e0| := abs_sub_le _ _ _
    have h2 : 4 * uRound * G ≤ 4 * 1.2e-16 * (2 * e0) := by
      apply mul_le_mul _ hG hG0 (by norm_num)
      linarith
    linarith
  have hff := abs_le.1 hf
  have hdd := abs_le.1 hd63
  have hf0 : 0 ≤ f := by linarith [hff.1, hdd.1]
  have hf2 : f ≤ 1.1 := by linarith [hff.2, hdd.2]
  refine ⟨M.fl_nonneg (mul_nonneg hT0 hf0), ?_⟩
  have hP : |T * f - e0 * (1 + d)| ≤ 2e-11 * e0 := by
    have e1 : T * f - e0 * (1 + d) = (T - e0) * f + e0 * (f - (1 + d)) := by ring
    rw [e1]
    have h1 : |(T - e0) * f| ≤ 4e-12 * e0 * 1.1 := by
      rw [abs_mul, abs_of_nonneg hf0]
      exact mul_le_mul hTe hf2 hf0 (by positivity)
    have h2 : |e0 * (f - (1 + d))| ≤ e0 * 4e-12 := by
      rw [abs_mul, abs_of_pos he0p]
      exact mul_le_mul_of_nonneg_left hf he0p.le
    have := abs_add_le ((T - e0) * f) (e0 * (f - (1 + d)))
    linarith
  have hXd : |e0 * (1 + d) - X| ≤ (feErr + 5e-10) * X := by
    rw [abs_le]
    have := mul_le_mul_of_nonneg_left hfe hXp.le
    have h2 : 0 ≤ (feErr + 5e-10) * X := mul_nonneg (by linarith) hXp.le
    constructor
    · linarith [hlin.2]
    · linarith [hlin.1]
  have hfl := M.fl_err (T * f)
  have hTf : |T * f| ≤ 3 * X := by
    rw [abs_of_nonneg (mul_nonneg hT0 hf0)]
    have hT2 : T ≤ 1.1 * e0 := by rw [abs_le] at hTe; linarith [hTe.2]
    have : T * f ≤ 1.1 * e0 * 1.1 := mul_le_mul hT2 hf2 hf0 (by positivity)
    linarith
  have h8 : uRound * |T * f| ≤ 1.2e-16 * (3 * X) := mul_le_mul hu hTf (abs_nonneg _) (by norm_num)
  have h9 := abs_sub_le (M.fl (T * f)) (T * f) X
  have h10 := abs_sub_le (T * f) (e0 * (1 + d)) X
  have : (feErr + 1e-9) * X = (feErr + 5e-10) * X + 5e-10 * X := by ring
  linarith

/-- **The fast exponential on a rounding machine** (release build): on the whole range, and even slightly below it, the table is
read inside its bounds and the value is close to the exponential. -/
theorem expTable_eval {x : Fl M} (h1 : -12.5 - 1e-11 ≤ x.val) (h2 : x.val ≤ 0) :
    ∃ y, M.expTable.eval false x = .ok y ∧ 0 ≤ y.val ∧ |y.val - Real.exp x.val| ≤ (feErr + 1e-9) * Real.exp x.val := by
  have hdx := abs_le.1 M.tableStep_err
  have hdx1 : M.tableStep ≤ 12.5/999 + 1e-17 := by linarith [hdx.2]
  have hdx2 : 12.5/999 - 1e-17 ≤ M.tableStep := by linarith [hdx.1]
  have hdxp : 0.0125 < M.tableStep := lt_of_lt_of_le (by norm_num) hdx2
  have es : |M.fl (x.val - -12.5) - (x.val + 12.5)| ≤ 1e-12 := by
    have := M.fl_abs_err (x := x.val - -12.5) (by rw [abs_le]; constructor <;> linarith)
    convert this using 2; ring
  have hsb : -2e-11 ≤ M.fl (x.val - -12.5) ∧ M.fl (x.val - -12.5) ≤ 12.5 := by
    constructor
    · linarith [(abs_le.1 es).1]
    · have := M.fl_mono (x.val - -12.5) 12.5 (by linarith)
      have e : M.fl 12.5 = 12.5 :=
        (M.exact_dyadic 25 1 _ (by norm_num) (by norm_num) (by norm_num)).trans (by norm_num)
      rw [e] at this; exact this
  have hq0 : |M.fl (x.val - -12.5) / M.tableStep| ≤ 1001 := by
    rw [abs_div, abs_of_pos (by linarith : 0 < M.tableStep), div_le_iff₀ (by linarith), abs_le]
    constructor <;> linarith [hsb.1, hsb.2]
  have eq1 := M.fl_abs_err (hq0.trans (by norm_num))
  have hq1 := abs_le.1 eq1
  have hq2 := abs_le.1 hq0
  have ez : |M.fl (M.fl (M.fl (x.val - -12.5) / M.tableStep) + 1/2) - (M.fl (M.fl (x.val - -12.5) / M.tableStep) + 1/2)| ≤ 1e-12 :=
    M.fl_abs_err (by rw [abs_le]; constructor <;> linarith [hq1.1, hq1.2, hq2.1, hq2.2])
  obtain ⟨hz0, hz1, hd⟩ := lookup_index hdx1 hdx2 es hsb eq1 ez
  have hcast : castSize ((x - M.expTable.xmin) / M.expTable.dx + lit 0.5) =
      .ok ⌊M.fl (M.fl (M.fl (x.val - -12.5) / M.tableStep) + 1/2)⌋₊ := by
    rw [castSize_fl]
    have : ((x - M.expTable.xmin) / M.expTable.dx + lit 0.5 : Fl M).val =
        M.fl (M.fl (M.fl (x.val - -12.5) / M.tableStep) + 1/2) := by
      simp only [Fl.add_val, Fl.div_val, Fl.sub_val]
      rw [M.expTable_xmin, M.expTable_dx, M.lit_half]
    rw [this]
    exact castSize_ok_of_nonneg hz0 (by linarith)
  generalize M.fl (M.fl (M.fl (x.val - -12.5) / M.tableStep) + 1/2) = z at *
  have hi : ⌊z⌋₊ < 1000 := by rw [Nat.floor_lt hz0]; exact_mod_cast hz1
  obtain ⟨t, ht, htv⟩ := M.expTable_get _ hi
  have hd' := hd _ (Nat.floor_le hz0) (Nat.lt_floor_add_one z)
  refine ⟨t * (lit 1 + x - M.expTable.xmin - ofInt (⌊z⌋₊ : ℤ) * M.expTable.dx), by
    unfold FastExp.eval
    simp only [Bool.false_and, Bool.false_eq_true, if_false, hcast, ht], ?_⟩
  have hval : (t * (lit 1 + x - M.expTable.xmin - ofInt (⌊z⌋₊ : ℤ) * M.expTable.dx) : Fl M).val =
      M.fl (M.exp (M.fl (-12.5 + M.fl ((⌊z⌋₊ : ℝ) * M.tableStep))) *
        M.fl (M.fl (M.fl (1 + x.val) - -12.5) - M.fl ((⌊z⌋₊ : ℝ) * M.tableStep))) := by
    simp only [Fl.mul_val, Fl.sub_val, Fl.add_val]
    rw [htv, M.lit_one, M.expTable_xmin, M.expTable_dx,
      M.ofInt_exact _ (by rw [Nat.abs_cast]; exact_mod_cast (by omega : ⌊z⌋₊ < 2^53))]
    push_cast
    rfl
  rw [hval]
  have hi1 : ((⌊z⌋₊ : ℕ) : ℝ) ≤ 999 := by exact_mod_cast (by omega : ⌊z⌋₊ ≤ 999)
  have hi0 : (0:ℝ) ≤ ((⌊z⌋₊ : ℕ) : ℝ) := by positivity
  generalize ((⌊z⌋₊ : ℕ) : ℝ) = i at *
  have hidx : |i * M.tableStep| ≤ 13 := by
    rw [abs_of_nonneg (mul_nonneg hi0 (by linarith))]
    calc i * M.tableStep ≤ 999 * (12.5/999 + 1e-17) := mul_le_mul hi1 hdx1 (by linarith) (by norm_num)
      _ ≤ 13 := by norm_num
  have ep := abs_le.1 (M.fl_abs_err (x := i * M.tableStep) (hidx.trans (by norm_num)))
  have hidx' := abs_le.1 hidx
  have ea := abs_le.1 (M.fl_abs_err (x := 1 + x.val) (by rw [abs_le]; constructor <;> linarith))
  have eb := abs_le.1 (M.fl_abs_err (x := M.fl (1 + x.val) - -12.5) (by rw [abs_le]; constructor <;> linarith [ea.1, ea.2]))
  have ec := abs_le.1 (M.fl_abs_err (x := M.fl (M.fl (1 + x.val) - -12.5) - M.fl (i * M.tableStep))
    (by rw [abs_le]; constructor <;> linarith [ea.1, ea.2, eb.1, eb.2, ep.1, ep.2, hidx'.1, hidx'.2]))
  have eg := abs_le.1 (M.fl_abs_err (x := -12.5 + M.fl (i * M.tableStep))
    (by rw [abs_le]; constructor <;> linarith [ep.1, ep.2, hidx'.1, hidx'.2]))
  refine M.lookup_value h1 hd' ?_ ?_
  · rw [abs_le]; constructor <;> linarith [eg.1, eg.2, ep.1, ep.2]
  · rw [abs_le]; constructor <;> linarith [ea.1, ea.2, eb.1, eb.2, ec.1, ec.2, ep.1, ep.2]

end Machine
end Trento
