import Verif.Model.RealArith
import Verif.Lemmas.Text
import Mathlib.Data.Int.Log

/-!
# Rounded arithmetic

`Machine` is the contract of C++ `double` arithmetic (IEEE 754 binary64, round to nearest) and of the `<cmath>` functions,
as far as the theorems about rounded runs use it; `Fl M` is the carrier of values computed on machine `M`.  `ieee` is the
machine that rounds every result to nearest even with 53 bits and gradual underflow, and shows that the contract is
satisfiable by the real thing.

Not shown by this carrier: overflow (the exponent is unbounded above), NaN and infinities (see `Verif/Model/Special.lean`), and
the sign of zero.  `x / 0` and square roots of negative numbers return junk here, as at `ℝ`; the theorems carry hypotheses that
keep the arguments in the proper domain.  Contraction of `a*b+c` into a fused multiply-add is not modelled.
-/

namespace Trento

/-- Unit roundoff of `double`. -/
noncomputable def uRound : ℝ := 2⁻¹ ^ 53
/-- Half the smallest positive `double`. -/
noncomputable def etaRound : ℝ := 2⁻¹ ^ 1075

/-- The contract of `double` arithmetic and of the mathematical functions of the C++ library used in /repo/src. -/
structure Machine where
  /-- rounding of an exact result to a `double` -/
  fl : ℝ → ℝ
  /-- rounding preserves order -/
  fl_mono : ∀ x y, x ≤ y → fl x ≤ fl y
  /-- relative error at most one unit roundoff, up to underflow -/
  fl_err : ∀ x, |fl x - x| ≤ uRound * |x| + etaRound
  /-- numbers `k / 2^j` with fewer than 54 bits are represented exactly -/
  fl_exact : ∀ (k : ℤ) (j : ℕ), |k| < 2 ^ 53 → j ≤ 1000 → fl (k / 2 ^ j) = k / 2 ^ j
  /-- `std::exp` -/
  exp : ℝ → ℝ
  exp_nonneg : ∀ x, 0 ≤ exp x
  exp_le_one : ∀ x, x ≤ 0 → exp x ≤ 1
  /-- less than two units in the last place wrong -/
  exp_err : ∀ x, |exp x - Real.exp x| ≤ 4 * uRound * Real.exp x + 2 * etaRound
  /-- `std::cos`, `std::sin` -/
  cos : ℝ → ℝ
  sin : ℝ → ℝ
  cos_mem : ∀ x, |cos x| ≤ 1
  sin_mem : ∀ x, |sin x| ≤ 1
  /-- `std::pow` -/
  pow : ℝ → ℝ → ℝ
  pow_nonneg : ∀ x y, 0 ≤ x → 0 ≤ pow x y
  /-- less than two units in the last place wrong -/
  pow_err : ∀ x y, 0 < x → |pow x y - x ^ y| ≤ 4 * uRound * x ^ y + 2 * etaRound
  pow_zero : ∀ y, 0 < y → pow 0 y = 0
  /-- `std::cbrt` -/
  cbrt : ℝ → ℝ
  cbrt_mem : ∀ x, 0 ≤ x → x ≤ 1 → 0 ≤ cbrt x ∧ cbrt x ≤ 1
  /-- `std::log` -/
  log : ℝ → ℝ
  log_nonpos : ∀ x, 0 < x → x ≤ 1 → log x ≤ 0
  /-- `std::log10`, `boost::math::expint`, `boost::math::erf_inv`: no contract needed -/
  log10 : ℝ → ℝ
  expint : ℝ → ℝ
  erfInv : ℝ → ℝ

/-- A `double` computed on machine `M`. -/
@[ext] structure Fl (M : Machine) where
  val : ℝ

open scoped Classical in
/-- `double` operations on machine `M`: every arithmetic operation, square root, literal and integer conversion is the exact
result rounded (IEEE 754); negation, absolute value, comparison, minimum, maximum, `std::ceil` and truncation are exact. -/
noncomputable instance (M : Machine) : Arith (Fl M) where
  add a b := ⟨M.fl (a.val + b.val)⟩
  sub a b := ⟨M.fl (a.val - b.val)⟩
  mul a b := ⟨M.fl (a.val * b.val)⟩
  div a b := ⟨M.fl (a.val / b.val)⟩
  neg a := ⟨-a.val⟩
  lt a b := decide (a.val < b.val)
  sqrt a := ⟨M.fl (Real.sqrt a.val)⟩
  exp a := ⟨M.exp a.val⟩
  log a := ⟨M.log a.val⟩
  log10 a := ⟨M.log10 a.val⟩
  cbrt a := ⟨M.cbrt a.val⟩
  cos a := ⟨M.cos a.val⟩
  sin a := ⟨M.sin a.val⟩
  fabs a := ⟨|a.val|⟩
  ceil a := ⟨(⌈a.val⌉ : ℝ)⟩
  pow a b := ⟨M.pow a.val b.val⟩
  fmin a b := ⟨min a.val b.val⟩
  fmax a b := ⟨max a.val b.val⟩
  expint a := ⟨M.expint a.val⟩
  erfInv a := ⟨M.erfInv a.val⟩
  lit q := ⟨M.fl (q : ℝ)⟩
  ofInt k := ⟨M.fl (k : ℝ)⟩
  trunc a := some (if 0 ≤ a.val then ⌊a.val⌋ else ⌈a.val⌉)
  pi := ⟨M.fl Real.pi⟩
  oneDivTwoPi := ⟨M.fl (1 / (2 * Real.pi))⟩
  twoPi := ⟨M.fl (2 * Real.pi)⟩
  oneDivRootPi := ⟨M.fl (1 / Real.sqrt Real.pi)⟩
  rootTwo := ⟨M.fl (Real.sqrt 2)⟩

section simps
variable {M : Machine}
@[simp] theorem Fl.add_val (a b : Fl M) : (a + b).val = M.fl (a.val + b.val) := rfl
@[simp] theorem Fl.sub_val (a b : Fl M) : (a - b).val = M.fl (a.val - b.val) := rfl
@[simp] theorem Fl.mul_val (a b : Fl M) : (a * b).val = M.fl (a.val * b.val) := rfl
@[simp] theorem Fl.div_val (a b : Fl M) : (a / b).val = M.fl (a.val / b.val) := rfl
@[simp] theorem Fl.neg_val (a : Fl M) : (-a).val = -a.val := rfl
@[simp] theorem Fl.lt_eq (a b : Fl M) : lt a b = decide (a.val < b.val) := by
  show @decide _ _ = @decide _ _
  congr
@[simp] theorem Fl.sqrt_val (a : Fl M) : (sqrt a).val = M.fl (Real.sqrt a.val) := rfl
@[simp] theorem Fl.exp_val (a : Fl M) : (exp a).val = M.exp a.val := rfl
@[simp] theorem Fl.fabs_val (a : Fl M) : (fabs a).val = |a.val| := rfl
@[simp] theorem Fl.cos_val (a : Fl M) : (cos a).val = M.cos a.val := rfl
@[simp] theorem Fl.sin_val (a : Fl M) : (sin a).val = M.sin a.val := rfl
@[simp] theorem Fl.ceil_val (a : Fl M) : (ceil a).val = (⌈a.val⌉ : ℝ) := rfl
@[simp] theorem Fl.pow_val (a b : Fl M) : (pow a b).val = M.pow a.val b.val := rfl
@[simp] theorem Fl.fmin_val (a b : Fl M) : (fmin a b).val = min a.val b.val := rfl
@[simp] theorem Fl.fmax_val (a b : Fl M) : (fmax a b).val = max a.val b.val := rfl
@[simp] theorem Fl.lit_val (q : ℚ) : (lit q : Fl M).val = M.fl (q : ℝ) := rfl
@[simp] theorem Fl.ofInt_val (k : ℤ) : (ofInt k : Fl M).val = M.fl (k : ℝ) := rfl
@[simp] theorem Fl.oneDivTwoPi_val : (oneDivTwoPi : Fl M).val = M.fl (1 / (2 * Real.pi)) := rfl
@[simp] theorem Fl.twoPi_val : (twoPi : Fl M).val = M.fl (2 * Real.pi) := rfl
theorem Fl.trunc_eq (a : Fl M) : trunc a = some (if 0 ≤ a.val then ⌊a.val⌋ else ⌈a.val⌉) := by
  show some (@ite _ _ _ _ _) = some (@ite _ _ _ _ _)
  congr
@[simp] theorem Fl.sqr_val (a : Fl M) : (sqr a).val = M.fl (a.val * a.val) := rfl
end simps

/-! ## Every machine -/
namespace Machine
variable (M : Machine)

theorem exact_dyadic (k : ℤ) (j : ℕ) (x : ℝ) (hx : x = k / 2 ^ j) (hk : |k| < 2 ^ 53) (hj : j ≤ 1000) : M.fl x = x := by
  rw [hx]; exact M.fl_exact k j hk hj

theorem exact_int (k : ℤ) (hk : |k| < 2 ^ 53) : M.fl (k : ℝ) = k :=
  M.exact_dyadic k 0 _ (by simp) hk (by norm_num)

theorem fl_zero : M.fl 0 = 0 := by simpa using M.exact_int 0 (by norm_num)
theorem fl_one : M.fl 1 = 1 := by simpa using M.exact_int 1 (by norm_num)

theorem fl_nonneg {x : ℝ} (h : 0 ≤ x) : 0 ≤ M.fl x := by
  rw [← M.fl_zero]; exact M.fl_mono _ _ h
theorem fl_nonpos {x : ℝ} (h : x ≤ 0) : M.fl x ≤ 0 := by
  rw [← M.fl_zero]; exact M.fl_mono _ _ h

theorem uRound_pos : 0 < uRound := by unfold uRound; positivity
theorem etaRound_pos : 0 < etaRound := by unfold etaRound; positivity

theorem uRound_le : uRound ≤ 1.2e-16 := by unfold uRound; norm_num
theorem etaRound_le : etaRound ≤ 1e-30 := by
  unfold etaRound
  calc ((2:ℝ)⁻¹) ^ 1075 ≤ (2⁻¹) ^ 100 := pow_le_pow_of_le_one (by norm_num) (by norm_num) (by norm_num)
    _ ≤ 1e-30 := by norm_num

end Machine

/-! ## The IEEE 754 machine -/

/-- Exponent of the last binary digit kept for `x > 0`: 53 significant digits, not below `2^-1074`. -/
noncomputable def ulpExp (x : ℝ) : ℤ := max (Int.log 2 x - 52) (-1074)

/-- Round a non-negative number to the nearest `double`, ties to even (IEEE 754 roundTiesToEven), without overflow. -/
noncomputable def roundPos (x : ℝ) : ℝ := roundEven (x / (2:ℝ) ^ ulpExp x) * (2:ℝ) ^ ulpExp x

open scoped Classical in
/-- Round to the nearest `double`, symmetric in the sign. -/
noncomputable def roundDouble (x : ℝ) : ℝ := if 0 ≤ x then roundPos x else -roundPos (-x)

theorem roundEven_intCast (k : ℤ) : roundEven (k : ℝ) = k := by
  unfold roundEven; simp

theorem roundEven_mono {x y : ℝ} (h : x ≤ y) : roundEven x ≤ roundEven y := by
  by_contra hc
  push Not at hc
  have hx := abs_le.1 (abs_roundEven_sub x)
  have hy := abs_le.1 (abs_roundEven_sub y)
  have h1 : (roundEven y : ℝ) + 1 ≤ roundEven x := by exact_mod_cast hc
  have : x = y := le_antisymm h (by linarith [hx.1, hx.2, hy.1, hy.2])
  subst this
  exact lt_irrefl _ hc

theorem two_zpow_pos (e : ℤ) : (0:ℝ) < (2:ℝ) ^ e := zpow_pos (by norm_num) e

theorem roundPos_err {x : ℝ} (h : 0 ≤ x) : |roundPos x - x| ≤ uRound * x + etaRound := by
  rcases eq_or_lt_of_le h with h0 | h0
  · have : roundPos x = 0 := by rw [← h0]; unfold roundPos roundEven; simp
    rw [this, ← h0, sub_zero, abs_zero, mul_zero, zero_add]
    exact Machine.etaRound_pos.le
  set e := ulpExp x with he
  have hp := two_zpow_pos e
  have h1 : |roundPos x - x| ≤ 1/2 * (2:ℝ) ^ e := by
    have : roundPos x - x = (roundEven (x / (2:ℝ)^e) - x / (2:ℝ)^e) * (2:ℝ)^e := by
      unfold roundPos; rw [← he]; field_simp
    rw [this, abs_mul, abs_of_pos hp]
    exact mul_le_mul_of_nonneg_right (abs_roundEven_sub _) hp.le
  refine h1.trans ?_
  have hu := Machine.uRound_pos
  have hη := Machine.etaRound_pos
  rcases le_total (Int.log 2 x - 52) (-1074) with hc | hc
  · have : e = -1074 := by rw [he]; unfold ulpExp; exact max_eq_right hc
    have h2 : 1/2 * (2:ℝ) ^ e = etaRound := by
      have hn : ∀ n : ℕ, 1/2 * (2:ℝ)^(-(n:ℤ)) = 2⁻¹^(n+1) := by
        intro n; rw [zpow_neg, zpow_natCast, pow_succ, inv_pow]; ring
      rw [this]; unfold etaRound
      exact hn 1074
    rw [h2]
    nlinarith [mul_nonneg hu.le h]
  · have he' : e = Int.log 2 x - 52 := by rw [he]; unfold ulpExp; exact max_eq_left hc
    have h2 : (2:ℝ) ^ (Int.log 2 x) ≤ x := by
      have := Int.zpow_log_le_self (R := ℝ) (b := 2) (by norm_num) h0
      exact_mod_cast this
    have h3 : 1/2 * (2:ℝ) ^ e = uRound * (2:ℝ) ^ (Int.log 2 x) := by
      rw [he', zpow_sub₀ (by norm_num : (2:ℝ) ≠ 0)]
      unfold uRound
      norm_num
      ring
    rw [h3]
    nlinarith [mul_le_mul_of_nonneg_left h2 hu.le]

theorem roundPos_nonneg {x : ℝ} (h : 0 ≤ x) : 0 ≤ roundPos x := by
  unfold roundPos
  have := roundEven_nonneg (x := x / (2:ℝ) ^ ulpExp x) (div_nonneg h (two_zpow_pos _).le)
  have h2 : (0:ℝ) ≤ roundEven (x / (2:ℝ) ^ ulpExp x) := by exact_mod_cast this
  exact mul_nonneg h2 (two_zpow_pos _).le

theorem roundPos_mono {x y : ℝ} (hx : 0 ≤ x) (h : x ≤ y) : roundPos x ≤ roundPos y := by
  rcases eq_or_lt_of_le hx with h0 | h0
  · have : roundPos x = 0 := by rw [← h0]; unfold roundPos roundEven; simp
    rw [this]; exact roundPos_nonneg (hx.trans h)
  have hy : 0 < y := lt_of_lt_of_le h0 h
  have hlog : Int.log 2 x ≤ Int.log 2 y := Int.log_mono_right h0 h
  have hexp : ulpExp x ≤ ulpExp y := by unfold ulpExp; exact max_le_max (by omega) le_rfl
  rcases eq_or_lt_of_le hexp with he | he
  · unfold roundPos
    rw [he]
    apply mul_le_mul_of_nonneg_right _ (two_zpow_pos _).le
    have := roundEven_mono (div_le_div_of_nonneg_right h (two_zpow_pos (ulpExp y)).le)
    exact_mod_cast this
  · -- the exponent changes: both sides are separated by the power of two below `y`
    have hey : ulpExp y = Int.log 2 y - 52 := by unfold ulpExp at he ⊢; omega
    have hlt : Int.log 2 x < Int.log 2 y := by unfold ulpExp at he hey; omega
    have hB : (2:ℝ) ^ (Int.log 2 y) ≤ y := by
      have := Int.zpow_log_le_self (R := ℝ) (b := 2) (by norm_num) hy
      exact_mod_cast this
    have hxB : x ≤ (2:ℝ) ^ (Int.log 2 y) := by
      have h1 : x < (2:ℝ) ^ (Int.log 2 x + 1) := by
        have := Int.lt_zpow_succ_log_self (R := ℝ) (b := 2) (by norm_num) x
        exact_mod_cast this
      exact h1.le.trans (zpow_le_zpow_right₀ (by norm_num) (by omega))
    have key : ∀ e : ℤ, e ≤ Int.log 2 y → ∃ k : ℤ, (2:ℝ) ^ (Int.log 2 y) = k * (2:ℝ) ^ e := by
      intro e he'
      obtain ⟨d, hd⟩ := Int.le.dest he'
      refine ⟨2 ^ d, ?_⟩
      rw [← hd, zpow_add₀ (by norm_num : (2:ℝ) ≠ 0)]
      push_cast
      rw [zpow_natCast]; ring
    have hex : ulpExp x ≤ Int.log 2 y := by omega
    have hey' : ulpExp y ≤ Int.log 2 y := by omega
    have ha : roundPos x ≤ (2:ℝ) ^ (Int.log 2 y) := by
      obtain ⟨k, hk⟩ := key _ hex
      have hp := two_zpow_pos (ulpExp x)
      have : x / (2:ℝ) ^ ulpExp x ≤ (k:ℝ) := by rw [div_le_iff₀ hp, ← hk]; exact hxB
      have := roundEven_mono this
      rw [roundEven_intCast] at this
      unfold roundPos
      rw [hk]
      exact mul_le_mul_of_nonneg_right (by exact_mod_cast this) hp.le
    have hb : (2:ℝ) ^ (Int.log 2 y) ≤ roundPos y := by
      obtain ⟨k, hk⟩ := key _ hey'
      have hp := two_zpow_pos (ulpExp y)
      have : (k:ℝ) ≤ y / (2:ℝ) ^ ulpExp y := by rw [le_div_iff₀ hp, ← hk]; exact hB
      have := roundEven_mono this
      rw [roundEven_intCast] at this
      unfold roundPos
      rw [hk]
      exact mul_le_mul_of_nonneg_right (by exact_mod_cast this) hp.le
    exact ha.trans hb

theorem roundPos_exact (k : ℕ) (j : ℕ) (hk : k < 2 ^ 53) (hj : j ≤ 1000) : roundPos ((k:ℝ) / 2 ^ j) = k / 2 ^ j := by
  rcases Nat.eq_zero_or_pos k with h0 | h0
  · subst h0; unfold roundPos roundEven; simp
  have hx : (0:ℝ) < (k:ℝ) / 2 ^ j := by positivity
  have he : ulpExp ((k:ℝ) / 2 ^ j) ≤ -(j:ℤ) := by
    unfold ulpExp
    apply max_le _ (by omega)
    have h1 : (k:ℝ) / 2 ^ j < (2:ℝ) ^ (53 - (j:ℤ)) := by
      rw [zpow_sub₀ (by norm_num : (2:ℝ) ≠ 0), zpow_natCast]
      apply div_lt_div_of_pos_right _ (by positivity)
      exact_mod_cast hk
    have h2 : (2:ℝ) ^ (Int.log 2 ((k:ℝ) / 2 ^ j)) ≤ (k:ℝ) / 2 ^ j := by
      have := Int.zpow_log_le_self (R := ℝ) (b := 2) (by norm_num) hx
      exact_mod_cast this
    have h3 := lt_of_le_of_lt h2 h1
    rw [zpow_lt_zpow_iff_right₀ (by norm_num)] at h3
    omega
  unfold roundPos
  set e := ulpExp ((k:ℝ) / 2 ^ j) with hedef
  obtain ⟨d, hd⟩ := Int.le.dest he
  have hp := two_zpow_pos e
  have hdiv : (k:ℝ) / 2 ^ j / (2:ℝ) ^ e = ((k * 2 ^ d : ℤ) : ℝ) := by
    have : (2:ℝ) ^ e * 2 ^ d = ((2:ℝ) ^ j)⁻¹ := by
      rw [← zpow_natCast (2:ℝ) d, ← zpow_add₀ (by norm_num : (2:ℝ) ≠ 0), hd, zpow_neg, zpow_natCast]
    rw [div_eq_iff hp.ne', div_eq_mul_inv, ← this]
    push_cast
    ring
  rw [hdiv, roundEven_intCast, ← hdiv]
  field_simp

theorem roundDouble_nonneg {x : ℝ} (h : 0 ≤ x) : 0 ≤ roundDouble x := by
  unfold roundDouble; rw [if_pos h]; exact roundPos_nonneg h

theorem roundDouble_mono (x y : ℝ) (h : x ≤ y) : roundDouble x ≤ roundDouble y := by
  unfold roundDouble
  by_cases hx : 0 ≤ x
  · rw [if_pos hx, if_pos (hx.trans h)]; exact roundPos_mono hx h
  · rw [if_neg hx]
    push Not at hx
    have h1 := roundPos_nonneg (x := -x) (by linarith)
    by_cases hy : 0 ≤ y
    · rw [if_pos hy]; linarith [roundPos_nonneg hy]
    · rw [if_neg hy]
      push Not at hy
      linarith [roundPos_mono (x := -y) (y := -x) (by linarith) (by linarith)]

theorem roundDouble_err (x : ℝ) : |roundDouble x - x| ≤ uRound * |x| + etaRound := by
  unfold roundDouble
  by_cases hx : 0 ≤ x
  · rw [if_pos hx, abs_of_nonneg hx]; exact roundPos_err hx
  · rw [if_neg hx]
    push Not at hx
    rw [abs_of_neg hx]
    have := roundPos_err (x := -x) (by linarith)
    rwa [show -roundPos (-x) - x = -(roundPos (-x) - -x) by ring, abs_neg]

theorem roundDouble_exact (k : ℤ) (j : ℕ) (hk : |k| < 2 ^ 53) (hj : j ≤ 1000) : roundDouble (k / 2 ^ j) = k / 2 ^ j := by
  unfold roundDouble
  rcases le_total 0 k with h | h
  · obtain ⟨n, rfl⟩ := Int.eq_ofNat_of_zero_le h
    rw [if_pos (by positivity)]
    have hn : n < 2 ^ 53 := by rw [abs_of_nonneg h] at hk; exact_mod_cast hk
    have := roundPos_exact n j hn hj
    rwa [Int.cast_natCast]
  · obtain ⟨n, hn⟩ := Int.eq_ofNat_of_zero_le (a := -k) (by omega)
    have hk' : k = -(n:ℤ) := by omega
    subst hk'
    have hn : n < 2 ^ 53 := by rw [abs_of_nonpos h] at hk; simp only [neg_neg] at hk; exact_mod_cast hk
    have e := roundPos_exact n j hn hj
    by_cases h0 : (0:ℝ) ≤ ((-(n:ℤ) : ℤ) : ℝ) / 2 ^ j
    · have : n = 0 := by
        by_contra hne
        have : (0:ℝ) < (n:ℝ) / 2 ^ j := by
          have : (0:ℝ) < (n:ℝ) := by exact_mod_cast Nat.pos_of_ne_zero hne
          positivity
        push_cast at h0
        rw [neg_div] at h0
        linarith
      subst this
      rw [if_pos h0]; unfold roundPos roundEven; simp
    · rw [if_neg h0]
      push_cast
      rw [neg_div, neg_neg, e]

theorem roundDouble_unit {x : ℝ} (h : |x| ≤ 1) : |roundDouble x| ≤ 1 := by
  have h1 := roundDouble_exact 1 0 (by norm_num) (by norm_num)
  have h2 := roundDouble_exact (-1) 0 (by norm_num) (by norm_num)
  simp only [pow_zero, div_one, Int.cast_one, Int.cast_neg] at h1 h2
  rw [abs_le] at h ⊢
  exact ⟨h2 ▸ roundDouble_mono _ _ h.1, (roundDouble_mono _ _ h.2).trans h1.le⟩

/-- IEEE 754 binary64 without overflow, with correctly rounded mathematical functions. -/
noncomputable def ieee : Machine where
  fl := roundDouble
  fl_mono := roundDouble_mono
  fl_err := roundDouble_err
  fl_exact := roundDouble_exact
  exp x := roundDouble (Real.exp x)
  exp_nonneg x := roundDouble_nonneg (Real.exp_pos x).le
  exp_le_one x h := by
    have h1 := roundDouble_mono _ _ (Real.exp_le_one_iff.2 h)
    have h2 := roundDouble_exact 1 0 (by norm_num) (by norm_num)
    simp only [pow_zero, div_one, Int.cast_one] at h2
    rwa [h2] at h1
  exp_err x := by
    have h := roundDouble_err (Real.exp x)
    rw [abs_of_pos (Real.exp_pos x)] at h
    have h1 := mul_pos Machine.uRound_pos (Real.exp_pos x)
    have h2 := Machine.etaRound_pos
    linarith
  cos x := roundDouble (Real.cos x)
  sin x := roundDouble (Real.sin x)
  cos_mem x := roundDouble_unit (Real.abs_cos_le_one x)
  sin_mem x := roundDouble_unit (Real.abs_sin_le_one x)
  pow x y := roundDouble (x ^ y)
  pow_nonneg x y h := roundDouble_nonneg (Real.rpow_nonneg h y)
  pow_err x y h := by
    have h0 := roundDouble_err (x ^ y)
    rw [abs_of_pos (Real.rpow_pos_of_pos h y)] at h0
    have h1 := mul_pos Machine.uRound_pos (Real.rpow_pos_of_pos h y)
    have h2 := Machine.etaRound_pos
    linarith
  pow_zero y h := by
    rw [Real.zero_rpow h.ne']
    have h2 := roundDouble_exact 0 0 (by norm_num) (by norm_num)
    simpa only [pow_zero, div_one, Int.cast_zero] using h2
  log x := roundDouble (Real.log x)
  log_nonpos x h0 h1 := by
    have h := roundDouble_mono _ _ (Real.log_nonpos h0.le h1)
    have h2 := roundDouble_exact 0 0 (by norm_num) (by norm_num)
    simp only [pow_zero, div_one, Int.cast_zero] at h2
    rwa [h2] at h
  log10 x := roundDouble (Real.logb 10 x)
  cbrt x := roundDouble (cbrt x)
  cbrt_mem x h0 h1 := by
    have e := cbrt_real h0
    rw [e]
    have g0 : 0 ≤ x ^ ((1:ℝ)/3) := Real.rpow_nonneg h0 _
    have g1 : x ^ ((1:ℝ)/3) ≤ 1 := Real.rpow_le_one h0 h1 (by norm_num)
    have := roundDouble_unit (x := x ^ ((1:ℝ)/3)) (by rw [abs_of_nonneg g0]; exact g1)
    exact ⟨roundDouble_nonneg g0, (le_abs_self _).trans this⟩
  expint x := roundDouble (expint x)
  erfInv x := roundDouble (erfInv x)

end Trento
