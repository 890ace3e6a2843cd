import Verif.Lemmas.Text

/-! # Reading printed numbers back -/

namespace Trento

/-- The number a reader sees in a string: the whole string must be one number. -/
def Spec.numberOf (s : List Char) : Option ℚ :=
  match scanFloat s with
  | (some q, []) => some q
  | _ => none

open Spec

theorem signChars_eq (x : ℝ) : signChars x = if decide (x < 0) then ['-'] else [] := by
  unfold signChars
  by_cases h : x < 0 <;> simp [h]

theorem applySign_cast_sub (x : ℝ) (q : ℚ) (_h0 : 0 ≤ q) : |((applySign (decide (x < 0)) q : ℚ) : ℝ) - x| = |(q : ℝ) - (|x|)|:= by
  unfold applySign
  by_cases h : x < 0
  · simp only [h, decide_true, if_true, Rat.cast_neg]
    rw [abs_of_neg h, ← abs_neg]; congr 1; ring
  · simp only [h, decide_false, Bool.false_eq_true, if_false]
    rw [abs_of_nonneg (not_lt.mp h)]

/-- Fixed-point output reads back with an error of at most half a unit of the last printed digit, whatever follows. -/
theorem scan_fmtFixed (p : ℕ) (x : ℝ) {t : List Char} (ht : Stops t) :
    ∃ q : ℚ, scanFloat (fmtFixed p x ++ t) = (some q, t) ∧ |(q : ℝ) - x| ≤ 1/2 / 10 ^ p := by
  refine ⟨_, by rw [fmtFixed, signChars_eq]; exact scanFloat_fixed _ p _ ht, ?_⟩
  rw [applySign_cast_sub _ _ (by positivity)]
  have hp : (0:ℝ) < 10 ^ p := by positivity
  have hx : 0 ≤ |x| * 10 ^ p := by positivity
  have h := abs_round_toNat_sub hx
  generalize (roundEven (|x| * 10 ^ p)).toNat = n at h
  push_cast
  rw [le_div_iff₀ hp]
  calc |(n:ℝ) / 10 ^ p - (|x|)| * 10 ^ p = |((n:ℝ) / 10 ^ p - (|x|)) * 10 ^ p| := by rw [abs_mul, abs_of_pos hp]
    _ = |(n:ℝ) - (|x|) * 10 ^ p| := by congr 1; field_simp
    _ ≤ 1/2 := h

theorem numberOf_fmtFixed (p : ℕ) (x : ℝ) : ∃ q : ℚ, numberOf (fmtFixed p x) = some q ∧ |(q : ℝ) - x| ≤ 1/2 / 10 ^ p := by
  obtain ⟨q, h1, h2⟩ := scan_fmtFixed p x Stops.nil
  rw [List.append_nil] at h1
  exact ⟨q, by unfold numberOf; rw [h1], h2⟩

theorem nat_of_abs_sub_le {m k : ℕ} {y : ℝ} (h : |(m:ℝ) - y| ≤ 1/2) (hy : (k:ℝ) ≤ y) : k ≤ m := by
  by_contra hc
  have : (m:ℝ) + 1 ≤ k := by exact_mod_cast not_le.mp hc
  rw [abs_le] at h; linarith

theorem nat_le_of_abs_sub_le {m k : ℕ} {y : ℝ} (h : |(m:ℝ) - y| ≤ 1/2) (hy : y < k) : m ≤ k := by
  by_contra hc
  have : (k:ℝ) + 1 ≤ m := by exact_mod_cast not_le.mp hc
  rw [abs_le] at h; linarith

/-- Mantissa and exponent of the scientific format. -/
theorem sciParts_spec (p : ℕ) {x : ℝ} (hx : x ≠ 0) :
    10 ^ p ≤ (sciParts p x).1 ∧ (sciParts p x).1 < 10 ^ (p + 1) ∧
    |((sciParts p x).1 : ℝ) * 10 ^ ((sciParts p x).2 - p) - (|x|)| ≤ 1/2 / 10 ^ p * |x| ∧
    |x| < 10 ^ ((sciParts p x).2 + 1) ∧
    ((10:ℝ) ^ (sciParts p x).2 ≤ |x| ∨
      ((10:ℝ) ^ ((sciParts p x).2 - 1) ≤ |x| ∧ |x| < 10 ^ (sciParts p x).2 ∧ (sciParts p x).1 = 10 ^ p)) := by
  have hpos : 0 < |x| := abs_pos.mpr hx
  have h10 : (0:ℝ) < 10 := by norm_num
  set e := ⌊Real.logb 10 |x|⌋ with he
  have hlo : (10:ℝ) ^ e ≤ |x| := by
    rw [← Real.rpow_intCast, ← Real.le_logb_iff_rpow_le (by norm_num) hpos]
    exact Int.floor_le _
  have hhi : |x| < (10:ℝ) ^ (e + 1) := by
    rw [← Real.rpow_intCast, ← Real.logb_lt_iff_lt_rpow (by norm_num) hpos]
    push_cast
    exact Int.lt_floor_add_one _
  set y := |x| * (10:ℝ) ^ ((p:ℤ) - e) with hy
  have hy0 : 0 ≤ y := by positivity
  have hk : (0:ℝ) < (10:ℝ) ^ ((p:ℤ) - e) := by positivity
  have hylo : ((10 ^ p : ℕ) : ℝ) ≤ y := by
    push_cast
    calc (10:ℝ) ^ p = 10 ^ e * 10 ^ ((p:ℤ) - e) := by rw [← zpow_add₀ (by norm_num), ← zpow_natCast]; congr 1; ring
      _ ≤ y := by rw [hy]; gcongr
  have hyhi : y < ((10 ^ (p+1) : ℕ) : ℝ) := by
    push_cast
    calc y < 10 ^ (e+1) * 10 ^ ((p:ℤ) - e) := by rw [hy]; gcongr
      _ = (10:ℝ) ^ (p+1) := by rw [← zpow_add₀ (by norm_num), ← zpow_natCast]; congr 1; push_cast; ring
  have hr := abs_round_toNat_sub hy0
  set m := (roundEven y).toNat with hm
  have hm1 : 10 ^ p ≤ m := nat_of_abs_sub_le hr hylo
  have hm2 : m ≤ 10 ^ (p+1) := nat_le_of_abs_sub_le hr hyhi
  -- the error of the mantissa
  have hinv : (10:ℝ) ^ (e - (p:ℤ)) * 10 ^ ((p:ℤ) - e) = 1 := by rw [← zpow_add₀ (by norm_num)]; simp
  have herr : |(m:ℝ) * 10 ^ (e - (p:ℤ)) - (|x|)| ≤ 1/2 / 10 ^ p * |x| := by
    have h1 : (m:ℝ) * 10 ^ (e - (p:ℤ)) - |x| = ((m:ℝ) - y) * 10 ^ (e - (p:ℤ)) := by
      rw [sub_mul, hy, mul_assoc, mul_comm ((10:ℝ) ^ ((p:ℤ) - e)), hinv, mul_one]
    rw [h1, abs_mul, abs_of_pos (by positivity : (0:ℝ) < 10 ^ (e - (p:ℤ)))]
    calc |(m:ℝ) - y| * 10 ^ (e - (p:ℤ)) ≤ 1/2 * 10 ^ (e - (p:ℤ)) := by gcongr
      _ = 1/2 / 10 ^ p * 10 ^ e := by
        rw [zpow_sub₀ (by norm_num), zpow_natCast]; ring
      _ ≤ 1/2 / 10 ^ p * |x| := by gcongr
  have hsp : sciParts p x = if m = 10 ^ (p+1) then (10 ^ p, e + 1) else (m, e) := by
    unfold sciParts
    rw [if_neg hx]
  rw [hsp]
  by_cases hc : m = 10 ^ (p+1)
  · rw [if_pos hc]
    dsimp only
    refine ⟨le_refl _, by rw [pow_succ]; have := Nat.one_le_pow p 10 (by norm_num); omega, ?_, ?_, Or.inr ⟨?_, ?_, rfl⟩⟩
    · have : ((10 ^ p : ℕ) : ℝ) * 10 ^ (e + 1 - (p:ℤ)) = (m:ℝ) * 10 ^ (e - (p:ℤ)) := by
        rw [hc]; push_cast
        rw [pow_succ, mul_assoc]; congr 1
        rw [← zpow_one_add₀ (by norm_num)]; congr 1; ring
      rw [this]; exact herr
    · exact hhi.trans (by gcongr <;> [norm_num; omega])
    · rw [add_sub_cancel_right]; exact hlo
    · exact hhi
  · rw [if_neg hc]
    dsimp only
    exact ⟨hm1, lt_of_le_of_ne hm2 hc, herr, hhi, Or.inl hlo⟩

theorem sciParts_zero (p : ℕ) : sciParts p 0 = (0, 0) := by unfold sciParts; rw [if_pos rfl]

theorem sciParts_lt (p : ℕ) (x : ℝ) : (sciParts p x).1 < 10 ^ (p + 1) := by
  by_cases hx : x = 0
  · subst hx; rw [sciParts_zero]; positivity
  · exact (sciParts_spec p hx).2.1

theorem sciParts_err (p : ℕ) (x : ℝ) :
    |((sciParts p x).1 : ℝ) / 10 ^ p * 10 ^ (sciParts p x).2 - (|x|)| ≤ 1/2 / 10 ^ p * |x| := by
  by_cases hx : x = 0
  · subst hx; rw [sciParts_zero]; simp
  · have := (sciParts_spec p hx).2.2.1
    rw [zpow_sub₀ (by norm_num), zpow_natCast] at this
    rwa [div_mul_eq_mul_div, mul_div_assoc]

/-- Scientific output reads back with a relative error of at most half a unit of the last printed digit. -/
theorem scan_fmtSci (p : ℕ) (x : ℝ) {t : List Char} (ht : ∀ c ∈ t.head?, isDig c = false) :
    ∃ q : ℚ, scanFloat (fmtSci p x ++ t) = (some q, t) ∧ |(q : ℝ) - x| ≤ 1/2 / 10 ^ p * |x| := by
  refine ⟨_, by rw [fmtSci, signChars_eq]; exact scanFloat_sci _ p _ _ ht, ?_⟩
  have : applySign (decide (x < 0)) (((sciParts p x).1 : ℚ) / 10 ^ p) * 10 ^ (sciParts p x).2 =
      applySign (decide (x < 0)) (((sciParts p x).1 : ℚ) / 10 ^ p * 10 ^ (sciParts p x).2) := by
    unfold applySign; split <;> ring
  rw [this, applySign_cast_sub _ _ (by positivity)]
  push_cast
  exact sciParts_err p x

theorem numberOf_fmtSci (p : ℕ) (x : ℝ) : ∃ q : ℚ, numberOf (fmtSci p x) = some q ∧ |(q : ℝ) - x| ≤ 1/2 / 10 ^ p * |x| := by
  obtain ⟨q, h1, h2⟩ := scan_fmtSci p x (t := []) (by intro c hc; cases hc)
  rw [List.append_nil] at h1
  exact ⟨q, by unfold numberOf; rw [h1], h2⟩

theorem stripZeros_val (p n : ℕ) : ((stripZeros p n).2 : ℚ) / 10 ^ (stripZeros p n).1 = (n : ℚ) / 10 ^ p := by
  induction p generalizing n with
  | zero => rfl
  | succ p ih =>
    unfold stripZeros
    split
    · rename_i h
      rw [ih]
      obtain ⟨k, rfl⟩ := Nat.dvd_of_mod_eq_zero h
      rw [Nat.mul_div_cancel_left _ (by norm_num), pow_succ]
      push_cast; field_simp
    · rfl

/-- Default ("%g") output reads back with a relative error of at most half a unit of the last significant digit. -/
theorem numberOf_fmtGeneral (P : ℕ) (x : ℝ) :
    ∃ q : ℚ, numberOf (fmtGeneral P x) = some q ∧ |(q : ℝ) - x| ≤ 1/2 / 10 ^ (P - 1) * |x| := by
  unfold fmtGeneral
  simp only
  generalize P - 1 = p
  split
  · rename_i hX
    set X := (sciParts p x).2 with hXd
    obtain ⟨hX1, hX2⟩ := hX
    generalize hd : ((p:ℤ) - X).toNat = d
    have hd' : (d : ℤ) = p - X := by omega
    have hscan := scanFloat_fixed (decide (x < 0)) (stripZeros d (roundEven (|x| * 10 ^ d)).toNat).1
      (stripZeros d (roundEven (|x| * 10 ^ d)).toNat).2 Stops.nil
    rw [List.append_nil, ← signChars_eq] at hscan
    refine ⟨_, by unfold numberOf; rw [hscan], ?_⟩
    rw [stripZeros_val, applySign_cast_sub _ _ (by positivity)]
    have hp : (0:ℝ) < 10 ^ d := by positivity
    by_cases hx : x = 0
    · subst hx
      have : roundEven (|0| * 10 ^ d) = 0 := by
        rw [abs_zero, zero_mul]; unfold roundEven; simp
      rw [this]; simp
    obtain ⟨h1, h2, h3, h4, h5⟩ := sciParts_spec p hx
    rw [← hXd] at h3 h4 h5
    have hb := abs_round_toNat_sub (by positivity : 0 ≤ |x| * 10 ^ d)
    have hdz : (10:ℝ) ^ d = 10 ^ ((p:ℤ) - X) := by rw [← hd', zpow_natCast]
    have key : ∀ n : ℕ, |((((n:ℚ) / 10 ^ d : ℚ)) : ℝ) - (|x|)| = |(n:ℝ) - (|x|) * 10 ^ d| / 10 ^ d := by
      intro n
      push_cast
      rw [eq_div_iff hp.ne', ← abs_of_pos hp, ← abs_mul, abs_of_pos hp]
      congr 1
      field_simp
    rw [key]
    rcases h5 with h5 | ⟨h5, h6, h7⟩
    · calc _ ≤ 1/2 / (10:ℝ) ^ d := by gcongr
        _ = 1/2 / 10 ^ p * 10 ^ X := by rw [hdz, zpow_sub₀ (by norm_num), zpow_natCast]; field_simp
        _ ≤ _ := by gcongr
    · -- a carry: the rounded value is the next power of ten
      rw [h7] at h3
      have hz : ((10 ^ p : ℕ) : ℝ) * 10 ^ (X - (p:ℤ)) = 10 ^ X := by
        push_cast; rw [← zpow_natCast, ← zpow_add₀ (by norm_num)]; congr 1; ring
      rw [hz] at h3
      have hxs : |x| * 10 ^ d < ((10 ^ p : ℕ) : ℝ) := by
        push_cast
        calc |x| * 10 ^ d < 10 ^ X * 10 ^ d := by gcongr
          _ = 10 ^ p := by rw [hdz, ← zpow_add₀ (by norm_num), ← zpow_natCast]; congr 1; ring
      have hclose : ((10 ^ p : ℕ) : ℝ) - |x| * 10 ^ d ≤ 1/2 / 10 ^ p * (|x| * 10 ^ d) := by
        have h8 : (10:ℝ) ^ X - |x| ≤ 1/2 / 10 ^ p * |x| := (abs_le.mp h3).2
        calc ((10 ^ p : ℕ) : ℝ) - |x| * 10 ^ d = (10 ^ X - |x|) * 10 ^ d := by
              rw [sub_mul, hdz, ← zpow_add₀ (by norm_num)]; push_cast; rw [← zpow_natCast]; congr 2; ring
          _ ≤ 1/2 / 10 ^ p * |x| * 10 ^ d := by gcongr
          _ = _ := by ring
      -- the scaled value lies less than half a unit below `10 ^ p`, so it is rounded to `10 ^ p`
      have hhalf : ((10 ^ p : ℕ) : ℝ) - |x| * 10 ^ d < 1/2 := by
        have h10p : (0:ℝ) < 10 ^ p := by positivity
        calc ((10 ^ p : ℕ) : ℝ) - |x| * 10 ^ d ≤ 1/2 / 10 ^ p * (|x| * 10 ^ d) := hclose
          _ < 1/2 / 10 ^ p * 10 ^ p := by
            apply mul_lt_mul_of_pos_left _ (by positivity)
            exact_mod_cast hxs
          _ = 1/2 := by field_simp
      have hround : (roundEven (|x| * 10 ^ d)).toNat = 10 ^ p := by
        generalize (roundEven (|x| * 10 ^ d)).toNat = n at hb
        have h9 : n ≤ 10 ^ p := nat_le_of_abs_sub_le hb hxs
        by_contra hne
        have h10 : (n:ℝ) + 1 ≤ ((10 ^ p : ℕ) : ℝ) := by exact_mod_cast lt_of_le_of_ne h9 hne
        rw [abs_le] at hb
        linarith
      rw [hround, abs_of_nonneg (by linarith : (0:ℝ) ≤ ((10 ^ p : ℕ) : ℝ) - |x| * 10 ^ d)]
      calc (((10 ^ p : ℕ) : ℝ) - |x| * 10 ^ d) / 10 ^ d ≤ (1/2 / 10 ^ p * (|x| * 10 ^ d)) / 10 ^ d := by gcongr
        _ = _ := by field_simp
  · have hscan := scanFloat_sci (decide (x < 0)) (stripZeros p (sciParts p x).1).1 (stripZeros p (sciParts p x).1).2
      (sciParts p x).2 (t := []) (by intro c hc; cases hc)
    rw [List.append_nil, ← signChars_eq] at hscan
    refine ⟨_, by unfold numberOf; rw [hscan], ?_⟩
    rw [stripZeros_val]
    have : applySign (decide (x < 0)) (((sciParts p x).1 : ℚ) / 10 ^ p) * 10 ^ (sciParts p x).2 =
        applySign (decide (x < 0)) (((sciParts p x).1 : ℚ) / 10 ^ p * 10 ^ (sciParts p x).2) := by
      unfold applySign; split <;> ring
    rw [this, applySign_cast_sub _ _ (by positivity)]
    push_cast
    exact sciParts_err p x

/-! ## Lengths -/

theorem fracDigits_length (p n : ℕ) : (fracDigits p n).length = if p = 0 then 0 else p + 1 := by
  unfold fracDigits; split <;> simp

/-- Length of a non-negative fixed-point number below `10 ^ k`. -/
theorem fmtFixed_length_le {p k : ℕ} (hk : 1 ≤ k) (hp : p ≠ 0) {x : ℝ} (h0 : 0 ≤ x) (h : x + 1/2 / 10 ^ p < 10 ^ k) :
    (fmtFixed p x).length ≤ k + p + 1 := by
  unfold fmtFixed
  have hs : signChars x = [] := by unfold signChars; rw [if_neg (not_lt.mpr h0)]
  rw [hs, List.nil_append, List.length_append, fracDigits_length, if_neg hp]
  have : (natDigits ((roundEven (|x| * 10 ^ p)).toNat / 10 ^ p)).length ≤ k := by
    apply natDigits_length_le hk
    rw [Nat.div_lt_iff_lt_mul (by positivity)]
    have hr := abs_round_toNat_sub (by positivity : 0 ≤ |x| * 10 ^ p)
    rw [abs_of_nonneg h0] at hr ⊢
    have h10 : (0:ℝ) < 10 ^ p := by positivity
    have : (((roundEven (x * 10 ^ p)).toNat : ℕ) : ℝ) < ((10 ^ k * 10 ^ p : ℕ) : ℝ) := by
      push_cast
      calc (((roundEven (x * 10 ^ p)).toNat : ℕ) : ℝ) ≤ x * 10 ^ p + 1/2 := by rw [abs_le] at hr; linarith
        _ = (x + 1/2 / 10 ^ p) * 10 ^ p := by field_simp
        _ < 10 ^ k * 10 ^ p := by gcongr
    exact_mod_cast this
  omega

/-- Length of a non-negative number in scientific notation with a two or three digit exponent. -/
theorem fmtSci_length_le {p k : ℕ} (hp : p ≠ 0) {x : ℝ} (h0 : 0 ≤ x) (hk : 2 ≤ k) (he : (sciParts p x).2.natAbs < 10 ^ k) :
    (fmtSci p x).length ≤ p + k + 4 := by
  unfold fmtSci
  have hs : signChars x = [] := by unfold signChars; rw [if_neg (not_lt.mpr h0)]
  rw [hs, List.nil_append, List.length_append, List.length_append, fracDigits_length, if_neg hp]
  have h1 : (natDigits ((sciParts p x).1 / 10 ^ p)).length ≤ 1 := by
    apply natDigits_length_le (le_refl 1)
    rw [Nat.div_lt_iff_lt_mul (by positivity), ← pow_add, add_comm]
    exact sciParts_lt p x
  have h2 : (expChars (sciParts p x).2).length ≤ k + 2 := by
    unfold expChars
    simp only [List.length_cons]
    split
    · rename_i h
      rw [List.length_cons]
      have := natDigits_length_le (k := 1) (le_refl 1) (by simpa using h : (sciParts p x).2.natAbs < 10 ^ 1)
      omega
    · have := natDigits_length_le (by omega : 1 ≤ k) he
      omega
  omega

/-- The exponent printed for a number between `10⁻¹⁰⁰⁰⁺¹` and `10⁹⁹⁹`. -/
theorem sciParts_exp_lt (p k : ℕ) {x : ℝ} (hx : x = 0 ∨ ((10:ℝ) ^ (-(k:ℤ) + 1) ≤ |x| ∧ |x| < 10 ^ ((k:ℤ) - 1))) (hk : 0 < k) :
    (sciParts p x).2.natAbs < k := by
  by_cases h0 : x = 0
  · subst h0; rw [sciParts_zero]; simpa using hk
  · rcases hx with hx | ⟨hlo, hhi⟩
    · exact absurd hx h0
    obtain ⟨-, -, -, h4, h5⟩ := sciParts_spec p h0
    have h10 : (1:ℝ) < 10 := by norm_num
    have hA : -(k:ℤ) + 1 < (sciParts p x).2 + 1 := (zpow_lt_zpow_iff_right₀ h10).mp (hlo.trans_lt h4)
    have hB : (sciParts p x).2 - 1 < (k:ℤ) - 1 := by
      apply (zpow_lt_zpow_iff_right₀ h10).mp
      refine lt_of_le_of_lt ?_ hhi
      rcases h5 with h5 | ⟨h5, -, -⟩
      · exact le_trans (by gcongr <;> [norm_num; omega]) h5
      · exact h5
    omega

end Trento
