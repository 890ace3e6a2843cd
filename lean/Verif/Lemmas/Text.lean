import Verif.Model.RealFmt
import Mathlib.Tactic

/-! # Lemmas on digits, number formatting and scanning -/

namespace Trento

/-! ## Digits -/

theorem digitChar_toNat {d : Nat} (h : d < 10) : (digitChar d).toNat = 48 + d := by
  interval_cases d <;> rfl

theorem isDig_digitChar {d : Nat} (h : d < 10) : isDig (digitChar d) = true := by
  unfold isDig
  rw [digitChar_toNat h]
  simp; omega

theorem natDigits_lt {n : Nat} (h : n < 10) : natDigits n = [digitChar n] := by
  rw [natDigits, if_pos h]

theorem natDigits_ge {n : Nat} (h : 10 ≤ n) : natDigits n = natDigits (n / 10) ++ [digitChar (n % 10)] := by
  rw [natDigits, if_neg (by omega)]

theorem natDigits_isDig (n : Nat) : ∀ c ∈ natDigits n, isDig c = true := by
  induction n using Nat.strong_induction_on with
  | _ n ih =>
    by_cases h : n < 10
    · rw [natDigits_lt h]
      intro c hc
      rw [List.mem_singleton] at hc
      rw [hc]; exact isDig_digitChar h
    · rw [natDigits_ge (by omega)]
      intro c hc
      rw [List.mem_append, List.mem_singleton] at hc
      rcases hc with hc | rfl
      · exact ih _ (by omega) c hc
      · exact isDig_digitChar (Nat.mod_lt _ (by norm_num))

theorem natDigits_ne_nil (n : Nat) : natDigits n ≠ [] := by
  by_cases h : n < 10
  · rw [natDigits_lt h]; simp
  · rw [natDigits_ge (by omega)]; simp

theorem digitsW_isDig (p n : Nat) : ∀ c ∈ digitsW p n, isDig c = true := by
  induction p generalizing n with
  | zero => intro c hc; cases hc
  | succ p ih =>
    intro c hc
    unfold digitsW at hc
    rw [List.mem_append, List.mem_singleton] at hc
    rcases hc with hc | rfl
    · exact ih _ c hc
    · exact isDig_digitChar (Nat.mod_lt _ (by norm_num))

@[simp] theorem digitsW_length (p n : Nat) : (digitsW p n).length = p := by
  induction p generalizing n with
  | zero => rfl
  | succ p ih => simp [digitsW, ih]

theorem foldl_digits (s : List Char) (a : Nat) :
    s.foldl (fun a c => 10 * a + (c.toNat - 48)) a = a * 10 ^ s.length + digitsVal s := by
  induction s generalizing a with
  | nil => simp [digitsVal]
  | cons c s ih =>
    unfold digitsVal
    rw [List.foldl_cons, List.foldl_cons, ih, ih (10 * 0 + _)]
    rw [List.length_cons, pow_succ]
    ring

theorem digitsVal_append (a b : List Char) : digitsVal (a ++ b) = digitsVal a * 10 ^ b.length + digitsVal b := by
  unfold digitsVal
  rw [List.foldl_append, foldl_digits]
  rfl

@[simp] theorem digitsVal_nil : digitsVal [] = 0 := rfl

theorem digitsVal_singleton {d : Nat} (h : d < 10) : digitsVal [digitChar d] = d := by
  unfold digitsVal
  simp only [List.foldl_cons, List.foldl_nil]
  rw [digitChar_toNat h]; omega

theorem digitsVal_natDigits (n : Nat) : digitsVal (natDigits n) = n := by
  induction n using Nat.strong_induction_on with
  | _ n ih =>
    by_cases h : n < 10
    · rw [natDigits_lt h, digitsVal_singleton h]
    · rw [natDigits_ge (by omega), digitsVal_append, ih _ (by omega), digitsVal_singleton (Nat.mod_lt _ (by norm_num))]
      simp; omega

theorem digitsVal_digitsW (p n : Nat) : digitsVal (digitsW p n) = n % 10 ^ p := by
  induction p generalizing n with
  | zero => simp [digitsW, Nat.mod_one]
  | succ p ih =>
    unfold digitsW
    rw [digitsVal_append, ih, digitsVal_singleton (Nat.mod_lt _ (by norm_num))]
    simp only [List.length_singleton, pow_one]
    rw [pow_succ, mul_comm (10 ^ p) 10, Nat.mod_mul]
    ring

theorem natDigits_injective {m n : Nat} (h : natDigits m = natDigits n) : m = n := by
  rw [← digitsVal_natDigits m, h, digitsVal_natDigits]

theorem natDigits_length_le {n k : Nat} (hk : 1 ≤ k) (h : n < 10 ^ k) : (natDigits n).length ≤ k := by
  induction k generalizing n with
  | zero => omega
  | succ k ih =>
    by_cases h10 : n < 10
    · rw [natDigits_lt h10]; simp
    · rw [natDigits_ge (by omega), List.length_append, List.length_singleton]
      have hk1 : 1 ≤ k := by
        rcases Nat.eq_zero_or_pos k with rfl | hk0
        · simp at h; omega
        · exact hk0
      have := ih (n := n / 10) hk1 (by rw [pow_succ] at h; omega)
      omega

theorem lt_natDigits_length {n k : Nat} (h : 10 ^ k ≤ n) : k < (natDigits n).length := by
  induction k generalizing n with
  | zero =>
    have := natDigits_ne_nil n
    exact List.length_pos_iff.mpr this
  | succ k ih =>
    have h10 : 10 ≤ n := le_trans (by rw [pow_succ]; have := Nat.one_le_pow k 10 (by norm_num); omega) h
    rw [natDigits_ge h10, List.length_append, List.length_singleton]
    have := ih (n := n / 10) (by rw [pow_succ] at h; omega)
    omega

/-- Exactly `k + 1` digits. -/
theorem natDigits_length_eq {n k : Nat} (h : 10 ^ k ≤ n) (h' : n < 10 ^ (k + 1)) : (natDigits n).length = k + 1 := by
  have := lt_natDigits_length h
  have := natDigits_length_le (by omega) h'
  omega

/-- Padding with zeros gives the fixed width representation. -/
theorem replicate_append_natDigits {p n : Nat} (hp : 1 ≤ p) (h : n < 10 ^ p) :
    List.replicate (p - (natDigits n).length) '0' ++ natDigits n = digitsW p n := by
  induction p generalizing n with
  | zero => omega
  | succ p ih =>
    unfold digitsW
    by_cases h10 : n < 10
    · rw [natDigits_lt h10, Nat.div_eq_of_lt h10, Nat.mod_eq_of_lt h10]
      congr 1
      have hz : ∀ p, digitsW p 0 = List.replicate p '0' := by
        intro p
        induction p with
        | zero => rfl
        | succ p ih =>
          unfold digitsW
          rw [Nat.zero_div, ih, List.replicate_succ']
          rfl
      rw [hz]
      simp
    · have hp1 : 1 ≤ p := by
        rcases Nat.eq_zero_or_pos p with rfl | hk0
        · simp at h; omega
        · exact hk0
      rw [natDigits_ge (by omega), ← ih (n := n / 10) hp1 (by rw [pow_succ] at h; omega)]
      rw [List.length_append, List.length_singleton, ← List.append_assoc]
      congr 3
      omega

/-! ## No white space in numbers -/

/-- Characters that may occur inside a printed number. -/
def NumChar (c : Char) : Prop := isDig c = true ∨ c = '-' ∨ c = '+' ∨ c = '.' ∨ c = 'e'

theorem NumChar.not_space {c : Char} (h : NumChar c) : isSpace c = false := by
  rcases h with h | rfl | rfl | rfl | rfl
  · unfold isDig at h
    simp only [Bool.and_eq_true, decide_eq_true_eq] at h
    unfold isSpace
    have : ∀ d : Char, d.toNat < 48 → ¬ c = d := fun d hd hc => by rw [hc] at h; omega
    simp [this ' ' (by decide), this '\n' (by decide), this '\t' (by decide), this '\r' (by decide),
      this (Char.ofNat 11) (by decide), this (Char.ofNat 12) (by decide)]
  all_goals decide

theorem natDigits_numChar (n : Nat) : ∀ c ∈ natDigits n, NumChar c := fun c hc => Or.inl (natDigits_isDig n c hc)

theorem intDigits_numChar (k : Int) : ∀ c ∈ intDigits k, NumChar c := by
  unfold intDigits
  split
  · intro c hc
    rw [List.mem_cons] at hc
    rcases hc with rfl | hc
    · right; left; rfl
    · exact natDigits_numChar _ c hc
  · exact natDigits_numChar _

theorem intDigits_ne_nil (k : Int) : intDigits k ≠ [] := by
  unfold intDigits
  split
  · simp
  · exact natDigits_ne_nil _

theorem intDigits_ofNat (n : Nat) : intDigits (n : Int) = natDigits n := by
  unfold intDigits
  rw [if_neg (by omega)]; rfl

theorem signChars_numChar (x : ℝ) : ∀ c ∈ signChars x, NumChar c := by
  unfold signChars
  split <;> intro c hc
  · rw [List.mem_singleton] at hc; right; left; exact hc
  · cases hc

theorem fracDigits_numChar (p n : Nat) : ∀ c ∈ fracDigits p n, NumChar c := by
  unfold fracDigits
  split <;> intro c hc
  · cases hc
  · rw [List.mem_cons] at hc
    rcases hc with rfl | hc
    · right; right; right; left; rfl
    · exact Or.inl (digitsW_isDig _ _ c hc)

theorem expChars_numChar (e : ℤ) : ∀ c ∈ expChars e, NumChar c := by
  intro c hc
  unfold expChars at hc
  rw [List.mem_cons, List.mem_cons] at hc
  rcases hc with rfl | rfl | hc
  · right; right; right; right; rfl
  · split
    · right; left; rfl
    · right; right; left; rfl
  · split at hc
    · rw [List.mem_cons] at hc
      rcases hc with rfl | hc
      · left; decide
      · exact natDigits_numChar _ c hc
    · exact natDigits_numChar _ c hc

theorem fmt_numChar (ff : FloatField) (p : Nat) (x : ℝ) : ∀ c ∈ NumFmt.fmt ff p x, NumChar c := by
  cases ff with
  | fixed =>
    show ∀ c ∈ fmtFixed p x, NumChar c
    intro c hc
    unfold fmtFixed at hc
    simp only [List.mem_append] at hc
    rcases hc with (hc | hc) | hc
    · exact signChars_numChar _ c hc
    · exact natDigits_numChar _ c hc
    · exact fracDigits_numChar _ _ c hc
  | scientific =>
    show ∀ c ∈ fmtSci p x, NumChar c
    intro c hc
    unfold fmtSci at hc
    simp only [List.mem_append] at hc
    rcases hc with ((hc | hc) | hc) | hc
    · exact signChars_numChar _ c hc
    · exact natDigits_numChar _ c hc
    · exact fracDigits_numChar _ _ c hc
    · exact expChars_numChar _ c hc
  | general =>
    show ∀ c ∈ fmtGeneral p x, NumChar c
    intro c hc
    unfold fmtGeneral at hc
    simp only at hc
    split at hc
    · simp only [List.mem_append] at hc
      rcases hc with (hc | hc) | hc
      · exact signChars_numChar _ c hc
      · exact natDigits_numChar _ c hc
      · exact fracDigits_numChar _ _ c hc
    · simp only [List.mem_append] at hc
      rcases hc with ((hc | hc) | hc) | hc
      · exact signChars_numChar _ c hc
      · exact natDigits_numChar _ c hc
      · exact fracDigits_numChar _ _ c hc
      · exact expChars_numChar _ c hc

theorem fmt_ne_nil (ff : FloatField) (p : Nat) (x : ℝ) : NumFmt.fmt ff p x ≠ [] := by
  cases ff with
  | fixed =>
    show fmtFixed p x ≠ []
    unfold fmtFixed
    simp [natDigits_ne_nil]
  | scientific =>
    show fmtSci p x ≠ []
    unfold fmtSci
    simp [natDigits_ne_nil]
  | general =>
    show fmtGeneral p x ≠ []
    unfold fmtGeneral
    simp only
    split <;> simp [natDigits_ne_nil]

/-! ## Rounding -/

theorem abs_roundEven_sub (x : ℝ) : |(roundEven x : ℝ) - x| ≤ 1/2 := by
  have h0 := Int.fract_nonneg x
  have h1 := Int.fract_lt_one x
  have hx : x = ⌊x⌋ + Int.fract x := (Int.floor_add_fract x).symm
  unfold roundEven
  split_ifs with h2 h3 h4
  · rw [abs_le]; constructor <;> [linarith; linarith]
  · rw [abs_le]; push_cast; constructor <;> linarith
  · have : Int.fract x = 1/2 := le_antisymm (not_lt.mp h3) (not_lt.mp h2)
    rw [abs_le]; constructor <;> linarith
  · have : Int.fract x = 1/2 := le_antisymm (not_lt.mp h3) (not_lt.mp h2)
    rw [abs_le]; push_cast; constructor <;> linarith

theorem roundEven_nonneg {x : ℝ} (h : 0 ≤ x) : 0 ≤ roundEven x := by
  have hf : 0 ≤ ⌊x⌋ := Int.floor_nonneg.mpr h
  unfold roundEven
  split_ifs <;> omega

theorem roundEven_toNat {x : ℝ} (h : 0 ≤ x) : ((roundEven x).toNat : ℝ) = (roundEven x : ℝ) := by
  have := roundEven_nonneg h
  exact_mod_cast Int.toNat_of_nonneg this

theorem abs_round_toNat_sub {x : ℝ} (h : 0 ≤ x) : |((roundEven x).toNat : ℝ) - x| ≤ 1/2 := by
  rw [roundEven_toNat h]; exact abs_roundEven_sub x

/-! ## Scanning -/

/-- The characters that follow do not continue a number. -/
def Stops (t : List Char) : Prop := ∀ c ∈ t.head?, isDig c = false ∧ c ≠ '.' ∧ c ≠ 'e' ∧ c ≠ 'E'

theorem Stops.nil : Stops [] := by intro c hc; cases hc

theorem takeWhile_digits {s t : List Char} (hs : ∀ c ∈ s, isDig c = true) (ht : ∀ c ∈ t.head?, isDig c = false) :
    (s ++ t).takeWhile isDig = s ∧ (s ++ t).dropWhile isDig = t := by
  have h1 : t.takeWhile isDig = [] := by
    cases t with
    | nil => rfl
    | cons c t => simp [List.takeWhile, ht c (by simp)]
  have h2 : t.dropWhile isDig = t := by
    cases t with
    | nil => rfl
    | cons c t => simp [List.dropWhile, ht c (by simp)]
  constructor
  · rw [List.takeWhile_append_of_pos hs, h1, List.append_nil]
  · rw [List.dropWhile_append_of_pos hs, h2]

theorem scanSign_of_dig {s : List Char} (h : ∀ c ∈ s.head?, c ≠ '-' ∧ c ≠ '+') : scanSign s = (false, s) := by
  match s with
  | [] => rfl
  | c :: s =>
    obtain ⟨h1, h2⟩ := h c (by simp)
    unfold scanSign
    split
    · rename_i heq; injection heq with h3; exact absurd h3 h1
    · rename_i heq; injection heq with h3; exact absurd h3 h2
    · rfl

theorem isDig_not_sign {c : Char} (h : isDig c = true) : c ≠ '-' ∧ c ≠ '+' ∧ c ≠ '.' ∧ c ≠ 'e' ∧ c ≠ 'E' := by
  refine ⟨?_, ?_, ?_, ?_, ?_⟩ <;> (rintro rfl; revert h; decide)

/-- Scanning a signed number made of digits. -/
theorem scanSign_signed (neg : Bool) {s : List Char} (h : ∀ c ∈ s.head?, isDig c = true) :
    scanSign ((if neg then ['-'] else []) ++ s) = (neg, s) := by
  cases neg with
  | true => rfl
  | false =>
    simp only [Bool.false_eq_true, if_false, List.nil_append]
    exact scanSign_of_dig fun c hc => ⟨(isDig_not_sign (h c hc)).1, (isDig_not_sign (h c hc)).2.1⟩

theorem head?_append_of_ne_nil' {s t : List Char} (h : s ≠ []) : (s ++ t).head? = s.head? := by
  cases s with
  | nil => exact absurd rfl h
  | cons c s => rfl

theorem natDigits_head (n : Nat) (t : List Char) : ∀ c ∈ (natDigits n ++ t).head?, isDig c = true := by
  intro c hc
  rw [head?_append_of_ne_nil' (natDigits_ne_nil n)] at hc
  exact natDigits_isDig n c (List.mem_of_mem_head? hc)

theorem scanFrac_fracDigits (p n : Nat) {t : List Char} (ht : ∀ c ∈ t.head?, isDig c = false ∧ c ≠ '.') :
    scanFrac (fracDigits p n ++ t) = (digitsW p n, t) := by
  unfold fracDigits
  split
  · rename_i h; subst h
    show scanFrac t = ([], t)
    match t with
    | [] => rfl
    | c :: t =>
      have := (ht c (by simp)).2
      unfold scanFrac
      split
      · rename_i heq; injection heq with h3; exact absurd h3 this
      · rfl
  · show ((digitsW p n ++ t).takeWhile isDig, (digitsW p n ++ t).dropWhile isDig) = _
    obtain ⟨h1, h2⟩ := takeWhile_digits (digitsW_isDig p n) fun c hc => (ht c hc).1
    rw [h1, h2]

theorem fracDigits_head (p n : Nat) {t : List Char} (ht : ∀ c ∈ t.head?, isDig c = false) :
    ∀ c ∈ (fracDigits p n ++ t).head?, isDig c = false := by
  unfold fracDigits
  split
  · exact ht
  · intro c hc
    simp only [List.cons_append, List.head?_cons, Option.mem_some_iff] at hc
    rw [← hc]; decide

theorem fracDigits_val (p n : Nat) :
    digitsVal (natDigits (n / 10 ^ p) ++ digitsW p n) = n ∧ (digitsW p n).length = p := by
  rw [digitsVal_append, digitsVal_natDigits, digitsVal_digitsW, digitsW_length]
  exact ⟨by rw [mul_comm]; exact Nat.div_add_mod n (10 ^ p), rfl⟩

/-- Scanning a fixed-point number `± n·10⁻ᵖ`. -/
theorem scanFloat_fixed (neg : Bool) (p n : Nat) {t : List Char} (ht : Stops t) :
    scanFloat ((if neg then ['-'] else []) ++ natDigits (n / 10 ^ p) ++ fracDigits p n ++ t) =
      (some (applySign neg ((n : ℚ) / 10 ^ p)), t) := by
  have hstop : ∀ c ∈ t.head?, isDig c = false ∧ c ≠ '.' := fun c hc => ⟨(ht c hc).1, (ht c hc).2.1⟩
  unfold scanFloat
  rw [List.append_assoc, List.append_assoc, scanSign_signed neg (natDigits_head _ _)]
  obtain ⟨h1, h2⟩ := takeWhile_digits (s := natDigits (n / 10 ^ p)) (t := fracDigits p n ++ t) (natDigits_isDig _)
    (fracDigits_head p n fun c hc => (ht c hc).1)
  simp only [h1, h2, scanFrac_fracDigits p n hstop]
  have hne : (natDigits (n / 10 ^ p)).isEmpty = false := by
    rw [List.isEmpty_eq_false_iff]; exact natDigits_ne_nil _
  simp only [hne, Bool.false_and, Bool.false_eq_true, if_false, (fracDigits_val p n).1, (fracDigits_val p n).2]
  have hexp : scanExp t = (none, t) := by
    match t with
    | [] => rfl
    | c :: t =>
      have := ht c (by simp)
      unfold scanExp
      dsimp only
      rw [if_neg]
      rintro (h | h)
      · exact this.2.2.1 h
      · exact this.2.2.2 h
  rw [hexp]

/-- Scanning a number in scientific notation `± n·10⁻ᵖ·10ᵉ`. -/
theorem scanFloat_sci (neg : Bool) (p n : Nat) (e : ℤ) {t : List Char} (ht : ∀ c ∈ t.head?, isDig c = false) :
    scanFloat ((if neg then ['-'] else []) ++ natDigits (n / 10 ^ p) ++ fracDigits p n ++ expChars e ++ t) =
      (some (applySign neg ((n : ℚ) / 10 ^ p) * (10 : ℚ) ^ e), t) := by
  have hdig : ∀ (c : Char), c ∈ (if e.natAbs < 10 then '0' :: natDigits e.natAbs else natDigits e.natAbs) → isDig c = true := by
    intro c hc
    split at hc
    · rw [List.mem_cons] at hc
      rcases hc with rfl | hc
      · decide
      · exact natDigits_isDig _ c hc
    · exact natDigits_isDig _ c hc
  have hval : digitsVal (if e.natAbs < 10 then '0' :: natDigits e.natAbs else natDigits e.natAbs) = e.natAbs := by
    split
    · have : '0' :: natDigits e.natAbs = ['0'] ++ natDigits e.natAbs := rfl
      rw [this, digitsVal_append, digitsVal_natDigits]
      simp [digitsVal]
    · exact digitsVal_natDigits _
  generalize hds : (if e.natAbs < 10 then '0' :: natDigits e.natAbs else natDigits e.natAbs) = ds at hdig hval
  have hne' : ds ≠ [] := by
    rw [← hds]; split
    · simp
    · exact natDigits_ne_nil _
  have hE : expChars e = 'e' :: (if e < 0 then '-' else '+') :: ds := by unfold expChars; rw [hds]
  have hstop : ∀ c ∈ (expChars e ++ t).head?, isDig c = false ∧ c ≠ '.' := by
    intro c hc
    rw [hE] at hc
    simp only [List.cons_append, List.head?_cons, Option.mem_some_iff] at hc
    rw [← hc]; decide
  unfold scanFloat
  rw [List.append_assoc, List.append_assoc, List.append_assoc, scanSign_signed neg (natDigits_head _ _)]
  obtain ⟨h1, h2⟩ := takeWhile_digits (s := natDigits (n / 10 ^ p)) (t := fracDigits p n ++ (expChars e ++ t)) (natDigits_isDig _)
    (fracDigits_head p n fun c hc => (hstop c hc).1)
  simp only [h1, h2, scanFrac_fracDigits p n hstop]
  have hne : (natDigits (n / 10 ^ p)).isEmpty = false := by
    rw [List.isEmpty_eq_false_iff]; exact natDigits_ne_nil _
  simp only [hne, Bool.false_and, Bool.false_eq_true, if_false, (fracDigits_val p n).1, (fracDigits_val p n).2]
  have hexp : scanExp (expChars e ++ t) = (some (decide (e < 0), ds), t) := by
    rw [hE]
    show scanExp ('e' :: (if e < 0 then '-' else '+') :: (ds ++ t)) = _
    unfold scanExp
    dsimp only
    rw [if_pos (Or.inl rfl)]
    have hs : scanSign ((if e < 0 then '-' else '+') :: (ds ++ t)) = (decide (e < 0), ds ++ t) := by
      by_cases h : e < 0
      · rw [if_pos h]; simp [scanSign, h]
      · rw [if_neg h]; simp [scanSign, h]
    obtain ⟨h3, h4⟩ := takeWhile_digits (s := ds) (t := t) hdig ht
    rw [hs]; simp only [h3, h4]
  rw [hexp]
  cases hc : ds with
  | nil => exact absurd hc hne'
  | cons c cs =>
    rw [hc] at hval
    simp only [hval]
    congr 2
    by_cases h : e < 0
    · rw [if_pos (by simpa using h)]
      have : e = -(e.natAbs : ℤ) := by omega
      conv_rhs => rw [this]
      rw [zpow_neg, zpow_natCast]; rfl
    · rw [if_neg (by simpa using h)]
      have : e = (e.natAbs : ℤ) := by omega
      conv_rhs => rw [this]
      rw [zpow_natCast]

end Trento
