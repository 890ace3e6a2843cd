import Verif.Lemmas.Stream
import Verif.Lemmas.Casts

/-! # Text output: C41, C42, C43, C47, C48 -/

namespace Trento
open Spec
set_option linter.unusedSectionVars false

/-! ## C41: event numbers and file names -/

/-- The number of digits of `k`, independently of the printing code. -/
def Spec.numDigits (k : ℕ) : ℕ := Nat.log 10 k + 1

theorem natDigits_length (k : ℕ) : (natDigits k).length = numDigits k := by
  unfold numDigits
  rcases Nat.eq_zero_or_pos k with rfl | hk
  · rw [natDigits_lt (by norm_num)]; simp
  · exact natDigits_length_eq (Nat.pow_log_le_self 10 hk.ne') (Nat.lt_pow_succ_log_self (by norm_num) k)

/-- The width the constructor computes: `⌈log10 N⌉` (exact logarithm) is the number of digits of the largest event number
`N - 1` for `N ≥ 2`, and 0 for `N = 1`; the conversion to `int` is defined for every positive `int`. -/
theorem C41_width {N : ℤ} (h1 : 1 ≤ N) (h2 : N ≤ 2147483647) :
    castInt (ceil (log10 (ofInt N : ℝ))) = .ok (if N = 1 then 0 else (numDigits (N - 1).toNat : ℤ)) := by
  have hNr : (1:ℝ) ≤ (N:ℝ) := by exact_mod_cast h1
  have hN2 : (N:ℝ) ≤ 2147483647 := by exact_mod_cast h2
  have hlog0 : 0 ≤ Real.logb 10 (N:ℝ) := Real.logb_nonneg (by norm_num) hNr
  have hceil : ⌈Real.logb 10 (N:ℝ)⌉ = if N = 1 then 0 else (numDigits (N - 1).toNat : ℤ) := by
    by_cases hN : N = 1
    · subst hN; simp
    · rw [if_neg hN]
      have hk : (N - 1).toNat ≠ 0 := by omega
      have hcast : ((N - 1).toNat : ℝ) = (N:ℝ) - 1 := by
        have : ((N - 1).toNat : ℤ) = N - 1 := by omega
        have h3 : (((N - 1).toNat : ℤ) : ℝ) = ((N - 1 : ℤ) : ℝ) := by rw [this]
        push_cast at h3; exact h3
      have hlo : 10 ^ Nat.log 10 (N-1).toNat ≤ (N-1).toNat := Nat.pow_log_le_self 10 hk
      have hhi : (N-1).toNat < 10 ^ (Nat.log 10 (N-1).toNat + 1) := Nat.lt_pow_succ_log_self (by norm_num) _
      unfold numDigits
      rw [Int.ceil_eq_iff]
      push_cast
      constructor
      · rw [add_sub_cancel_right, Real.lt_logb_iff_rpow_lt (by norm_num) (by linarith), Real.rpow_natCast]
        have : ((10 ^ Nat.log 10 (N-1).toNat : ℕ) : ℝ) ≤ ((N-1).toNat : ℝ) := by exact_mod_cast hlo
        rw [hcast] at this; push_cast at this; linarith
      · rw [Real.logb_le_iff_le_rpow (by norm_num) (by linarith)]
        have h3 : (((N-1).toNat + 1 : ℕ) : ℝ) ≤ ((10 ^ (Nat.log 10 (N-1).toNat + 1) : ℕ) : ℝ) := by exact_mod_cast hhi
        push_cast at h3; rw [hcast] at h3
        have h4 : ((Nat.log 10 (N-1).toNat : ℝ) + 1) = ((Nat.log 10 (N-1).toNat + 1 : ℕ) : ℝ) := by push_cast; ring
        rw [h4, Real.rpow_natCast]; linarith
  have hle : Real.logb 10 (N:ℝ) ≤ 10 := by
    rw [Real.logb_le_iff_le_rpow (by norm_num) (by linarith)]
    have : (10:ℝ) ^ (10:ℝ) = 10 ^ (10:ℕ) := by rw [← Real.rpow_natCast]; norm_num
    rw [this]; norm_num; linarith
  have hc10 : ⌈Real.logb 10 (N:ℝ)⌉ ≤ 10 := by apply Int.ceil_le.mpr; exact_mod_cast hle
  have hc0 : 0 ≤ ⌈Real.logb 10 (N:ℝ)⌉ := Int.ceil_nonneg hlog0
  simp only [ofInt_real, log10_real, ceil_real]
  have hr0 : (0:ℝ) ≤ (⌈Real.logb 10 (N:ℝ)⌉ : ℝ) := by exact_mod_cast hc0
  have hr10 : (⌈Real.logb 10 (N:ℝ)⌉ : ℝ) ≤ 10 := by exact_mod_cast hc10
  rw [castInt_ok (by linarith) (by linarith), if_pos hr0, Int.floor_intCast, hceil]

/-- The width used for `N` events. -/
def Spec.eventWidth (N : ℕ) : ℕ := if N = 1 then 0 else numDigits (N - 1)

theorem textFileName_eq (width num : ℕ) :
    textFileName width num = List.replicate (width - (natDigits num).length) '0' ++ natDigits num ++ ".dat".toList := by
  unfold textFileName
  simp [OStream.setw, OStream.setfill, OStream.int, OStream.str, OStream.put, intDigits_ofNat]

theorem lt_of_lt_eventWidth {N i : ℕ} (hi : i < N) (hN : 1 < N) : i < 10 ^ eventWidth N := by
  unfold eventWidth
  rw [if_neg (by omega)]
  have : N - 1 < 10 ^ numDigits (N-1) := Nat.lt_pow_succ_log_self (by norm_num) _
  omega

theorem textFileName_digitsW {N i : ℕ} (hi : i < N) (hN : 1 < N) :
    textFileName (eventWidth N) i = digitsW (eventWidth N) i ++ ".dat".toList := by
  rw [textFileName_eq, replicate_append_natDigits _ (lt_of_lt_eventWidth hi hN)]
  unfold eventWidth numDigits
  rw [if_neg (by omega)]; omega

theorem digitChar_lt {a b : ℕ} (ha : a < b) (hb : b < 10) : digitChar a < digitChar b := by
  have h1 := digitChar_toNat (d := a) (by omega)
  have h2 := digitChar_toNat (d := b) hb
  have : (digitChar a).toNat < (digitChar b).toNat := by omega
  exact this

theorem lex_append_left {a b s t : List Char} (hl : a.length = b.length) (h : a < b) : a ++ s < b ++ t := by
  induction a generalizing b with
  | nil =>
    cases b with
    | nil => exact absurd h (List.lt_irrefl [])
    | cons c b => simp at hl
  | cons x a ih =>
    cases b with
    | nil => simp at hl
    | cons y b =>
      rw [List.cons_append, List.cons_append]
      rw [List.cons_lt_cons_iff] at h ⊢
      rcases h with h | ⟨h1, h2⟩
      · exact Or.inl h
      · exact Or.inr ⟨h1, ih (by simpa using hl) h2⟩

theorem lex_append_right {a s t : List Char} (h : s < t) : a ++ s < a ++ t := by
  induction a with
  | nil => exact h
  | cons x a ih =>
    rw [List.cons_append, List.cons_append, List.cons_lt_cons_iff]
    exact Or.inr ⟨rfl, ih⟩

theorem digitsW_lt {p i j : ℕ} (hij : i < j) (hj : j < 10 ^ p) : digitsW p i < digitsW p j := by
  induction p generalizing i j with
  | zero => simp at hj; omega
  | succ p ih =>
    unfold digitsW
    have hj' : j / 10 < 10 ^ p := by rw [pow_succ] at hj; omega
    rcases Nat.lt_or_ge (i / 10) (j / 10) with h | h
    · exact lex_append_left (by simp) (ih h hj')
    · have heq : i / 10 = j / 10 := by have := Nat.div_le_div_right (c := 10) hij.le; omega
      rw [heq]
      apply lex_append_right
      rw [List.cons_lt_cons_iff]
      exact Or.inl (digitChar_lt (by omega) (Nat.mod_lt _ (by norm_num)))

/-- **C41.** For `N > 1` events: all file names have the same length (the digits of `N - 1` plus the extension), and the
lexicographic order of the names is the order of the events — in particular the names are pairwise distinct. -/
theorem C41_file_names {N i j : ℕ} (hi : i < N) (hj : j < N) :
    (1 < N → (textFileName (eventWidth N) i).length = numDigits (N - 1) + 4) ∧
    (i < j ↔ textFileName (eventWidth N) i < textFileName (eventWidth N) j) ∧
    (textFileName (eventWidth N) i = textFileName (eventWidth N) j ↔ i = j) := by
  have hlt : ∀ {i j : ℕ}, i < N → j < N → i < j → textFileName (eventWidth N) i < textFileName (eventWidth N) j := by
    intro i j hi hj h
    have hN : 1 < N := by omega
    rw [textFileName_digitsW hi hN, textFileName_digitsW hj hN]
    exact lex_append_left (by simp) (digitsW_lt h (lt_of_lt_eventWidth hj hN))
  refine ⟨?_, ⟨hlt hi hj, ?_⟩, ⟨?_, fun h => by rw [h]⟩⟩
  · intro hN
    rw [textFileName_digitsW hi hN]
    unfold eventWidth
    rw [if_neg (by omega)]
    simp
  · intro h
    rcases Nat.lt_trichotomy i j with h1 | h1 | h1
    · exact h1
    · subst h1; exact absurd h (List.lt_irrefl _)
    · exact absurd h (List.lt_asymm (hlt hj hi h1))
  · intro h
    rcases Nat.lt_trichotomy i j with h1 | h1 | h1
    · exact absurd (h ▸ hlt hi hj h1) (List.lt_irrefl _)
    · exact h1
    · exact absurd (h ▸ hlt hj hi h1) (List.lt_irrefl _)

/-- With a single event the file is `0.dat`; with 11 events the names are `00.dat` … `10.dat`. -/
example : textFileName (eventWidth 1) ((0:ℕ):ℤ) = "0.dat".toList ∧ textFileName (eventWidth 11) ((3:ℕ):ℤ) = "03.dat".toList ∧
    textFileName (eventWidth 11) ((10:ℕ):ℤ) = "10.dat".toList := by
  have h10 : natDigits 10 = ['1', '0'] := by rw [natDigits_ge (by norm_num), natDigits_lt (by norm_num)]; rfl
  refine ⟨?_, ?_, ?_⟩ <;> rw [textFileName_eq]
  · rw [natDigits_lt (by norm_num)]; rfl
  · rw [natDigits_lt (by norm_num)]; norm_num [eventWidth, numDigits]; decide
  · rw [h10]; norm_num [eventWidth, numDigits]; decide

/-! ## C42, C43: the lines on standard output -/

/-- The ranges in which the columns of the standard output line stay apart. -/
structure Spec.Printable (b : ℝ) (npart ncoll : ℕ) (mult : ℝ) (e : Ecc ℝ) : Prop where
  b_nonneg : 0 ≤ b
  b_lt : b < 999.9999999999
  npart_lt : npart < 10 ^ 4
  ncoll_lt : ncoll < 10 ^ 5
  mult_nonneg : 0 ≤ mult
  mult_range : mult = 0 ∨ ((10:ℝ) ^ (-999 : ℤ) ≤ mult ∧ mult < 10 ^ (999 : ℤ))
  ecc : ∀ x ∈ [e.e2, e.e3, e.e4, e.e5], 0 ≤ x ∧ x < 99

theorem fmt_not_space (ff : FloatField) (p : ℕ) (x : ℝ) : ∀ c ∈ NumFmt.fmt ff p x, isSpace c = false :=
  fun c hc => (fmt_numChar ff p x c hc).not_space

theorem intDigits_not_space (k : ℤ) : ∀ c ∈ intDigits k, isSpace c = false :=
  fun c hc => (intDigits_numChar k c hc).not_space

/-- **C42.** Writing an event to standard output appends exactly one line, whatever was written before; split at blanks it has
the fields event number, impact parameter, participants, collisions (only if positive), multiplicity and the four
eccentricities, in this order. -/
theorem C42_line (width num ncoll : ℕ) (b : ℝ) {n : ℕ} (ev : Event ℝ n) {os : OStream} (hos : Plain os)
    (h : Printable b ev.npart ncoll ev.multiplicity ev.ecc) :
    ∃ l, (writeStream width num b ncoll ev os).out = os.out ++ l ++ ['\n'] ∧ '\n' ∉ l ∧
      words l = [intDigits num, NumFmt.fmt .fixed 10 b, intDigits ev.npart] ++
        (if 0 < ncoll then [intDigits ncoll] else []) ++
        [NumFmt.fmt .scientific 10 ev.multiplicity, NumFmt.fmt .fixed 10 ev.ecc.e2, NumFmt.fmt .fixed 10 ev.ecc.e3,
          NumFmt.fmt .fixed 10 ev.ecc.e4, NumFmt.fmt .fixed 10 ev.ecc.e5] := by
  refine ⟨lineText width num b ncoll ev.npart ev.multiplicity ev.ecc, ?_, ?_, ?_⟩
  · rw [writeStream_eq _ _ _ _ _ hos]; simp
  · unfold lineText
    simp only [List.mem_append, not_or]
    have hi : ∀ k (z : ℤ), '\n' ∉ padTo k (intDigits z) := fun k z => nl_not_mem_padTo (intDigits_not_space z)
    have hd : ∀ k ff p (x : ℝ), '\n' ∉ padTo k (NumFmt.fmt ff p x) := fun k ff p x => nl_not_mem_padTo (fmt_not_space ff p x)
    refine ⟨hi _ _, hd _ _ _ _, hi _ _, ?_, hd _ _ _ _, hd _ _ _ _, hd _ _ _ _, hd _ _ _ _, hd _ _ _ _⟩
    split
    · exact hi _ _
    · simp
  · have hb : (NumFmt.fmt FloatField.fixed 10 b).length < 15 := by
      have := fmtFixed_length_le (p := 10) (k := 3) (by norm_num) (by norm_num) h.b_nonneg
        (by have := h.b_lt; norm_num; linarith)
      exact Nat.lt_succ_of_le this
    have hnp : (intDigits (ev.npart : ℤ)).length < 5 := by
      rw [intDigits_ofNat]; have := natDigits_length_le (k := 4) (by norm_num) h.npart_lt; omega
    have hnc : (intDigits (ncoll : ℤ)).length < 6 := by
      rw [intDigits_ofNat]; have := natDigits_length_le (k := 5) (by norm_num) h.ncoll_lt; omega
    have hm : (NumFmt.fmt FloatField.scientific 10 ev.multiplicity).length < 18 := by
      have := fmtSci_length_le (p := 10) (k := 3) (by norm_num) h.mult_nonneg (by norm_num) (by
        apply sciParts_exp_lt 10 (10 ^ 3) _ (by norm_num)
        rcases h.mult_range with h0 | ⟨h1, h2⟩
        · exact Or.inl h0
        · right; rw [abs_of_nonneg h.mult_nonneg]; norm_num at h1 h2 ⊢; exact ⟨h1, h2⟩)
      exact Nat.lt_succ_of_le this
    have he : ∀ x ∈ [ev.ecc.e2, ev.ecc.e3, ev.ecc.e4, ev.ecc.e5], (NumFmt.fmt FloatField.fixed 10 x).length < 14 := by
      intro x hx
      have h1 := h.ecc x hx
      have := fmtFixed_length_le (p := 10) (k := 2) (by norm_num) (by norm_num) h1.1 (by have := h1.2; norm_num; linarith)
      exact Nat.lt_succ_of_le this
    have hnc' : ∀ t : List Char, (∀ c ∈ t.head?, isSpace c = true) →
        (∀ c ∈ ((if (0:ℤ) < ncoll then padTo 6 (intDigits ncoll) else []) ++ t).head?, isSpace c = true) := by
      intro t ht
      split
      · exact padTo_head hnc
      · simpa using ht
    have wi : ∀ (k : ℕ) (z : ℤ) (t : List Char), (∀ c ∈ t.head?, isSpace c = true) → words (padTo k (intDigits z) ++ t) = intDigits z :: words t :=
      fun k z t ht => words_padTo (intDigits_ne_nil z) (intDigits_not_space z) ht
    have wd : ∀ (k : ℕ) (ff : FloatField) (x : ℝ) (t : List Char), (∀ c ∈ t.head?, isSpace c = true) →
        words (padTo k (NumFmt.fmt ff 10 x) ++ t) = NumFmt.fmt ff 10 x :: words t :=
      fun k ff x t ht => words_padTo (fmt_ne_nil ff 10 x) (fmt_not_space ff 10 x) ht
    have t5 := he ev.ecc.e5 (by simp)
    have t4 := he ev.ecc.e4 (by simp)
    have t3 := he ev.ecc.e3 (by simp)
    have t2 := he ev.ecc.e2 (by simp)
    have w5 : words (padTo 14 (NumFmt.fmt FloatField.fixed 10 ev.ecc.e5)) = [NumFmt.fmt FloatField.fixed 10 ev.ecc.e5] := by
      have := wd 14 .fixed ev.ecc.e5 [] (by intro c hc; cases hc)
      rwa [List.append_nil] at this
    have hh5 : ∀ c ∈ (padTo 14 (NumFmt.fmt FloatField.fixed 10 ev.ecc.e5)).head?, isSpace c = true := by
      have := padTo_head (t := []) t5
      rwa [List.append_nil] at this
    unfold lineText
    rw [wi _ _ _ (padTo_head hb), wd _ _ _ _ (padTo_head hnp), wi _ _ _ (hnc' _ (padTo_head hm))]
    have hrest : words (padTo 18 (NumFmt.fmt FloatField.scientific 10 ev.multiplicity) ++
        (padTo 14 (NumFmt.fmt FloatField.fixed 10 ev.ecc.e2) ++ (padTo 14 (NumFmt.fmt FloatField.fixed 10 ev.ecc.e3) ++
          (padTo 14 (NumFmt.fmt FloatField.fixed 10 ev.ecc.e4) ++ padTo 14 (NumFmt.fmt FloatField.fixed 10 ev.ecc.e5))))) =
        [NumFmt.fmt .scientific 10 ev.multiplicity, NumFmt.fmt .fixed 10 ev.ecc.e2, NumFmt.fmt .fixed 10 ev.ecc.e3,
          NumFmt.fmt .fixed 10 ev.ecc.e4, NumFmt.fmt .fixed 10 ev.ecc.e5] := by
      rw [wd _ _ _ _ (padTo_head t2), wd _ _ _ _ (padTo_head t3), wd _ _ _ _ (padTo_head t4), wd _ _ _ _ hh5, w5]
    by_cases hn : 0 < ncoll
    · have hn' : (0:ℤ) < ncoll := by exact_mod_cast hn
      rw [if_pos hn', if_pos hn, wi _ _ _ (padTo_head hm), hrest]; rfl
    · have hn' : ¬ (0:ℤ) < ncoll := by exact_mod_cast hn
      rw [if_neg hn', if_neg hn, List.nil_append, hrest]; rfl

/-- The ranges are met by a realistic event. -/
example : Printable 7.25 402 1234 150.5 ⟨0.3, 0.2, 0.1, 0.05⟩ where
  b_nonneg := by norm_num
  b_lt := by norm_num
  npart_lt := by norm_num
  ncoll_lt := by norm_num
  mult_nonneg := by norm_num
  mult_range := by
    right
    constructor
    · calc (10:ℝ) ^ (-999 : ℤ) ≤ 10 ^ (0 : ℤ) := by gcongr <;> norm_num
        _ ≤ 150.5 := by norm_num
    · calc (150.5:ℝ) < 10 ^ (3 : ℤ) := by norm_num
        _ ≤ 10 ^ (999 : ℤ) := by gcongr <;> norm_num
  ecc := by intro x hx; simp at hx; rcases hx with rfl | rfl | rfl | rfl <;> constructor <;> norm_num

/-- The impact parameter column needs the bound: from `b = 1000` fm on it runs into the event number. -/
theorem C42_columns_merge {b : ℝ} (hb : 1000 ≤ b) : padTo 15 (NumFmt.fmt FloatField.fixed 10 b) = NumFmt.fmt FloatField.fixed 10 b := by
  have : 15 ≤ (NumFmt.fmt FloatField.fixed 10 b).length := by
    show 15 ≤ (fmtFixed 10 b).length
    unfold fmtFixed
    have hs : signChars b = [] := by unfold signChars; rw [if_neg (by linarith)]
    rw [hs, List.nil_append, List.length_append, fracDigits_length, if_neg (by norm_num)]
    have h1 : 3 < (natDigits ((roundEven (|b| * 10 ^ 10)).toNat / 10 ^ 10)).length := by
      apply lt_natDigits_length
      rw [Nat.le_div_iff_mul_le (by positivity)]
      apply nat_of_abs_sub_le (abs_round_toNat_sub (by positivity))
      rw [abs_of_nonneg (by linarith)]
      push_cast; nlinarith
    omega
  unfold padTo
  rw [Nat.sub_eq_zero_of_le this]; rfl

theorem numberOf_intDigits (k : ℤ) : numberOf (intDigits k) = some (k : ℚ) := by
  have h := scanFloat_fixed (decide (k < 0)) 0 k.natAbs (t := []) Stops.nil
  have hs : (if decide (k < 0) then ['-'] else []) ++ natDigits (k.natAbs / 10 ^ 0) ++ fracDigits 0 k.natAbs ++ [] = intDigits k := by
    unfold intDigits fracDigits
    by_cases hk : k < 0 <;> simp [hk]
  rw [hs] at h
  unfold numberOf
  rw [h]
  unfold applySign
  by_cases hk : k < 0
  · simp only [hk, decide_true, if_true, pow_zero, div_one, Option.some.injEq]
    have : (k : ℚ) = -((k.natAbs : ℤ) : ℚ) := by
      have : k = -(k.natAbs : ℤ) := by omega
      exact_mod_cast this
    rw [this, Int.cast_natCast]
  · simp only [hk, decide_false, Bool.false_eq_true, if_false, pow_zero, div_one, Option.some.injEq]
    have : (k : ℚ) = ((k.natAbs : ℤ) : ℚ) := by
      have : k = (k.natAbs : ℤ) := by omega
      exact_mod_cast this
    rw [this, Int.cast_natCast]

/-- **C43.** Reading back the fields of the line (see `C42_line`): integer fields are exact, impact parameter and
eccentricities are off by at most half a unit of the tenth decimal, the multiplicity by at most half a unit of its eleventh
significant digit. -/
theorem C43_read_back (k : ℤ) (x : ℝ) :
    numberOf (intDigits k) = some (k : ℚ) ∧
    (∃ q, numberOf (NumFmt.fmt .fixed 10 x) = some q ∧ |(q:ℝ) - x| ≤ 0.5e-10) ∧
    (∃ q, numberOf (NumFmt.fmt .scientific 10 x) = some q ∧ |(q:ℝ) - x| ≤ 0.5e-10 * |x|) ∧
    (∃ q, numberOf (NumFmt.fmt .general 10 x) = some q ∧ |(q:ℝ) - x| ≤ 0.5e-9 * |x|) ∧
    (∃ q, numberOf (NumFmt.fmt .general 6 x) = some q ∧ |(q:ℝ) - x| ≤ 0.5e-5 * |x|) := by
  refine ⟨numberOf_intDigits k, ?_, ?_, ?_, ?_⟩
  · obtain ⟨q, h1, h2⟩ := numberOf_fmtFixed 10 x
    exact ⟨q, h1, h2.trans (by norm_num)⟩
  · obtain ⟨q, h1, h2⟩ := numberOf_fmtSci 10 x
    exact ⟨q, h1, h2.trans (by gcongr; norm_num)⟩
  · obtain ⟨q, h1, h2⟩ := numberOf_fmtGeneral 10 x
    exact ⟨q, h1, h2.trans (by gcongr; norm_num)⟩
  · obtain ⟨q, h1, h2⟩ := numberOf_fmtGeneral 6 x
    exact ⟨q, h1, h2.trans (by gcongr; norm_num)⟩

/-! ## C47, C48: text files -/

section
variable {F : Type} [Arith F] [NumFmt F]

theorem words_rowText (hp : PrintsWords F) (p : ℕ) (xs : List F) :
    words (rowText p xs) = xs.map (NumFmt.fmt .general p) ∧ '\n' ∉ rowText p xs := by
  induction xs with
  | nil => exact ⟨rfl, by simp [rowText]⟩
  | cons x xs ih =>
    have hx := hp .general p x
    have hnl : '\n' ∉ NumFmt.fmt FloatField.general p x := fun h => by have := hx.2 _ h; revert this; decide
    cases xs with
    | nil =>
      refine ⟨?_, hnl⟩
      have := words_word hx.1 hx.2 (s := []) (by intro c hc; cases hc)
      rw [List.append_nil] at this
      rw [rowText, this]; rfl
    | cons y ys =>
      constructor
      · rw [rowText, words_word hx.1 hx.2 (by intro c hc; simp at hc; rw [← hc]; decide), words_space (by decide), ih.1]
        · rfl
        · simp
      · rw [rowText, List.mem_append, List.mem_cons]
        · rintro (h | h | h)
          · exact hnl h
          · revert h; decide
          · exact ih.2 h
        · simp

/-- Every header line starts with a `#`. -/
theorem headerLines_hash (num : ℤ) (b : F) (ncoll : ℤ) {n : ℕ} (ev : Event F n) :
    ∀ l ∈ headerLines num b ncoll ev, l.head? = some '#' := by
  intro l hl
  unfold headerLines at hl
  by_cases hn : 0 < ncoll
  · simp only [hn, if_true, List.mem_append, List.mem_cons, List.not_mem_nil, or_false] at hl
    rcases hl with ((rfl | rfl | rfl) | rfl) | rfl | rfl | rfl | rfl | rfl <;> rfl
  · simp only [hn, if_false, List.append_nil, List.mem_append, List.mem_cons, List.not_mem_nil, or_false] at hl
    rcases hl with (rfl | rfl | rfl) | rfl | rfl | rfl | rfl | rfl <;> rfl

theorem headerLines_nl (hp : PrintsWords F) (num : ℤ) (b : F) (ncoll : ℤ) {n : ℕ} (ev : Event F n) :
    ∀ l ∈ headerLines num b ncoll ev, '\n' ∉ l := by
  have hi : ∀ k : ℤ, '\n' ∉ intDigits k := fun k h => by have := intDigits_not_space k _ h; revert this; decide
  have hd : ∀ x : F, '\n' ∉ NumFmt.fmt FloatField.general 10 x := fun x h => by have := (hp .general 10 x).2 _ h; revert this; decide
  intro l hl
  unfold headerLines at hl
  by_cases hn : 0 < ncoll
  · simp only [hn, if_true, List.mem_append, List.mem_cons, List.not_mem_nil, or_false] at hl
    rcases hl with ((rfl | rfl | rfl) | rfl) | rfl | rfl | rfl | rfl | rfl <;> simp [hi, hd]
  · simp only [hn, if_false, List.append_nil, List.mem_append, List.mem_cons, List.not_mem_nil, or_false] at hl
    rcases hl with (rfl | rfl | rfl) | rfl | rfl | rfl | rfl | rfl <;> simp [hi, hd]

/-- The grid of any size other than one cell. -/
theorem textGrid_lines (hp : PrintsWords F) (num : ℤ) (b : F) (ncoll : ℤ) {n : ℕ} (h1 : n ≠ 1) (ev : Event F n) (header : Bool) :
    ∃ os head grid, textFileBody num b ncoll ev header {} = .ok os ∧ lines os.out = head ++ grid ∧
      (∀ l ∈ head, l.head? = some '#') ∧ (header = false → head = []) ∧ grid.length = n ∧
      ∀ (iy ix : Fin n), ∃ l, grid[iy.1]? = some l ∧ (words l).length = n ∧
        (words l)[ix.1]? = some (NumFmt.fmt .general (if header then 10 else 6) (ev.TR iy ix)) := by
  refine ⟨_, if header then headerLines num b ncoll ev else [], (gridLists ev.TR).map (rowText (if header then 10 else 6)),
    textFileBody_eq num b ncoll h1 ev header, ?_, ?_, ?_, ?_, ?_⟩
  · dsimp only
    have := lines_unlines (ls := (if header then headerLines num b ncoll ev else []) ++
      (gridLists ev.TR).map (rowText (if header then 10 else 6))) (by
        intro l hl
        rw [List.mem_append] at hl
        rcases hl with hl | hl
        · cases header
          · cases hl
          · exact headerLines_nl hp _ _ _ _ l hl
        · rw [List.mem_map] at hl
          obtain ⟨r, -, rfl⟩ := hl
          exact (words_rowText hp _ r).2) []
    rw [List.append_nil] at this
    rw [this]
    simp [lines, linesFrom]
  · intro l hl
    cases header
    · cases hl
    · exact headerLines_hash _ _ _ _ l hl
  · intro h; rw [h]; rfl
  · rw [List.length_map]; exact (gridLists_length _).1
  · intro iy ix
    refine ⟨rowText (if header then 10 else 6) (List.ofFn fun ix => ev.TR iy ix), ?_, ?_, ?_⟩
    · rw [List.getElem?_map, gridLists, List.getElem?_ofFn]
      simp
    · rw [(words_rowText hp _ _).1]; simp
    · rw [(words_rowText hp _ _).1, List.getElem?_map, List.getElem?_ofFn]
      simp

/-- The one-cell grid: the row loop runs past the end of the row. -/
theorem C47_single_cell_ub (num : ℤ) (b : F) (ncoll : ℤ) (ev : Event F 1) (header : Bool) (os : OStream) :
    ∃ s, textFileBody num b ncoll ev header os = .error (.ub s) := by
  refine ⟨"read past the end of a grid row", ?_⟩
  unfold textFileBody
  simp [gridLists, gridRows, gridRowLoop]

/-- **C47: every grid size.**  Writing the event file of a grid of `n` cells per side has undefined behaviour exactly if
`n = 1`; otherwise the file consists of the header lines (all starting with `#`; none with `--no-header`) followed by exactly `n`
lines; line `iy` has exactly `n` blank-separated entries, entry `ix` being the printed value of cell `(iy, ix)`. -/
theorem C47_text_grid (hp : PrintsWords F) (num : ℤ) (b : F) (ncoll : ℤ) {n : ℕ} (ev : Event F n) (header : Bool) :
    (n = 1 ∧ ∃ s, textFileBody num b ncoll ev header {} = .error (.ub s)) ∨
    (n ≠ 1 ∧ ∃ os head grid, textFileBody num b ncoll ev header {} = .ok os ∧ lines os.out = head ++ grid ∧
      (∀ l ∈ head, l.head? = some '#') ∧ (header = false → head = []) ∧ grid.length = n ∧
      ∀ (iy ix : Fin n), ∃ l, grid[iy.1]? = some l ∧ (words l).length = n ∧
        (words l)[ix.1]? = some (NumFmt.fmt .general (if header then 10 else 6) (ev.TR iy ix))) := by
  by_cases h1 : n = 1
  · subst h1
    exact .inl ⟨rfl, C47_single_cell_ub num b ncoll ev header {}⟩
  · exact .inr ⟨h1, textGrid_lines hp num b ncoll h1 ev header⟩

/-- The lines of the files with and without header. -/
theorem textFile_lines (hp : PrintsWords F) (num : ℤ) (b : F) (ncoll : ℤ) {n : ℕ} (ev : Event F n) (header : Bool) :
    lines (unlines ((if header then headerLines num b ncoll ev else []) ++
      (gridLists ev.TR).map (rowText (if header then 10 else 6)))) =
    (if header then headerLines num b ncoll ev else []) ++ (gridLists ev.TR).map (rowText (if header then 10 else 6)) := by
  have := lines_unlines (ls := (if header then headerLines num b ncoll ev else []) ++
    (gridLists ev.TR).map (rowText (if header then 10 else 6))) (by
      intro l hl
      rw [List.mem_append] at hl
      rcases hl with hl | hl
      · cases header
        · cases hl
        · exact headerLines_nl hp _ _ _ _ l hl
      · rw [List.mem_map] at hl
        obtain ⟨r, -, rfl⟩ := hl
        exact (words_rowText hp _ r).2) []
  rw [List.append_nil] at this
  rw [this]
  simp [lines, linesFrom]

/-- **C48: what `--no-header` changes.**  For every event whose file can be written at all (grid not of one cell): the file written
with `--no-header` is the file written without it minus leading `#` lines exactly if every cell prints the same with six and with
ten significant digits (ten are printed below a header, six without one, see C47); the part below the header then agrees
character by character. -/
theorem C48_no_header (hp : PrintsWords F) (num : ℤ) (b : F) (ncoll : ℤ) {n : ℕ} (h1 : n ≠ 1) (ev : Event F n) :
    ∃ os os', textFileBody num b ncoll ev true {} = .ok os ∧ textFileBody num b ncoll ev false {} = .ok os' ∧
      ((∃ head : List (List Char), (∀ l ∈ head, l.head? = some '#') ∧ lines os.out = head ++ lines os'.out) ↔
        ∀ iy ix, NumFmt.fmt .general 6 (ev.TR iy ix) = NumFmt.fmt .general 10 (ev.TR iy ix)) ∧
      ((∀ iy ix, NumFmt.fmt .general 6 (ev.TR iy ix) = NumFmt.fmt .general 10 (ev.TR iy ix)) →
        ∃ head : List (List Char), (∀ l ∈ head, l.head? = some '#') ∧ os.out = unlines head ++ os'.out) := by
  refine ⟨_, _, textFileBody_eq num b ncoll h1 ev true, textFileBody_eq num b ncoll h1 ev false, ?_⟩
  have e1 := textFile_lines hp num b ncoll ev true
  have e2 := textFile_lines hp num b ncoll ev false
  simp only [if_true, Bool.false_eq_true, if_false, List.nil_append] at e1 e2 ⊢
  rw [e1, e2]
  have hrow : ∀ xs : List F, (∀ x ∈ xs, NumFmt.fmt FloatField.general 6 x = NumFmt.fmt FloatField.general 10 x) → rowText 10 xs = rowText 6 xs := by
    intro xs
    induction xs with
    | nil => intro _; rfl
    | cons x xs ih =>
      intro h
      cases xs with
      | nil => rw [rowText, rowText, h x (by simp)]
      | cons y ys =>
        have e : ∀ p, rowText p (x :: y :: ys) = NumFmt.fmt FloatField.general p x ++ ' ' :: rowText p (y :: ys) := fun p => rfl
        rw [e, e, h x (by simp), ih fun x hx => h x (by simp [hx])]
  have hsame : (∀ iy ix, NumFmt.fmt FloatField.general 6 (ev.TR iy ix) = NumFmt.fmt FloatField.general 10 (ev.TR iy ix)) →
      (gridLists ev.TR).map (rowText 10) = (gridLists ev.TR).map (rowText 6) := by
    intro h
    apply List.map_congr_left
    intro r hr
    unfold gridLists at hr
    rw [List.mem_ofFn] at hr
    obtain ⟨iy, rfl⟩ := hr
    apply hrow
    intro x hx
    rw [List.mem_ofFn] at hx
    obtain ⟨ix, rfl⟩ := hx
    exact h iy ix
  refine ⟨⟨?_, ?_⟩, ?_⟩
  · rintro ⟨head, -, h⟩ iy ix
    have h' := List.append_inj_right' h (by rw [List.length_map, List.length_map])
    have hr : rowText 10 (List.ofFn fun ix => ev.TR iy ix) = rowText 6 (List.ofFn fun ix => ev.TR iy ix) := by
      have := congrArg (fun l => l[iy.1]?) h'
      simpa [gridLists, List.getElem?_ofFn] using this
    have hw := congrArg words hr
    rw [(words_rowText hp _ _).1, (words_rowText hp _ _).1] at hw
    have := congrArg (fun l => l[ix.1]?) hw
    simp only [List.getElem?_map, List.getElem?_ofFn, ix.2, dite_true, Option.map_some, Option.some.injEq] at this
    exact this.symm
  · intro h
    exact ⟨headerLines num b ncoll ev, headerLines_hash _ _ _ _, by rw [hsame h]⟩
  · intro h
    exact ⟨headerLines num b ncoll ev, headerLines_hash _ _ _ _, by rw [hsame h, unlines_append]⟩

end

/-- Exact reals print as words. -/
theorem printsWords_real : PrintsWords ℝ := fun ff p x => ⟨fmt_ne_nil ff p x, fmt_not_space ff p x⟩

theorem sciParts_of_range (p : ℕ) {x : ℝ} (h1 : 1 ≤ x) (h2 : x < 9) : sciParts p x = ((roundEven (x * 10 ^ p)).toNat, 0) := by
  have hlog : ⌊Real.logb 10 |x|⌋ = 0 := by
    rw [abs_of_pos (by linarith), Int.floor_eq_iff]
    constructor
    · push_cast; exact Real.logb_nonneg (by norm_num) h1
    · push_cast
      rw [zero_add, Real.logb_lt_iff_lt_rpow (by norm_num) (by linarith)]
      norm_num; linarith
  unfold sciParts
  rw [if_neg (by linarith)]
  simp only [hlog, sub_zero, zpow_natCast]
  rw [abs_of_pos (by linarith : 0 < x)]
  rw [if_neg]
  intro h
  have hr := abs_round_toNat_sub (by positivity : 0 ≤ x * 10 ^ p)
  rw [h, abs_le] at hr
  have h10 : (1:ℝ) ≤ 10 ^ p := one_le_pow₀ (by norm_num)
  push_cast at hr
  rw [pow_succ] at hr
  nlinarith

theorem roundEven_natCast (k : ℕ) : roundEven (k:ℝ) = k := by
  unfold roundEven
  simp

/-- 1.0000001 is printed as `1` with six significant digits and as `1.0000001` with ten. -/
theorem fmtGeneral_example : fmtGeneral 6 1.0000001 = ['1'] ∧ fmtGeneral 10 1.0000001 = "1.0000001".toList := by
  have hs : signChars 1.0000001 = [] := by unfold signChars; rw [if_neg (by norm_num)]
  have hr : ∀ {x : ℝ} {k : ℕ}, |(k:ℝ) - x| < 1/2 → 0 ≤ x → (roundEven x).toNat = k := by
    intro x k h h0
    have h1 := abs_round_toNat_sub h0
    generalize (roundEven x).toNat = m at h1
    have : |(m:ℝ) - k| < 1 := by
      rw [abs_lt] at h ⊢; rw [abs_le] at h1; constructor <;> linarith
    have h2 : |((m:ℤ) - (k:ℤ) : ℤ)| < 1 := by exact_mod_cast this
    rw [Int.abs_lt_one_iff] at h2; omega
  constructor
  · unfold fmtGeneral
    simp only
    rw [sciParts_of_range _ (by norm_num) (by norm_num), hs, if_pos (by norm_num)]
    have h5 : (roundEven (|(1.0000001:ℝ)| * 10 ^ 5)).toNat = 100000 := hr (by rw [abs_of_pos (by norm_num : (0:ℝ) < 1.0000001)]; norm_num [abs_lt]) (by positivity)
    have hd : (((6 - 1 : ℕ) : ℤ) - 0).toNat = 5 := rfl
    simp only [hd, h5]
    have hz : stripZeros 5 100000 = (0, 1) := by decide
    rw [hz]
    simp [fracDigits, natDigits_lt]
    rfl
  · unfold fmtGeneral
    simp only
    rw [sciParts_of_range _ (by norm_num) (by norm_num), hs, if_pos (by norm_num)]
    have h9 : (roundEven (|(1.0000001:ℝ)| * 10 ^ 9)).toNat = 1000000100 := hr (by rw [abs_of_pos (by norm_num : (0:ℝ) < 1.0000001)]; norm_num [abs_lt]) (by positivity)
    have hd : (((10 - 1 : ℕ) : ℤ) - 0).toNat = 9 := rfl
    simp only [hd, h9]
    have hz : stripZeros 9 1000000100 = (7, 10000001) := by decide
    rw [hz]
    simp [fracDigits, natDigits_lt, digitsW]
    decide

/-- The precision does differ: an event whose grid is printed differently with and without the header. -/
theorem C48_precision_differs : ∃ (ev : Event ℝ 2) (os os' : OStream),
    textFileBody 0 0 0 ev true {} = .ok os ∧ textFileBody 0 0 0 ev false {} = .ok os' ∧
    ¬ ∃ head : List (List Char), (∀ l ∈ head, l.head? = some '#') ∧ lines os.out = head ++ lines os'.out := by
  let ev : Event ℝ 2 := ⟨fun _ _ => 0, fun _ _ => 0, fun _ _ => 1.0000001, 0, 0, 2, 1, ⟨0, 0, 0, 0⟩⟩
  refine ⟨ev, _, _, textFileBody_eq 0 0 0 (by decide) ev true, textFileBody_eq 0 0 0 (by decide) ev false, ?_⟩
  simp only [if_true, Bool.false_eq_true, if_false, List.nil_append]
  have hnl : ∀ p, ∀ l ∈ (gridLists ev.TR).map (rowText p), '\n' ∉ l := by
    intro p l hl
    rw [List.mem_map] at hl
    obtain ⟨r, -, rfl⟩ := hl
    exact (words_rowText printsWords_real p r).2
  have e1 := lines_unlines (ls := headerLines 0 0 0 ev ++ (gridLists ev.TR).map (rowText 10)) (by
    intro l hl
    rw [List.mem_append] at hl
    rcases hl with hl | hl
    · exact headerLines_nl printsWords_real _ _ _ _ l hl
    · exact hnl 10 l hl) []
  have e2 := lines_unlines (hnl 6) []
  rw [List.append_nil] at e1 e2
  rw [e1, e2]
  rintro ⟨head, h1, h2⟩
  have hl : lines ([] : List Char) = [] := rfl
  rw [hl, List.append_nil, List.append_nil] at h2
  have hlast := congrArg List.getLast? h2
  have hg : ∀ p, (gridLists ev.TR).map (rowText p) = [rowText p [(1.0000001:ℝ), 1.0000001], rowText p [(1.0000001:ℝ), 1.0000001]] := by
    intro p
    simp [gridLists, ev, List.ofFn_succ]
  rw [hg, hg] at hlast
  simp only [List.getLast?_append] at hlast
  simp [rowText] at hlast
  have h6 : NumFmt.fmt FloatField.general 6 (1.0000001:ℝ) = ['1'] := fmtGeneral_example.1
  have h10 : NumFmt.fmt FloatField.general 10 (1.0000001:ℝ) = "1.0000001".toList := fmtGeneral_example.2
  rw [h6, h10] at hlast
  revert hlast
  decide

end Trento
