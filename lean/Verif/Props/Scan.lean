import Verif.Lemmas.CacheText

/-! # C53: how numbers are separated in a cache file -/

namespace Trento

theorem isSpace_iff (c : Char) : isSpace c = true ↔ c ∈ ['\t', '\n', '\x0b', '\x0c', '\r', ' '] := by
  have h1 : Char.ofNat 11 = '\x0b' := rfl
  have h2 : Char.ofNat 12 = '\x0c' := rfl
  unfold isSpace
  rw [h1, h2]
  simp only [Bool.or_eq_true, decide_eq_true_eq, List.mem_cons, List.not_mem_nil, or_false]
  tauto

theorem isDig_iff (c : Char) : isDig c = true ↔ c ∈ "0123456789".toList := by
  have hl : "0123456789".toList = ['0', '1', '2', '3', '4', '5', '6', '7', '8', '9'] := rfl
  rw [hl]
  unfold isDig
  simp only [Bool.and_eq_true, decide_eq_true_eq]
  constructor
  · rintro ⟨h1, h2⟩
    have hc : c = Char.ofNat c.toNat := (Char.ofNat_toNat c).symm
    rw [hc]
    generalize c.toNat = n at h1 h2
    interval_cases n <;> decide
  · intro h
    simp only [List.mem_cons, List.not_mem_nil, or_false] at h
    rcases h with rfl | rfl | rfl | rfl | rfl | rfl | rfl | rfl | rfl | rfl <;> decide

/-- **C53, separators.** Before a number exactly the characters tab, newline, vertical tab, form feed, carriage return and blank are
skipped; any other character that cannot start a number makes the extraction fail without being consumed, storing 0. -/
theorem C53_separators (c : Char) (s : List Char) :
    (c ∈ ['\t', '\n', '\x0b', '\x0c', '\r', ' '] → ∀ {α : Type} (zero : α) (scan : List Char → Option α × List Char),
      IStream.extract zero scan { rest := c :: s } = IStream.extract zero scan { rest := s }) ∧
    (c ∉ ['\t', '\n', '\x0b', '\x0c', '\r', ' '] → c ∉ "0123456789+-".toList →
      IStream.extract 0 scanInt { rest := c :: s } = (some 0, { rest := c :: s, eof := false, fail := true })) := by
  constructor
  · intro hc α zero scan
    have hc' := (isSpace_iff c).mpr hc
    unfold IStream.extract
    simp [List.dropWhile, hc']
  · intro hc hd
    have hc' : isSpace c = false := by
      rw [← Bool.not_eq_true, isSpace_iff]; exact hc
    have hl : "0123456789+-".toList = "0123456789".toList ++ ['+', '-'] := rfl
    rw [hl, List.mem_append, not_or] at hd
    have hdig : isDig c = false := by
      rw [← Bool.not_eq_true, isDig_iff]; exact hd.1
    have hs : scanSign (c :: s) = (false, c :: s) := scanSign_of_dig (by
      intro d hd'
      simp only [List.head?_cons, Option.mem_def, Option.some.injEq] at hd'
      subst hd'
      have := hd.2
      simp only [List.mem_cons, List.not_mem_nil, or_false, not_or] at this
      exact ⟨this.2, this.1⟩)
    have hsc : scanInt (c :: s) = (none, c :: s) := by
      unfold scanInt
      rw [hs]
      simp [List.takeWhile, List.dropWhile, hdig]
    unfold IStream.extract
    simp only [List.dropWhile, hc', hsc]
    simp

/-- **C53, where an integer ends.** Reading the decimal digits of `n` (with an optional minus sign) gives the number and stops before the next character
exactly when that is not one of 0 … 9. -/
theorem C53_integer_ends (n : ℕ) (c : Char) (t : List Char) :
    (c ∉ "0123456789".toList → scanInt (natDigits n ++ c :: t) = (some (n : ℤ), c :: t) ∧
      scanInt ('-' :: natDigits n ++ c :: t) = (some (-(n : ℤ)), c :: t)) ∧
    (c ∈ "0123456789".toList → (scanInt (natDigits n ++ c :: t)).2.length ≤ t.length) := by
  have h1 := natDigits_isDig n
  have hsign : ∀ t, scanSign (natDigits n ++ t) = (false, natDigits n ++ t) := by
    intro t
    apply scanSign_of_dig
    intro d hd
    have := isDig_not_sign (natDigits_head n t d hd)
    exact ⟨this.1, this.2.1⟩
  have hne : (natDigits n).isEmpty = false := by
    cases h : natDigits n with
    | nil => exact absurd h (natDigits_ne_nil n)
    | cons a l => rfl
  constructor
  · intro hc
    have hdig : isDig c = false := by
      rw [← Bool.not_eq_true, isDig_iff]; exact hc
    obtain ⟨h2, h3⟩ := takeWhile_digits (t := c :: t) h1 (by intro d hd; simp at hd; rw [← hd]; exact hdig)
    constructor
    · unfold scanInt
      rw [hsign]
      dsimp only
      rw [h2, h3, hne, digitsVal_natDigits]
      simp
    · unfold scanInt
      rw [List.cons_append, scanSign]
      dsimp only
      rw [h2, h3, hne, digitsVal_natDigits]
      simp
  · intro hc
    have hdig : isDig c = true := (isDig_iff c).mpr hc
    have hd : (natDigits n ++ c :: t).dropWhile isDig = t.dropWhile isDig := by
      rw [List.dropWhile_append_of_pos h1, List.dropWhile_cons_of_pos hdig]
    have : (scanInt (natDigits n ++ c :: t)).2 = t.dropWhile isDig := by
      unfold scanInt
      rw [hsign]
      dsimp only
      split <;> exact hd
    rw [this]
    exact (List.dropWhile_suffix isDig).length_le

/-- Concretely: a colon is not a digit, and a vertical tab separates. -/
example : scanInt "3:4".toList = (some 3, ":4".toList) := by
  have h := ((C53_integer_ends 3 ':' ['4']).1 (by decide)).1
  rw [natDigits_lt (by norm_num)] at h
  exact h

end Trento
