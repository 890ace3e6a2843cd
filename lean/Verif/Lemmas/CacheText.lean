import Verif.Lemmas.Stream
import Verif.Model.CrossSection

/-! # Lemmas on reading the cross section cache -/

namespace Trento
open Spec
set_option linter.unusedSimpArgs false

/-! ## Scanning stops at white space -/

theorem isSpace_not {c : Char} (h : isSpace c = true) :
    isDig c = false ∧ c ≠ '-' ∧ c ≠ '+' ∧ c ≠ '.' ∧ c ≠ 'e' ∧ c ≠ 'E' := by
  simp only [isSpace, Bool.or_eq_true, decide_eq_true_eq] at h
  rcases h with ((((rfl | rfl) | rfl) | rfl) | rfl) | rfl <;> decide

/-- What follows is white space or nothing. -/
def Blank (t : List Char) : Prop := ∀ c ∈ t.head?, isSpace c = true

theorem Blank.nil : Blank [] := by intro c hc; cases hc
theorem Blank.cons {c : Char} (h : isSpace c = true) (t : List Char) : Blank (c :: t) := by
  intro c' hc; simp at hc; rw [← hc]; exact h

theorem takeWhile_append_blank (s : List Char) {t : List Char} (ht : Blank t) :
    (s ++ t).takeWhile isDig = s.takeWhile isDig ∧ (s ++ t).dropWhile isDig = s.dropWhile isDig ++ t := by
  induction s with
  | nil =>
    cases t with
    | nil => exact ⟨rfl, rfl⟩
    | cons c t =>
      have := (isSpace_not (ht c (by simp))).1
      simp [List.takeWhile, List.dropWhile, this]
  | cons c s ih =>
    rw [List.cons_append]
    cases hc : isDig c with
    | true => simp only [List.takeWhile_cons, List.dropWhile_cons, hc, if_true]; exact ⟨by rw [ih.1], ih.2⟩
    | false => simp [List.takeWhile_cons, List.dropWhile_cons, hc]

theorem scanSign_append (s : List Char) {t : List Char} (ht : Blank t) :
    scanSign (s ++ t) = ((scanSign s).1, (scanSign s).2 ++ t) := by
  cases s with
  | nil =>
    have : scanSign t = (false, t) := scanSign_of_dig fun c hc => ⟨(isSpace_not (ht c hc)).2.1, (isSpace_not (ht c hc)).2.2.1⟩
    rw [List.nil_append, this]; rfl
  | cons c s =>
    by_cases h1 : c = '-'
    · subst h1; rfl
    · by_cases h2 : c = '+'
      · subst h2; rfl
      · rw [scanSign_of_dig (s := c :: s ++ t) (by simp; exact ⟨h1, h2⟩), scanSign_of_dig (s := c :: s) (by simp; exact ⟨h1, h2⟩)]

theorem scanFrac_append (s : List Char) {t : List Char} (ht : Blank t) :
    scanFrac (s ++ t) = ((scanFrac s).1, (scanFrac s).2 ++ t) := by
  have other : ∀ u : List Char, (∀ c ∈ u.head?, c ≠ '.') → scanFrac u = ([], u) := by
    intro u hu
    unfold scanFrac
    split
    · exact absurd rfl (hu '.' (by simp))
    · rfl
  cases s with
  | nil => rw [List.nil_append, other t fun c hc => (isSpace_not (ht c hc)).2.2.2.1]; rfl
  | cons c s =>
    by_cases h1 : c = '.'
    · subst h1
      show ((s ++ t).takeWhile isDig, (s ++ t).dropWhile isDig) = ((s.takeWhile isDig), (s.dropWhile isDig) ++ t)
      rw [(takeWhile_append_blank s ht).1, (takeWhile_append_blank s ht).2]
    · rw [other _ (by simp; exact h1), other (c :: s) (by simp; exact h1)]

theorem scanExp_append (s : List Char) {t : List Char} (ht : Blank t) :
    scanExp (s ++ t) = ((scanExp s).1, (scanExp s).2 ++ t) := by
  cases s with
  | nil =>
    cases t with
    | nil => rfl
    | cons c t =>
      have := isSpace_not (ht c (by simp))
      rw [List.nil_append, scanExp, if_neg (by rintro (h | h); exacts [this.2.2.2.2.1 h, this.2.2.2.2.2 h])]
      rfl
  | cons c s =>
    rw [List.cons_append, scanExp, scanExp]
    by_cases h : c = 'e' ∨ c = 'E'
    · rw [if_pos h, if_pos h, scanSign_append s ht]
      simp only
      rw [(takeWhile_append_blank _ ht).1, (takeWhile_append_blank _ ht).2]
    · rw [if_neg h, if_neg h]; rfl

/-- Scanning a number followed by white space or nothing only looks at the number. -/
theorem scanFloat_append (s : List Char) {t : List Char} (ht : Blank t) :
    scanFloat (s ++ t) = ((scanFloat s).1, (scanFloat s).2 ++ t) := by
  unfold scanFloat
  rw [scanSign_append s ht]
  simp only
  rw [(takeWhile_append_blank _ ht).1, (takeWhile_append_blank _ ht).2, scanFrac_append _ ht]
  simp only
  by_cases h : (((scanSign s).2.takeWhile isDig).isEmpty && (scanFrac ((scanSign s).2.dropWhile isDig)).1.isEmpty) = true
  · rw [if_pos h, if_pos h]
  · rw [if_neg h, if_neg h, scanExp_append _ ht]
    generalize scanExp (scanFrac ((scanSign s).2.dropWhile isDig)).2 = r
    obtain ⟨o, u⟩ := r
    cases o with
    | none => rfl
    | some e =>
      obtain ⟨eneg, ds⟩ := e
      cases ds <;> rfl

theorem scanInt_append (s : List Char) {t : List Char} (ht : Blank t) :
    scanInt (s ++ t) = ((scanInt s).1, (scanInt s).2 ++ t) := by
  unfold scanInt
  rw [scanSign_append s ht]
  simp only
  rw [(takeWhile_append_blank _ ht).1, (takeWhile_append_blank _ ht).2]
  by_cases h : ((scanSign s).2.takeWhile isDig).isEmpty = true
  · rw [if_pos h, if_pos h]
  · rw [if_neg h, if_neg h]

/-! ## Words and the unread text -/

theorem wordsFrom_cur (cur s : List Char) (hc : cur ≠ []) :
    wordsFrom cur s = (cur ++ s.takeWhile (fun c => !isSpace c)) :: words (s.dropWhile fun c => !isSpace c) := by
  induction s generalizing cur with
  | nil => rw [wordsFrom, if_neg (by simpa using hc)]; simp [words, wordsFrom]
  | cons c s ih =>
    rw [wordsFrom]
    cases h : isSpace c with
    | true =>
      rw [if_pos rfl, if_neg (by simpa using hc)]
      simp only [List.takeWhile_cons, List.dropWhile_cons, h, Bool.not_true, Bool.false_eq_true, if_false, List.append_nil]
      rw [words_space h]; rfl
    | false =>
      rw [if_neg (by simp), ih _ (by simp)]
      simp [List.takeWhile_cons, List.dropWhile_cons, h]

/-- Skipping white space and taking the next word. -/
theorem words_cons_split {s a : List Char} {l : List (List Char)} (h : words s = a :: l) :
    ∃ t, s.dropWhile isSpace = a ++ t ∧ Blank t ∧ words t = l ∧ a ≠ [] := by
  induction s with
  | nil => simp [words, wordsFrom] at h
  | cons c s ih =>
    cases hc : isSpace c with
    | true =>
      rw [words_space hc] at h
      obtain ⟨t, h1, h2⟩ := ih h
      exact ⟨t, by rw [List.dropWhile_cons, if_pos hc, h1], h2⟩
    | false =>
      unfold words at h
      rw [wordsFrom, if_neg (by simp [hc]), List.nil_append, wordsFrom_cur _ _ (by simp)] at h
      injection h with h1 h2
      refine ⟨s.dropWhile fun c => !isSpace c, ?_, ?_, h2, by rw [← h1]; simp⟩
      · rw [List.dropWhile_cons, if_neg (by simp [hc]), ← h1]
        simp
      · intro c' hc'
        have := List.head?_dropWhile_not (fun c => !isSpace c) s
        rw [Option.mem_def.mp hc'] at this
        simpa using this

theorem words_nil_iff {s : List Char} : words s = [] ↔ s.dropWhile isSpace = [] := by
  induction s with
  | nil => exact ⟨fun _ => rfl, fun _ => rfl⟩
  | cons c s ih =>
    cases hc : isSpace c with
    | true => rw [words_space hc, List.dropWhile_cons, if_pos hc]; exact ih
    | false =>
      rw [List.dropWhile_cons, if_neg (by simp [hc])]
      constructor
      · intro h
        unfold words at h
        rw [wordsFrom, if_neg (by simp [hc]), List.nil_append, wordsFrom_cur _ _ (by simp)] at h
        cases h
      · intro h; cases h

/-- Words of a text that ends with white space. -/
theorem words_append_of_blank_end (s t : List Char) (h : s = [] ∨ ∃ s' c, s = s' ++ [c] ∧ isSpace c = true) :
    words (s ++ t) = words s ++ words t := by
  have key : ∀ (s cur : List Char) (c : Char), isSpace c = true →
      wordsFrom cur (s ++ [c] ++ t) = wordsFrom cur (s ++ [c]) ++ words t := by
    intro s
    induction s with
    | nil =>
      intro cur c hc
      simp only [List.nil_append, List.singleton_append, wordsFrom, hc, if_true]
      split <;> simp [words]
    | cons d s ih =>
      intro cur c hc
      simp only [List.cons_append, wordsFrom]
      have := fun cur => ih cur c hc
      simp only [List.append_assoc, List.singleton_append] at this ⊢
      split
      · split <;> simp [this]
      · exact this _
  rcases h with rfl | ⟨s', c, rfl, hc⟩
  · rfl
  · exact key s' [] c hc

/-! ## Extraction -/

section
variable {α : Type}

/-- Extracting from a stream whose next word is a number. -/
theorem extract_word (zero : α) (scan : List Char → Option α × List Char)
    (happ : ∀ (s t : List Char), Blank t → scan (s ++ t) = ((scan s).1, (scan s).2 ++ t))
    {s a : List Char} {l : List (List Char)} {v : α} (hs : words s = a :: l) (ha : scan a = (some v, [])) :
    ∃ t, IStream.extract zero scan { rest := s } = (some v, { rest := t, eof := t.isEmpty }) ∧ words t = l := by
  obtain ⟨t, h1, h2, h3, h4⟩ := words_cons_split hs
  refine ⟨t, ?_, h3⟩
  unfold IStream.extract
  have : (a ++ t).isEmpty = false := by rw [List.isEmpty_eq_false_iff]; simp [h4]
  simp only [Bool.or_self, Bool.false_eq_true, if_false, h1, this, happ a t h2, ha, List.nil_append]

/-- Extracting from an exhausted stream: the variable is not assigned. -/
theorem extract_blank (zero : α) (scan : List Char → Option α × List Char) {s : List Char} (hs : words s = []) :
    IStream.extract zero scan { rest := s } = (none, { rest := [], eof := true, fail := true }) := by
  unfold IStream.extract
  simp [words_nil_iff.mp hs]

theorem extract_bad (zero : α) (scan : List Char → Option α × List Char) {is : IStream} (h : (is.eof || is.fail) = true) :
    IStream.extract zero scan is = (none, { is with fail := true }) := by
  unfold IStream.extract
  rw [if_pos h]

end

theorem scanF_append {F : Type} [Arith F] (s t : List Char) (ht : Blank t) :
    (scanF (s ++ t) : Option F × List Char) = ((scanF (F := F) s).1, (scanF (F := F) s).2 ++ t) := by
  unfold scanF
  rw [scanFloat_append s ht]
  generalize scanFloat s = r
  obtain ⟨o, u⟩ := r
  cases o <;> rfl

end Trento
