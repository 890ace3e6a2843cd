import Verif.Spec.Text
import Verif.Lemmas.ReadBack
import Verif.Model.Output

/-! # Lemmas on words, lines and stream insertion -/

namespace Trento
open Spec

/-! ## Words and lines -/

theorem wordsFrom_append {w : List Char} (hw : ∀ c ∈ w, isSpace c = false) (cur s : List Char) :
    wordsFrom cur (w ++ s) = wordsFrom (cur ++ w) s := by
  induction w generalizing cur with
  | nil => simp
  | cons c w ih =>
    rw [List.cons_append, wordsFrom, if_neg (by simp [hw c (by simp)]), ih (fun c hc => hw c (by simp [hc]))]
    simp

theorem words_space {c : Char} (hc : isSpace c = true) (s : List Char) : words (c :: s) = words s := by
  unfold words
  rw [wordsFrom, if_pos hc]; rfl

theorem words_blanks {b : List Char} (hb : ∀ c ∈ b, isSpace c = true) (s : List Char) : words (b ++ s) = words s := by
  induction b with
  | nil => rfl
  | cons c b ih => rw [List.cons_append, words_space (hb c (by simp)), ih fun c hc => hb c (by simp [hc])]

/-- A word followed by white space or nothing. -/
theorem words_word {w : List Char} (h0 : w ≠ []) (hw : ∀ c ∈ w, isSpace c = false) {s : List Char}
    (hs : ∀ c ∈ s.head?, isSpace c = true) : words (w ++ s) = w :: words s := by
  unfold words
  rw [wordsFrom_append hw, List.nil_append]
  have h0' : w.isEmpty = false := by rw [List.isEmpty_eq_false_iff]; exact h0
  cases s with
  | nil => simp [wordsFrom, h0']
  | cons c s =>
    have := hs c (by simp)
    rw [wordsFrom, if_pos this, h0', wordsFrom, if_pos this]
    simp

theorem linesFrom_append {w : List Char} (hw : '\n' ∉ w) (cur s : List Char) :
    linesFrom cur (w ++ s) = linesFrom (cur ++ w) s := by
  induction w generalizing cur with
  | nil => simp
  | cons c w ih =>
    rw [List.cons_append, linesFrom, if_neg (fun h => hw (by simp [h])), ih (fun h => hw (by simp [h]))]
    simp

theorem lines_line {w : List Char} (hw : '\n' ∉ w) (s : List Char) : lines (w ++ '\n' :: s) = w :: lines s := by
  unfold lines
  rw [linesFrom_append hw, List.nil_append, linesFrom, if_pos rfl]

theorem lines_unlines {ls : List (List Char)} (h : ∀ l ∈ ls, '\n' ∉ l) (s : List Char) :
    lines (unlines ls ++ s) = ls ++ lines s := by
  induction ls with
  | nil => rfl
  | cons l ls ih =>
    have : unlines (l :: ls) ++ s = l ++ '\n' :: (unlines ls ++ s) := by simp [unlines]
    rw [this, lines_line (h l (by simp)), ih fun l hl => h l (by simp [hl])]
    rfl

theorem unlines_append (a b : List (List Char)) : unlines (a ++ b) = unlines a ++ unlines b := by simp [unlines]
theorem unlines_cons (a : List Char) (b : List (List Char)) : unlines (a :: b) = a ++ '\n' :: unlines b := by simp [unlines]
@[simp] theorem unlines_nil : unlines [] = [] := rfl

/-! ## Padding -/

/-- The field of width `k`. -/
def padTo (k : Nat) (s : List Char) : List Char := List.replicate (k - s.length) ' ' ++ s

theorem padTo_head {k : Nat} {s t : List Char} (h : s.length < k) : ∀ c ∈ (padTo k s ++ t).head?, isSpace c = true := by
  intro c hc
  have : k - s.length = (k - s.length - 1) + 1 := by omega
  unfold padTo at hc
  rw [this, List.replicate_succ] at hc
  simp only [List.cons_append, List.head?_cons, Option.mem_some_iff] at hc
  rw [← hc]; decide

theorem words_padTo {k : Nat} {w : List Char} (h0 : w ≠ []) (hw : ∀ c ∈ w, isSpace c = false) {s : List Char}
    (hs : ∀ c ∈ s.head?, isSpace c = true) : words (padTo k w ++ s) = w :: words s := by
  unfold padTo
  rw [List.append_assoc, words_blanks, words_word h0 hw hs]
  intro c hc
  rw [List.eq_of_mem_replicate hc]; decide

theorem nl_not_mem_padTo {k : Nat} {w : List Char} (hw : ∀ c ∈ w, isSpace c = false) : '\n' ∉ padTo k w := by
  intro h
  unfold padTo at h
  rw [List.mem_append] at h
  rcases h with h | h
  · have := List.eq_of_mem_replicate h
    revert this; decide
  · have := hw _ h
    revert this; decide

/-! ## Stream state -/

/-- The state trento's streams are in between insertions: accepting output, blanks as fill, right adjusted, no pending
width. -/
structure Plain (os : OStream) : Prop where
  good : os.good = true
  fill : os.fill = ' '
  left : os.left = false

theorem put_eq {os : OStream} (h : Plain os) (s : List Char) :
    os.put s = { os with width := 0, out := os.out ++ padTo os.width s } := by
  obtain ⟨h1, h2, h3⟩ := h
  cases os
  simp only at h1 h2 h3
  subst h1 h2 h3
  simp [OStream.put, padTo]

theorem put_good (os : OStream) (s : List Char) : (os.put s).good = os.good := rfl

set_option linter.unusedSectionVars false

section
variable {F : Type} [Arith F] [NumFmt F]

/-- The text of a standard output line: the columns one after the other. -/
def lineText (width : Nat) (num : Int) (b : F) (ncoll : Int) (npart : Nat) (mult : F) (e : Ecc F) : List Char :=
  padTo width (intDigits num) ++ (padTo 15 (NumFmt.fmt .fixed 10 b) ++ (padTo 5 (intDigits npart) ++
    ((if 0 < ncoll then padTo 6 (intDigits ncoll) else []) ++ (padTo 18 (NumFmt.fmt .scientific 10 mult) ++
      (padTo 14 (NumFmt.fmt .fixed 10 e.e2) ++ (padTo 14 (NumFmt.fmt .fixed 10 e.e3) ++
        (padTo 14 (NumFmt.fmt .fixed 10 e.e4) ++ padTo 14 (NumFmt.fmt .fixed 10 e.e5))))))))

/-- `write_stream` appends one line, whatever precision, float format and width were set before. -/
theorem writeStream_eq (width : Nat) (num : Int) (b : F) (ncoll : Int) {n : Nat} (ev : Event F n) {os : OStream} (h : Plain os) :
    writeStream width num b ncoll ev os =
      { prec := 10, float := .fixed, width := 0, fill := ' ', left := false, good := true,
        out := os.out ++ (lineText width num b ncoll ev.npart ev.multiplicity ev.ecc ++ ['\n']) } := by
  obtain ⟨h1, h2, h3⟩ := h
  cases os
  simp only at h1 h2 h3
  subst h1 h2 h3
  unfold writeStream lineText
  by_cases hn : 0 < ncoll
  · simp [OStream.put, OStream.int, OStream.dbl, OStream.setw, OStream.setprecision, OStream.fixed, OStream.scientific, padTo, eccList, hn]
  · simp [OStream.put, OStream.int, OStream.dbl, OStream.setw, OStream.setprecision, OStream.fixed, OStream.scientific, padTo, eccList, hn]

/-- The header lines. -/
def headerLines (num : Int) (b : F) (ncoll : Int) {n : Nat} (ev : Event F n) : List (List Char) :=
  ["# event ".toList ++ intDigits num, "# b     = ".toList ++ NumFmt.fmt .general 10 b,
    "# npart = ".toList ++ intDigits ev.npart] ++
  (if 0 < ncoll then ["# ncoll = ".toList ++ intDigits ncoll] else []) ++
  ["# mult  = ".toList ++ NumFmt.fmt .general 10 ev.multiplicity,
    "# e2    = ".toList ++ NumFmt.fmt .general 10 ev.ecc.e2, "# e3    = ".toList ++ NumFmt.fmt .general 10 ev.ecc.e3,
    "# e4    = ".toList ++ NumFmt.fmt .general 10 ev.ecc.e4, "# e5    = ".toList ++ NumFmt.fmt .general 10 ev.ecc.e5]

theorem writeHeader_eq (num : Int) (b : F) (ncoll : Int) {n : Nat} (ev : Event F n) :
    writeHeader num b ncoll ev {} = { prec := 10, out := unlines (headerLines num b ncoll ev) } := by
  have h2 : intDigits 2 = ['2'] := by rw [intDigits, if_neg (by decide)]; exact natDigits_lt (n := 2) (by decide)
  have h3 : intDigits 3 = ['3'] := by rw [intDigits, if_neg (by decide)]; exact natDigits_lt (n := 3) (by decide)
  have h4 : intDigits 4 = ['4'] := by rw [intDigits, if_neg (by decide)]; exact natDigits_lt (n := 4) (by decide)
  have h5 : intDigits 5 = ['5'] := by rw [intDigits, if_neg (by decide)]; exact natDigits_lt (n := 5) (by decide)
  unfold writeHeader headerLines
  by_cases hn : 0 < ncoll
  · simp [OStream.put, OStream.int, OStream.dbl, OStream.str, OStream.setprecision, eccList, hn, unlines, h2, h3, h4, h5]
  · simp [OStream.put, OStream.int, OStream.dbl, OStream.str, OStream.setprecision, eccList, hn, unlines, h2, h3, h4, h5]

/-- A row of numbers separated by single blanks. -/
def rowText (p : Nat) : List F → List Char
  | [] => []
  | [x] => NumFmt.fmt .general p x
  | x :: xs => NumFmt.fmt .general p x ++ ' ' :: rowText p xs

theorem gridRowLoop_eq (p : Nat) (n : Nat) (xs : List F) (i : Nat) (hn : i + xs.length = n) (h2 : 2 ≤ xs.length) (out : List Char) :
    gridRowLoop n i xs { prec := p, out := out } = .ok { prec := p, out := out ++ (rowText p xs ++ ['\n']) } := by
  induction xs generalizing i out with
  | nil => simp at h2
  | cons x xs ih =>
    have hput : ∀ (out s : List Char), ({ prec := p, out := out } : OStream).put s = { prec := p, out := out ++ s } := by
      intro out s; simp [OStream.put]
    unfold gridRowLoop
    simp only [OStream.dbl, hput]
    cases xs with
    | nil => simp at h2
    | cons y ys =>
      by_cases hy : ys = []
      · subst hy
        simp only [List.length_cons, List.length_nil] at hn
        rw [if_pos (by omega)]
        simp [rowText]
      · have hlen : 1 ≤ ys.length := List.length_pos_iff.mpr hy
        simp only [List.length_cons] at hn ih
        rw [if_neg (by omega), ih (i+1) (by omega) (by omega)]
        simp [rowText]

/-- A failed stream keeps its (empty) text; the loop still runs. -/
theorem gridRowLoop_bad (n : Nat) (xs : List F) (i : Nat) (hn : i + xs.length = n) (h2 : 2 ≤ xs.length) {os : OStream} (hg : os.good = false) :
    ∃ os', gridRowLoop n i xs os = .ok os' ∧ os'.good = false ∧ os'.out = os.out := by
  induction xs generalizing i os with
  | nil => simp at h2
  | cons x xs ih =>
    have hput : ∀ (os : OStream) (s : List Char), os.good = false → (os.put s).good = false ∧ (os.put s).out = os.out := by
      intro os s h; simp [OStream.put, h]
    unfold gridRowLoop
    simp only [OStream.dbl]
    have h1 := hput os (NumFmt.fmt os.float os.prec x) hg
    have h3 := hput _ [' '] h1.1
    cases xs with
    | nil => simp at h2
    | cons y ys =>
      by_cases hy : ys = []
      · subst hy
        simp only [List.length_cons, List.length_nil] at hn
        rw [if_pos (by omega)]
        have h4 := hput _ (NumFmt.fmt ((os.put (NumFmt.fmt os.float os.prec x)).put [' ']).float
          ((os.put (NumFmt.fmt os.float os.prec x)).put [' ']).prec y) h3.1
        have h5 := hput _ ['\n'] h4.1
        exact ⟨_, rfl, h5.1, by rw [h5.2, h4.2, h3.2, h1.2]⟩
      · have hlen : 1 ≤ ys.length := List.length_pos_iff.mpr hy
        simp only [List.length_cons] at hn ih
        rw [if_neg (by omega)]
        obtain ⟨os', h6, h7, h8⟩ := ih (i+1) (by omega) (by omega) h3.1
        exact ⟨os', h6, h7, by rw [h8, h3.2, h1.2]⟩

theorem gridRows_eq (p : Nat) (n : Nat) (h2 : 2 ≤ n) (rows : List (List F)) (hr : ∀ r ∈ rows, r.length = n) (out : List Char) :
    gridRows n rows { prec := p, out := out } = .ok { prec := p, out := out ++ unlines (rows.map (rowText p)) } := by
  induction rows generalizing out with
  | nil => simp [gridRows]
  | cons r rows ih =>
    unfold gridRows
    have hl := hr r (by simp)
    rw [gridRowLoop_eq p n r 0 (by omega) (by omega)]
    dsimp only
    rw [ih fun r h => hr r (by simp [h])]
    simp [unlines]

theorem gridRows_bad (n : Nat) (h2 : 2 ≤ n) (rows : List (List F)) (hr : ∀ r ∈ rows, r.length = n) {os : OStream} (hg : os.good = false) :
    ∃ os', gridRows n rows os = .ok os' := by
  induction rows generalizing os with
  | nil => exact ⟨os, rfl⟩
  | cons r rows ih =>
    unfold gridRows
    have hl := hr r (by simp)
    obtain ⟨os', h3, h4, -⟩ := gridRowLoop_bad n r 0 (by omega) (by omega) hg
    rw [h3]
    exact ih (fun r h => hr r (by simp [h])) h4

theorem gridLists_length {n : Nat} (g : Grid F n) : (gridLists g).length = n ∧ ∀ r ∈ gridLists g, r.length = n := by
  unfold gridLists
  refine ⟨by simp, ?_⟩
  intro r hr
  rw [List.mem_ofFn] at hr
  obtain ⟨i, rfl⟩ := hr
  simp

/-- The rows of a grid that does not have exactly one cell. -/
theorem gridRows_grid (p : Nat) {n : Nat} (h1 : n ≠ 1) (g : Grid F n) (out : List Char) :
    gridRows n (gridLists g) { prec := p, out := out } = .ok { prec := p, out := out ++ unlines ((gridLists g).map (rowText p)) } := by
  by_cases h0 : n = 0
  · subst h0
    have : gridLists g = [] := List.eq_nil_of_length_eq_zero (gridLists_length g).1
    rw [this]
    simp [gridRows, unlines]
  · exact gridRows_eq p n (by omega) _ (gridLists_length _).2 out

theorem gridRows_grid_bad {n : Nat} (h1 : n ≠ 1) (g : Grid F n) {os : OStream} (hg : os.good = false) :
    ∃ os', gridRows n (gridLists g) os = .ok os' := by
  by_cases h0 : n = 0
  · subst h0
    have : gridLists g = [] := List.eq_nil_of_length_eq_zero (gridLists_length g).1
    rw [this]
    exact ⟨os, rfl⟩
  · exact gridRows_bad n (by omega) _ (gridLists_length _).2 hg

/-- The text of an event file, for a grid that does not have exactly one cell. -/
theorem textFileBody_eq (num : Int) (b : F) (ncoll : Int) {n : Nat} (h1 : n ≠ 1) (ev : Event F n) (header : Bool) :
    textFileBody num b ncoll ev header {} =
      .ok { prec := if header then 10 else 6
            out := unlines ((if header then headerLines num b ncoll ev else []) ++
              (gridLists ev.TR).map (rowText (if header then 10 else 6))) } := by
  unfold textFileBody
  cases header with
  | true =>
    simp only [if_true, writeHeader_eq]
    rw [gridRows_grid 10 h1, unlines_append]
  | false =>
    simp only [Bool.false_eq_true, if_false]
    have := gridRows_grid 6 h1 ev.TR []
    rw [this]
    simp

theorem textFileBody_bad (num : Int) (b : F) (ncoll : Int) {n : Nat} (h1 : n ≠ 1) (ev : Event F n) (header : Bool) :
    ∃ os, textFileBody num b ncoll ev header { good := false } = .ok os := by
  unfold textFileBody
  cases header with
  | true =>
    simp only [if_true]
    apply gridRows_grid_bad h1
    unfold writeHeader
    by_cases hn : 0 < ncoll
    · simp [OStream.str, OStream.int, OStream.dbl, eccList, put_good, hn, OStream.setprecision]
    · simp [OStream.str, OStream.int, OStream.dbl, eccList, put_good, hn, OStream.setprecision]
  | false => exact gridRows_grid_bad h1 _ rfl

end
end Trento
