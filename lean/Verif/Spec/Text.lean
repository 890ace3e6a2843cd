import Verif.Model.Text

/-! # How a reader takes output text apart -/

namespace Trento.Spec

/-- Split at white space, collecting the characters `cur` of the current word. -/
def wordsFrom : List Char → List Char → List (List Char)
  | cur, [] => if cur.isEmpty then [] else [cur]
  | cur, c :: s =>
    if isSpace c then (if cur.isEmpty then wordsFrom [] s else cur :: wordsFrom [] s) else wordsFrom (cur ++ [c]) s

/-- The maximal blank-free pieces of a text. -/
def words (s : List Char) : List (List Char) := wordsFrom [] s

/-- Split into lines, collecting the characters `cur` of the current line. -/
def linesFrom : List Char → List Char → List (List Char)
  | cur, [] => if cur.isEmpty then [] else [cur]
  | cur, c :: s => if c = '\n' then cur :: linesFrom [] s else linesFrom (cur ++ [c]) s

/-- The lines of a text. -/
def lines (s : List Char) : List (List Char) := linesFrom [] s

/-- A text as lines, each ended by a newline. -/
def unlines (ls : List (List Char)) : List Char := (ls.map (· ++ ['\n'])).flatten

/-- Numbers are printed as non-empty strings without white space. -/
def PrintsWords (F : Type) [NumFmt F] : Prop :=
  ∀ (ff : FloatField) (p : Nat) (x : F), NumFmt.fmt ff p x ≠ [] ∧ ∀ c ∈ NumFmt.fmt ff p x, isSpace c = false

end Trento.Spec
