import Verif.Spec.Text
import Verif.Lemmas.ReadBack
import Verif.Model.CrossSection

/-! # What a cross section cache file says -/

namespace Trento.Spec

/-- One record: constituent number, nucleon width, constituent width, sigma_NN and the fitted parameter. -/
structure CacheRecord where
  m : ℤ
  w : ℚ
  v : ℚ
  s : ℚ
  sp : ℚ

/-- The integer written as `a`, if `a` is one. -/
def intOf (a : List Char) : Option ℤ :=
  match scanInt a with
  | (some k, []) => some k
  | _ => none

/-- Five words that are the numbers of a record. -/
def RecordWords (ws : List (List Char)) (r : CacheRecord) : Prop :=
  ∃ a b c d e, ws = [a, b, c, d, e] ∧ intOf a = some r.m ∧ numberOf b = some r.w ∧ numberOf c = some r.v ∧
    numberOf d = some r.s ∧ numberOf e = some r.sp

/-- The text consists of the numbers of the records `recs`, separated by white space. -/
def CacheContent (text : List Char) (recs : List CacheRecord) : Prop :=
  ∃ wss, words text = wss.flatten ∧ List.Forall₂ RecordWords wss recs

/-- The text is empty or ends with white space, so that appended characters start a new word. -/
def EndsBlank (text : List Char) : Prop := text = [] ∨ ∃ t c, text = t ++ [c] ∧ isSpace c = true

/-- A record fits a configuration: same constituent number, the other three parameters agree up to 1e-6. -/
def Fits (key : CacheKey ℝ) (r : CacheRecord) : Prop :=
  key.m = r.m ∧ |key.w - r.w| < 1e-6 ∧ |key.v - r.v| < 1e-6 ∧ |key.s - r.s| < 1e-6

open scoped Classical in
/-- The value stored with the first fitting record. -/
noncomputable def lookup (recs : List CacheRecord) (key : CacheKey ℝ) : Option ℝ :=
  (recs.find? fun r => decide (Fits key r)).map fun r => (r.sp : ℝ)

end Trento.Spec
