import Verif.Model.CmdLine
import Verif.Model.Special

/-!
# Real numbers on the command line and in config files

The options `--reduced-thickness`, `--fluctuation`, `--nucleon-width`, `--constit-width`, `--nucleon-min-dist`, `--cross-section`,
`--normalization`, `--b-min`, `--b-max`, `--grid-max` and `--grid-step` are `po::value<double>` (src/trento.cxx:107-150): Boost reads
their texts with `boost::lexical_cast<double>`.  This file models that conversion, written down from Boost's sources
(`boost/lexical_cast/detail/inf_nan.hpp`, `converter_lexical_streams.hpp`) and libstdc++'s `num_get` (`bits/locale_facets.tcc`).
-/

namespace Trento

/-- A `double` as its text denotes it: a number, before rounding, or a special value. -/
inductive TextNumber where
  | finite (q : Rat)
  | inf (neg : Bool)
  | nan

/-- Does `s` begin with `word`, each letter in lower or upper case (`lc_iequal`, boost/lexical_cast/detail/inf_nan.hpp)?  The rest of `s`, if so. -/
def matchWord : List (Char × Char) → List Char → Option (List Char)
  | [], s => some s
  | (l, u) :: w, c :: s => if c = l ∨ c = u then matchWord w s else none
  | _ :: _, [] => none

/-- `"nan"`, `"inf"`, `"infinity"` with their upper case letters (boost/lexical_cast/detail/inf_nan.hpp). -/
def nanWord : List (Char × Char) := [('n','N'), ('a','A'), ('n','N')]
def infWord : List (Char × Char) := [('i','I'), ('n','N'), ('f','F')]
def infinityWord : List (Char × Char) := [('i','I'), ('n','N'), ('f','F'), ('i','I'), ('n','N'), ('i','I'), ('t','T'), ('y','Y')]

/-- `parse_inf_nan_impl` (boost/lexical_cast/detail/inf_nan.hpp): an optional sign; `nan`, possibly followed by something in parentheses; `inf` or `infinity`. -/
def lexSpecial (s : List Char) : Option TextNumber :=
  let (neg, s) := scanSign s
  match matchWord nanWord s with
  | some [] => some .nan
  | some ('(' :: t) => if t.getLast? = some ')' then some .nan else none
  | some _ => none
  | none => if matchWord infWord s = some [] ∨ matchWord infinityWord s = some [] then some (.inf neg) else none

/-- The smallest magnitude that rounds to infinity, halfway between the largest `double` and `2^1024`: from there on `strtod` reports an overflow and libstdc++ sets `failbit`. -/
def overflowBound : Rat := 2 ^ 1024 - 2 ^ 970

/-- `float_types_converter_internal` (boost/lexical_cast/detail/converter_lexical_streams.hpp): a special value, or `stream >> x` without skipping of white space, which must consume everything; a text
whose last character is `e`, `E`, `-` or `+` is rejected. -/
def lexNumber (s : String) : Option TextNumber :=
  match lexSpecial s.toList with
  | some v => some v
  | none =>
    match scanFloat s.toList with
    | (some q, []) =>
      if s.toList.getLast? ∈ [some 'e', some 'E', some '-', some '+'] then none
      else if overflowBound ≤ |q| then none
      else some (.finite q)
    | _ => none

/-- `boostLib` with `boost::lexical_cast<double>`: `special` says what the arithmetic makes of the special values (real numbers have none, so a theorem about `ℝ` can only use `fun _ => none`). -/
def numberLib {F : Type} [Arith F] (special : TextNumber → Option F) (L : Lib F) : Lib F :=
  { boostLib L with toDouble := fun s => (lexNumber s).bind fun v => match v with
      | .finite q => some (lit q)
      | v => special v }

/-- The special values of IEEE arithmetic. -/
def ieeeSpecial : TextNumber → Option XReal
  | .finite q => some (.fin q)
  | .inf neg => some (if neg then .ninf else .pinf)
  | .nan => some .nan

end Trento
