import Verif.Model.Arith

/-!
# Formatted text output and input (std::ostream / std::istream)

trento writes numbers with `operator<<` and reads the cross section cache with `operator>>`.  This file models the part of
the C++ stream library used by src/output.cxx:25-88 and src/nucleon.cxx:202-241: formatting state (precision, float format,
field width, fill, adjustment), padding, and the scanning of numbers (`std::num_get`, libstdc++ behaviour).
Text is a list of characters.
-/

namespace Trento

/-! ## Integers -/

/-- The character of a decimal digit. -/
def digitChar (d : Nat) : Char := Char.ofNat (48 + d)

/-- Decimal digits of a natural number, no leading zeros ("%d"). -/
def natDigits (n : Nat) : List Char :=
  if n < 10 then [digitChar n] else natDigits (n / 10) ++ [digitChar (n % 10)]
decreasing_by omega

/-- The last `p` decimal digits of `n`, with leading zeros. -/
def digitsW : Nat → Nat → List Char
  | 0, _ => []
  | p+1, n => digitsW p (n / 10) ++ [digitChar (n % 10)]

/-- Decimal representation of an `int` ("%d"); also `std::to_string(int)` (src/output.cxx:125, 159). -/
def intDigits (k : Int) : List Char :=
  if k < 0 then '-' :: natDigits k.natAbs else natDigits k.natAbs

/-! ## Output streams -/

/-- `std::ios_base::floatfield`: default, `std::fixed` or `std::scientific`. -/
inductive FloatField where
  | general | fixed | scientific
  deriving DecidableEq, Repr

/-- The conversion of a `double` to characters: "%.{p}g", "%.{p}f" or "%.{p}e".  No laws. -/
class NumFmt (F : Type) where
  fmt : FloatField → Nat → F → List Char

/-- An output stream: formatting state, whether it accepts output (a file stream that could not be opened does not) and the
characters written so far.  The defaults are those of a fresh stream ([basic.ios.cons]). -/
structure OStream where
  prec : Nat := 6
  float : FloatField := .general
  width : Nat := 0
  fill : Char := ' '
  left : Bool := false
  good : Bool := true
  out : List Char := []

namespace OStream
variable {F : Type} [NumFmt F]

/-- Formatted insertion of given characters: pad to the field width on the left (or, with `std::left`, on the right) and
reset the width to 0. -/
def put (s : List Char) (os : OStream) : OStream :=
  let pad := List.replicate (os.width - s.length) os.fill
  { os with width := 0, out := if os.good then os.out ++ (if os.left then s ++ pad else pad ++ s) else os.out }

/-- `os << "…"`. -/
def str (s : String) (os : OStream) : OStream := os.put s.toList
/-- `os << int`. -/
def int (k : Int) (os : OStream) : OStream := os.put (intDigits k)
/-- `os << double`. -/
def dbl (x : F) (os : OStream) : OStream := os.put (NumFmt.fmt os.float os.prec x)
/-- `os << std::setw(n)`. -/
def setw (n : Nat) (os : OStream) : OStream := { os with width := n }
/-- `os << std::setprecision(n)`. -/
def setprecision (n : Nat) (os : OStream) : OStream := { os with prec := n }
/-- `os << std::setfill(c)`. -/
def setfill (c : Char) (os : OStream) : OStream := { os with fill := c }
/-- `os << std::fixed`. -/
def fixed (os : OStream) : OStream := { os with float := .fixed }
/-- `os << std::scientific`. -/
def scientific (os : OStream) : OStream := { os with float := .scientific }
/-- `os << std::left`. -/
def setLeft (os : OStream) : OStream := { os with left := true }
/-- `os << std::right`. -/
def setRight (os : OStream) : OStream := { os with left := false }

end OStream

/-! ## Input streams -/

/-- An input stream with its unread characters. -/
structure IStream where
  rest : List Char
  eof : Bool := false
  fail : Bool := false

/-- `std::isspace` in the "C" locale. -/
def isSpace (c : Char) : Bool :=
  c = ' ' || c = '\n' || c = '\t' || c = '\r' || c = Char.ofNat 11 || c = Char.ofNat 12

/-- Decimal digit test. -/
def isDig (c : Char) : Bool := 48 ≤ c.toNat && c.toNat ≤ 57

/-- Value of a digit string. -/
def digitsVal (s : List Char) : Nat := s.foldl (fun a c => 10 * a + (c.toNat - 48)) 0

/-- An optional sign: `true` for minus. -/
def scanSign : List Char → Bool × List Char
  | '-' :: s => (true, s)
  | '+' :: s => (false, s)
  | s => (false, s)

/-- An optional fraction: its digits and the rest. -/
def scanFrac : List Char → List Char × List Char
  | '.' :: s => (s.takeWhile isDig, s.dropWhile isDig)
  | s => ([], s)

/-- An optional exponent: its sign, its digits and the rest. -/
def scanExp : List Char → Option (Bool × List Char) × List Char
  | c :: s =>
    if c = 'e' ∨ c = 'E' then
      (some ((scanSign s).1, (scanSign s).2.takeWhile isDig), (scanSign s).2.dropWhile isDig)
    else (none, c :: s)
  | [] => (none, [])

/-- Signed value. -/
def applySign (neg : Bool) (q : Rat) : Rat := if neg then -q else q

/-- Scan a floating point number: optional sign, digits, optional fraction, optional exponent (after at least one digit).
`none` if there is no digit or an exponent without digits.  Simplification: no overflow to infinity; the words `inf` and
`nan` are not accepted (libstdc++ does not accept them either). -/
def scanFloat (s : List Char) : Option Rat × List Char :=
  let (neg, s) := scanSign s
  let whole := s.takeWhile isDig
  let s := s.dropWhile isDig
  let (frac, s) := scanFrac s
  if whole.isEmpty && frac.isEmpty then (none, s)
  else
    let mant : Rat := applySign neg ((digitsVal (whole ++ frac) : Rat) / 10 ^ frac.length)
    match scanExp s with
    | (none, s) => (some mant, s)
    | (some (_, []), s) => (none, s)
    | (some (eneg, ds), s) => (some (if eneg then mant / 10 ^ digitsVal ds else mant * 10 ^ digitsVal ds), s)

/-- Scan an integer: optional sign, digits.  Simplification: no overflow check. -/
def scanInt (s : List Char) : Option Int × List Char :=
  let (neg, s) := scanSign s
  let ds := s.takeWhile isDig
  let s := s.dropWhile isDig
  if ds.isEmpty then (none, s) else (some (if neg then -(digitsVal ds : Int) else digitsVal ds), s)

/-- `is >> x` for an arithmetic type with scanner `scan`: if the stream is not good nothing is read and `failbit` is set;
otherwise skip white space; at the end of input set `eofbit` and `failbit`, leaving the variable alone; else scan, set
`eofbit` if the scan consumed all characters, and on failure set `failbit` and store 0 (C++11).
The first component is the new value of the variable, if it is assigned. -/
def IStream.extract {α : Type} (zero : α) (scan : List Char → Option α × List Char) (is : IStream) : Option α × IStream :=
  if is.eof || is.fail then (none, { is with fail := true })
  else
    let s := is.rest.dropWhile isSpace
    if s.isEmpty then (none, { rest := [], eof := true, fail := true })
    else
      match scan s with
      | (some v, s) => (some v, { rest := s, eof := s.isEmpty, fail := false })
      | (none, s) => (some zero, { rest := s, eof := s.isEmpty, fail := true })

end Trento
