import Verif.Model.Text
import Verif.Model.RealArith

/-!
# Number formatting at exact reals

The C library conversions "%.{p}f", "%.{p}e" and "%.{p}g" for a real number: round to nearest (ties to even) at the requested
digit and print the decimal digits (C11 7.21.6.1).  glibc performs exactly this for finite doubles.
-/

namespace Trento

open scoped Classical in
/-- Round to the nearest integer, ties to even. -/
noncomputable def roundEven (x : ℝ) : ℤ :=
  if Int.fract x < 1/2 then ⌊x⌋ else if 1/2 < Int.fract x then ⌊x⌋ + 1 else if ⌊x⌋ % 2 = 0 then ⌊x⌋ else ⌊x⌋ + 1

/-- "." and the last `p` digits of `n`, nothing for `p = 0`. -/
def fracDigits (p n : Nat) : List Char := if p = 0 then [] else '.' :: digitsW p n

open scoped Classical in
/-- The sign character. -/
noncomputable def signChars (x : ℝ) : List Char := if x < 0 then ['-'] else []

/-- "%.{p}f". -/
noncomputable def fmtFixed (p : Nat) (x : ℝ) : List Char :=
  signChars x ++ natDigits ((roundEven (|x| * 10 ^ p)).toNat / 10 ^ p) ++ fracDigits p (roundEven (|x| * 10 ^ p)).toNat

open scoped Classical in
/-- Mantissa (an integer of `p + 1` digits) and decimal exponent of "%.{p}e". -/
noncomputable def sciParts (p : Nat) (x : ℝ) : ℕ × ℤ :=
  if x = 0 then (0, 0)
  else
    let e := ⌊Real.logb 10 |x|⌋
    let m := (roundEven (|x| * 10 ^ ((p : ℤ) - e))).toNat
    if m = 10 ^ (p + 1) then (10 ^ p, e + 1) else (m, e)

/-- The exponent part: sign and at least two digits. -/
def expChars (e : ℤ) : List Char :=
  'e' :: (if e < 0 then '-' else '+') :: (if e.natAbs < 10 then '0' :: natDigits e.natAbs else natDigits e.natAbs)

/-- "%.{p}e". -/
noncomputable def fmtSci (p : Nat) (x : ℝ) : List Char :=
  signChars x ++ natDigits ((sciParts p x).1 / 10 ^ p) ++ fracDigits p (sciParts p x).1 ++ expChars (sciParts p x).2

/-- Number of trailing zeros to drop among the `p` fraction digits of `n`. -/
def stripZeros : Nat → Nat → Nat × Nat
  | 0, n => (0, n)
  | p+1, n => if n % 10 = 0 then stripZeros p (n / 10) else (p+1, n)

open scoped Classical in
/-- "%.{P}g": the shorter of the two styles, without trailing zeros. -/
noncomputable def fmtGeneral (P : Nat) (x : ℝ) : List Char :=
  let p := P - 1     -- a precision of 0 counts as 1
  let X := (sciParts p x).2
  if -4 ≤ X ∧ X < (p : ℤ) + 1 then
    -- style f with `p - X` decimals
    let d := ((p : ℤ) - X).toNat
    let s := stripZeros d (roundEven (|x| * 10 ^ d)).toNat
    signChars x ++ natDigits (s.2 / 10 ^ s.1) ++ fracDigits s.1 s.2
  else
    let s := stripZeros p (sciParts p x).1
    signChars x ++ natDigits (s.2 / 10 ^ s.1) ++ fracDigits s.1 s.2 ++ expChars X

/-- Formatting of exact reals. -/
noncomputable instance : NumFmt ℝ where
  fmt
    | .fixed, p, x => fmtFixed p x
    | .scientific, p, x => fmtSci p x
    | .general, p, x => fmtGeneral p x

end Trento
