/-!
# Arithmetic and outcome interfaces of the model

trento computes with C++ `double`.  The model is written once against the law-free interface `Arith F`
and then used at several carriers: an arbitrary `F` (theorems that need no numeric law, hence hold for
IEEE doubles with NaN and infinities), exact reals, and reals extended by IEEE special values.
-/

namespace Trento

/-- The exception classes trento throws itself, or lets Boost / the standard library throw.
Cited where raised. -/
inductive Exc where
  | invalidArgument | outOfRange | domainError | runtimeError
  | poError | poRequiredOption | filesystemError
  /-- `H5::Exception`: not derived from `std::exception`, hence not caught in `main` -/
  | h5Exception
  deriving DecidableEq, Repr

/-- Non-value outcomes of a C++ function: undefined behaviour, an exception, or (for the unbounded
`do … while` loops) "did not finish within the given number of iterations". -/
inductive Err where
  | ub (what : String)
  | throw (e : Exc) (msg : String)
  | fuel
  deriving DecidableEq, Repr

/-- Result of a C++ function. -/
abbrev Res (α : Type) := Except Err α

/-- The operations on `double` used by trento.  **No laws.**
Every numeric field corresponds to a C++ operator or `<cmath>`/Boost function used in /repo/src.
Simplification: one carrier `F` stands for `double`; `float` (used only for positions read by
`ManualNucleus`, src/nucleus.cxx:456, 508) is converted on reading. -/
class Arith (F : Type) extends Add F, Sub F, Mul F, Div F, Neg F where
  /-- `a < b` (false if either is NaN); `a > b` is written `lt b a`. -/
  lt : F → F → Bool
  sqrt : F → F
  exp : F → F
  log : F → F
  log10 : F → F
  cbrt : F → F
  cos : F → F
  sin : F → F
  fabs : F → F
  ceil : F → F
  pow : F → F → F
  fmin : F → F → F
  fmax : F → F → F
  /-- `boost::math::expint` (exponential integral Ei). -/
  expint : F → F
  /-- `boost::math::erf_inv`. -/
  erfInv : F → F
  /-- a decimal literal of the source, or a value read exactly -/
  lit : Rat → F
  /-- conversion of an `int` / `std::size_t` value to `double` -/
  ofInt : Int → F
  /-- the integer part (truncation toward zero); `none` for NaN and infinities -/
  trunc : F → Option Int
  /-- `math::double_constants::pi` -/
  pi : F
  /-- `math::double_constants::one_div_two_pi` -/
  oneDivTwoPi : F
  /-- `math::constants::two_pi` -/
  twoPi : F
  /-- `math::double_constants::one_div_root_pi` -/
  oneDivRootPi : F
  /-- `math::double_constants::root_two` -/
  rootTwo : F

export Arith (lt sqrt exp log log10 cbrt cos sin fabs ceil pow fmin fmax expint erfInv lit ofInt trunc pi
  oneDivTwoPi twoPi oneDivRootPi rootTwo)

variable {F : Type} [Arith F]

/-- `static_cast<int>(x)`: truncation toward zero; undefined if the truncated value is not an `int`
(C++11 [conv.fpint]).  Used at src/event.cxx:51 (implicit), 126-129, src/output.cxx:171. -/
def castInt (x : F) : Res Int :=
  match trunc x with
  | none => .error (.ub "double to int: not finite")
  | some k => if -2147483648 ≤ k ∧ k ≤ 2147483647 then .ok k else .error (.ub "double to int: out of range")

/-- `static_cast<std::size_t>(x)`: as `castInt` for the 64-bit unsigned type.
Used at src/fast_exp.h:67. -/
def castSize (x : F) : Res Nat :=
  match trunc x with
  | none => .error (.ub "double to size_t: not finite")
  | some k => if 0 ≤ k ∧ k < 18446744073709551616 then .ok k.toNat
              else .error (.ub "double to size_t: out of range")

/-- `sqr` (src/nucleon.h:151-154). -/
def sqr (x : F) : F := x * x

/-- `constexpr double TINY = 1e-12` (src/event.cxx:18). -/
def TINY : F := lit 1e-12

end Trento
