import Verif.Model.CrossSection

/-!
# The root finder of Boost

`Model/CrossSection.lean` uses `boost::math::tools::toms748_solve` through the interface `Toms748`.  This file models the algorithm behind it
(boost/math/tools/toms748_solve.hpp, the same from Boost 1.36 to 1.86; Boost is not part of /repo, the calls are at src/nucleon.cxx:118-124 and
157-162).  The arithmetic interface has `<` only: `x <= y` is written as "not `y < x`" and `x == 0` as "neither below nor above 0"; the difference (NaN)
does not matter for the carriers the theorems use.
-/

namespace Trento

variable {F : Type} [Arith F]

/-- `x <= y`, without NaN. -/
def tle (x y : F) : Bool := !lt y x

/-- `x == 0`, without NaN. -/
def tzero (x : F) : Bool := !lt x (lit 0) && !lt (lit 0) x

/-- `boost::math::sign(x) * boost::math::sign(y) < 0`. -/
def opposite (x y : F) : Bool := (lt x (lit 0) && lt (lit 0) y) || (lt (lit 0) x && lt y (lit 0))

/-- `boost::math::sign(x) * boost::math::sign(y) > 0`. -/
def sameSign (x y : F) : Bool := (lt x (lit 0) && lt y (lit 0)) || (lt (lit 0) x && lt (lit 0) y)

/-- `tools::epsilon<double>()`: 2^-52. -/
def machEps : F := lit (1 / 4503599627370496)

/-- `tools::max_value<double>()`. -/
def maxDouble : F := lit ((2^53 - 1) * 2^971)

/-- `tools::min_value<double>() * 32`. -/
def minDiff : F := lit (32 / 2^1022)

/-- `eps_tolerance<double>(bits)`: the member `eps`, `max(ldexp(1, 1-bits), 4 epsilon)` (used at src/nucleon.cxx:103-104, 148). -/
def tolEps (bits : Nat) : F := fmax (lit (2 / 2^bits)) (lit 4 * machEps)

/-- `eps_tolerance<double>::operator()`: `fabs(a - b) <= eps * min(fabs(a), fabs(b))`. -/
def tolMet (bits : Nat) (a b : F) : Bool := tle (fabs (a - b)) (tolEps bits * fmin (fabs a) (fabs b))

/-- `detail::safe_div`. -/
def safeDiv (num denom r : F) : F :=
  if lt (fabs denom) (lit 1) && tle (fabs (denom * maxDouble)) (fabs num) then r else num / denom

/-- `detail::secant_interpolate`. -/
def secantStep (a b fa fb : F) : F :=
  let tol := machEps * lit 5
  let c := a - (fa / (fb - fa)) * (b - a)
  if tle c (a + fabs a * tol) || tle (b - fabs b * tol) c then (a + b) / lit 2 else c

/-- The Newton steps of `detail::quadratic_interpolate`. -/
def newtonSteps (a b fa A B : F) : Nat → F → F
  | 0, c => c
  | n+1, c => newtonSteps a b fa A B n
      (c - safeDiv (fa + (B + A * (c - b)) * (c - a)) (B + A * (lit 2 * c - a - b)) (lit 1 + c - a))

/-- `detail::quadratic_interpolate`. -/
def quadraticStep (a b d fa fb fd : F) (count : Nat) : F :=
  let B := safeDiv (fb - fa) (b - a) maxDouble
  let A := safeDiv (fd - fb) (d - b) maxDouble
  let A := safeDiv (A - B) (d - a) (lit 0)
  if tzero A then secantStep a b fa fb
  else
    let c := newtonSteps a b fa A B count (if sameSign A fa then a else b)
    if tle c a || tle b c then secantStep a b fa fb else c

/-- `detail::cubic_interpolate`. -/
def cubicStep (a b d e fa fb fd fe : F) : F :=
  let q11 := (d - e) * fd / (fe - fd)
  let q21 := (b - d) * fb / (fd - fb)
  let q31 := (a - b) * fa / (fb - fa)
  let d21 := (b - d) * fd / (fd - fb)
  let d31 := (a - b) * fb / (fb - fa)
  let q22 := (d21 - q11) * fb / (fe - fb)
  let q32 := (d31 - q21) * fa / (fd - fa)
  let d32 := (d31 - q21) * fd / (fd - fa)
  let q33 := (d32 - q22) * fa / (fe - fa)
  let c := q31 + q32 + q33 + a
  if tle c a || tle b c then quadraticStep a b d fa fb fd 3 else c

/-- The variables of `toms748_solve`. -/
structure TomsState (F : Type) where
  a : F
  b : F
  d : F
  e : F
  fa : F
  fb : F
  fd : F
  fe : F

/-- The adjustment of the new point at the beginning of `detail::bracket`. -/
def adjustPoint (a b c : F) : F :=
  let tol := machEps * lit 2
  if lt (b - a) (lit 2 * tol * a) then a + (b - a) / lit 2
  else if tle c (a + fabs a * tol) then a + fabs a * tol
  else if tle (b - fabs b * tol) c then b - fabs b * tol
  else c

/-- The update at the end of `detail::bracket`, `fc` being the value of the function at `c`. -/
def updateBracket (q : TomsState F) (c fc : F) : TomsState F :=
  if tzero fc then { q with a := c, fa := lit 0, d := lit 0, fd := lit 0 }
  else if opposite q.fa fc then { q with d := q.b, fd := q.fb, b := c, fb := fc }
  else { q with d := q.a, fd := q.fa, a := c, fa := fc }

/-- `detail::bracket`. -/
def bracketStep {S : Type} (f : F → S → Res F × S) (q : TomsState F) (c : F) (s : S) : Res (TomsState F) × S :=
  let c := adjustPoint q.a q.b c
  match f c s with
  | (.error e, s) => (.error e, s)
  | (.ok fc, s) => (.ok (updateBracket q c fc), s)

/-- An interpolated step of the main loop: cubic if the four values of the function are distinct, else quadratic with `n` Newton steps. -/
def interpolate (q : TomsState F) (n : Nat) : F :=
  let near := fun x y : F => lt (fabs (x - y)) minDiff
  if near q.fa q.fb || near q.fa q.fd || near q.fa q.fe || near q.fb q.fd || near q.fb q.fe || near q.fd q.fe
  then quadraticStep q.a q.b q.d q.fa q.fb q.fd n
  else cubicStep q.a q.b q.d q.e q.fa q.fb q.fd q.fe

/-- The double-length secant step of the main loop. -/
def doubleSecant (q : TomsState F) : F :=
  let u := if lt (fabs q.fa) (fabs q.fb) then q.a else q.b
  let fu := if lt (fabs q.fa) (fabs q.fb) then q.fa else q.fb
  let c := u - lit 2 * (fu / (q.fb - q.fa)) * (q.b - q.a)
  if lt ((q.b - q.a) / lit 2) (fabs (c - u)) then q.a + (q.b - q.a) / lit 2 else c

/-- Where the algorithm is: every phase ends with one call of `detail::bracket`.  `first` and `second` are the steps before the main loop, the main
loop consists of `top` (an interpolated step), `again` (another one) and `secant` (the double-length secant step), each followed by the bracket at the
beginning of the pass (`a0`, `b0`), and `check`, the test for slow convergence. -/
inductive TomsPhase (F : Type) where
  | first
  | second
  | top
  | again (a0 b0 : F)
  | secant (a0 b0 : F)
  | check (a0 b0 : F)

/-- One evaluation: the variables before the call of `detail::bracket` (`e = d` where the code has it), the new point, and the phase after it. -/
def tomsChoose (ph : TomsPhase F) (q : TomsState F) : TomsState F × F × TomsPhase F :=
  let shift := fun q : TomsState F => { q with e := q.d, fe := q.fd }
  let top := (shift q, interpolate q 2, TomsPhase.again q.a q.b)
  match ph with
  | .first => (q, secantStep q.a q.b q.fa q.fb, .second)
  | .second => (shift q, quadraticStep q.a q.b q.d q.fa q.fb q.fd 2, .top)
  | .top => top
  | .again a0 b0 => (q, interpolate q 3, .secant a0 b0)
  | .secant a0 b0 => (shift q, doubleSecant q, .check a0 b0)
  | .check a0 b0 => if lt (q.b - q.a) (lit 0.5 * (b0 - a0)) then top else (shift q, q.a + (q.b - q.a) / lit 2, .top)

/-- The steps of `toms748_solve` while `count && fa != 0 && !tol(a, b)`: this condition is tested before and after every evaluation. -/
def tomsLoop {S : Type} (f : F → S → Res F × S) (bits : Nat) : Nat → TomsPhase F → TomsState F → S → Res (TomsState F) × S
  | 0, _, q, s => (.ok q, s)
  | count+1, ph, q, s =>
    if tzero q.fa || tolMet bits q.a q.b then (.ok q, s)
    else
      let (q, c, ph) := tomsChoose ph q
      match bracketStep f q c s with
      | (.error e, s) => (.error e, s)
      | (.ok q, s) => tomsLoop f bits count ph q s

/-- The last lines of `toms748_solve`. -/
def tomsResult (q : TomsState F) : F × F :=
  if tzero q.fa then (q.a, q.a) else if tzero q.fb then (q.b, q.b) else (q.a, q.b)

/-- `toms748_solve(f, a, b, f(a), f(b), tol, max_iter)`. -/
def tomsSolve {S : Type} (f : F → S → Res F × S) (bits : Nat) (a b fa fb : F) (count : Nat) (s : S) : Res (F × F) × S :=
  if tle b a then (.error (.throw .domainError "Parameters a and b out of order"), s)
  else if tolMet bits a b || tzero fa || tzero fb then (.ok (if tzero fa then (a, a) else if tzero fb then (b, b) else (a, b)), s)
  else if sameSign fa fb then (.error (.throw .domainError "Parameters a and b do not bracket the root"), s)
  else
    match tomsLoop f bits count .first ⟨a, b, lit 0, lit 100000, fa, fb, lit 100000, lit 100000⟩ s with
    | (.error e, s) => (.error e, s)
    | (.ok q, s) => (.ok (tomsResult q), s)

/-- `toms748_solve(f, a, b, tol, max_iter)`: called at src/nucleon.cxx:118-124 and 157-162.  The order in which `f(a)` and `f(b)` are evaluated is
unspecified (they are arguments of one call); the model evaluates `f(b)` first, as GCC does. -/
def boostSolve {S : Type} (f : F → S → Res F × S) (a b : F) (bits maxIter : Nat) (s : S) : Res (F × F) × S :=
  if maxIter ≤ 2 then (.ok (a, b), s)
  else
    match f b s with
    | (.error e, s) => (.error e, s)
    | (.ok fb, s) =>
      match f a s with
      | (.error e, s) => (.error e, s)
      | (.ok fa, s) => tomsSolve f bits a b fa fb (maxIter - 2) s

/-- The root finder of Boost. -/
@[reducible] def boostToms : Toms748 F where
  solve := boostSolve

end Trento
