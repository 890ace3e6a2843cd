import Verif.Model.RealArith
import Verif.Model.Collider

/-!
# Reals with the special values of IEEE 754

`XReal` is the exact real line together with `+∞`, `-∞` and NaN, with the rules of IEEE 754 and of the C library for special
operands (ISO C Annex F): `0/0`, `∞ - ∞`, `0·∞`, `√x` and `log x` for `x < 0` are NaN, `x/0` and `log 0` are infinite, comparisons
with NaN are false, `fmin`/`fmax` ignore a NaN operand.  What this arithmetic does *not* show is rounding, overflow to infinity,
underflow, and the sign of zero (zero is read as `+0`).

With it one can state that no NaN or infinity arises in a computation, and what happens where one does; in particular it
justifies the theorems at `ℝ`, where Lean's division by zero is `0`.
-/

namespace Trento

/-- A real number or an IEEE special value. -/
inductive XReal where
  | fin (x : ℝ)
  | pinf
  | ninf
  | nan

namespace XReal

/-- A finite number. -/
def IsFinite (x : XReal) : Prop := ∃ r, x = fin r

/-- The real value; `0` for special values.  Used only to pass parameters to the random distributions of `Rng ℝ`. -/
def toReal : XReal → ℝ
  | fin x => x
  | _ => 0

/-- IEEE negation. -/
def neg : XReal → XReal
  | fin x => fin (-x)
  | pinf => ninf
  | ninf => pinf
  | nan => nan

/-- IEEE addition. -/
def add : XReal → XReal → XReal
  | fin x, fin y => fin (x + y)
  | nan, _ => nan
  | _, nan => nan
  | pinf, ninf => nan
  | ninf, pinf => nan
  | pinf, _ => pinf
  | ninf, _ => ninf
  | fin _, pinf => pinf
  | fin _, ninf => ninf

/-- `+∞` times a real. -/
noncomputable def infMul (x : ℝ) : XReal := if 0 < x then pinf else if x < 0 then ninf else nan

/-- IEEE multiplication. -/
noncomputable def mul : XReal → XReal → XReal
  | fin x, fin y => fin (x * y)
  | nan, _ => nan
  | _, nan => nan
  | pinf, fin y => infMul y
  | ninf, fin y => infMul (-y)
  | fin x, pinf => infMul x
  | fin x, ninf => infMul (-x)
  | pinf, pinf => pinf
  | pinf, ninf => ninf
  | ninf, pinf => ninf
  | ninf, ninf => pinf

/-- IEEE division; a zero divisor is read as `+0`. -/
noncomputable def div : XReal → XReal → XReal
  | fin x, fin y => if y = 0 then infMul x else fin (x / y)
  | nan, _ => nan
  | _, nan => nan
  | fin _, _ => fin 0
  | pinf, fin y => if 0 ≤ y then pinf else ninf
  | ninf, fin y => if 0 ≤ y then ninf else pinf
  | _, _ => nan

/-- IEEE `<`. -/
noncomputable def ltX : XReal → XReal → Bool
  | fin x, fin y => lt x y
  | nan, _ => false
  | _, nan => false
  | ninf, ninf => false
  | ninf, _ => true
  | _, pinf => true
  | fin _, ninf => false
  | pinf, _ => false

/-- C `pow` (Annex F.10.4.4); a zero base is read as `+0`. -/
noncomputable def powX : XReal → XReal → XReal
  | fin x, fin y =>
    if 0 < x then fin (pow x y)
    else if y = 0 then fin 1
    else if x = 0 then (if 0 < y then fin 0 else pinf)
    else if (⌊y⌋ : ℝ) = y then fin (pow x y) else nan
  | fin x, nan => if x = 1 then fin 1 else nan
  | fin x, pinf => if |x| = 1 then fin 1 else if |x| < 1 then fin 0 else pinf
  | fin x, ninf => if |x| = 1 then fin 1 else if |x| < 1 then pinf else fin 0
  | nan, fin y => if y = 0 then fin 1 else nan
  | nan, _ => nan
  | pinf, fin y => if 0 < y then pinf else if y = 0 then fin 1 else fin 0
  | ninf, fin y => if y = 0 then fin 1 else if y < 0 then fin 0 else
      if (⌊y⌋ : ℝ) = y ∧ ⌊y⌋ % 2 = 1 then ninf else pinf
  | pinf, pinf => pinf
  | ninf, pinf => pinf
  | pinf, ninf => fin 0
  | ninf, ninf => fin 0
  | _, nan => nan

end XReal

open XReal

/-- The operations of trento at reals with special values.  Simplification: `boost::math::expint(0)` and `erf_inv(±1)` throw
`std::overflow_error`, arguments of `erf_inv` outside `[-1, 1]` throw `std::domain_error`; here they yield the special value. -/
noncomputable instance : Arith XReal where
  add := XReal.add
  sub a b := XReal.add a (XReal.neg b)
  mul := XReal.mul
  div := XReal.div
  neg := XReal.neg
  lt := XReal.ltX
  sqrt
    | .fin x => if x < 0 then .nan else .fin (sqrt x)
    | .pinf => .pinf
    | _ => .nan
  exp
    | .fin x => .fin (exp x)
    | .pinf => .pinf
    | .ninf => .fin 0
    | .nan => .nan
  log
    | .fin x => if 0 < x then .fin (log x) else if x = 0 then .ninf else .nan
    | .pinf => .pinf
    | _ => .nan
  log10
    | .fin x => if 0 < x then .fin (log10 x) else if x = 0 then .ninf else .nan
    | .pinf => .pinf
    | _ => .nan
  cbrt
    | .fin x => .fin (cbrt x)
    | y => y
  cos
    | .fin x => .fin (cos x)
    | _ => .nan
  sin
    | .fin x => .fin (sin x)
    | _ => .nan
  fabs
    | .fin x => .fin (fabs x)
    | .nan => .nan
    | _ => .pinf
  ceil
    | .fin x => .fin (ceil x)
    | y => y
  pow := XReal.powX
  fmin
    | .fin x, .fin y => .fin (fmin x y)
    | .nan, y => y
    | x, .nan => x
    | .ninf, _ => .ninf
    | _, .ninf => .ninf
    | .pinf, y => y
    | x, .pinf => x
  fmax
    | .fin x, .fin y => .fin (fmax x y)
    | .nan, y => y
    | x, .nan => x
    | .pinf, _ => .pinf
    | _, .pinf => .pinf
    | .ninf, y => y
    | x, .ninf => x
  expint
    | .fin x => if x = 0 then .ninf else .fin (expint x)
    | .pinf => .pinf
    | .ninf => .fin 0
    | .nan => .nan
  erfInv
    | .fin x => if x = 1 then .pinf else if x = -1 then .ninf else if |x| < 1 then .fin (erfInv x) else .nan
    | _ => .nan
  lit q := .fin (lit q)
  ofInt k := .fin (ofInt k)
  trunc
    | .fin x => trunc x
    | _ => none
  pi := .fin pi
  oneDivTwoPi := .fin oneDivTwoPi
  twoPi := .fin twoPi
  oneDivRootPi := .fin oneDivRootPi
  rootTwo := .fin rootTwo

/-- The random sources at `XReal`: those of `Rng ℝ`, which yield finite numbers. -/
noncomputable instance {E D : Type} [Rng ℝ E D] : Rng XReal E D where
  canonical e := let (u, e) := Rng.canonical (F := ℝ) (D := D) e; (.fin u, e)
  normal m s d e := let (x, d, e) := Rng.normal m.toReal s.toReal d e; (.fin x, d, e)
  gamma a b d e := let (x, d, e) := Rng.gamma a.toReal b.toReal d e; (.fin x, d, e)
  piecewiseLinear t d e :=
    let (x, d, e) := Rng.piecewiseLinear (t.map fun p => (p.1.toReal, p.2.toReal)) d e; (.fin x, d, e)
  uniformInt k d e := Rng.uniformInt ℝ k d e
  shuffle l e := let (l, e) := Rng.shuffle D (l.map toReal) e; (l.map .fin, e)
  seed s := Rng.seed ℝ D s
  freshDist := Rng.freshDist ℝ E

namespace XReal
variable (a b : ℝ)
@[simp] theorem fin_add : (fin a + fin b : XReal) = fin (a + b) := rfl
@[simp] theorem fin_sub : (fin a - fin b : XReal) = fin (a - b) := by
  show fin (a + -b) = _
  rw [sub_eq_add_neg]
@[simp] theorem fin_mul : (fin a * fin b : XReal) = fin (a * b) := rfl
@[simp] theorem fin_neg : (-fin a : XReal) = fin (-a) := rfl
theorem fin_div {b : ℝ} (h : b ≠ 0) : (fin a / fin b : XReal) = fin (a / b) := if_neg h
@[simp] theorem fin_lt : lt (fin a) (fin b) = lt a b := rfl
theorem fin_sqrt {a : ℝ} (h : 0 ≤ a) : sqrt (fin a) = fin (sqrt a) := if_neg (not_lt.mpr h)
@[simp] theorem fin_exp : exp (fin a) = fin (exp a) := rfl
theorem fin_log {a : ℝ} (h : 0 < a) : log (fin a) = fin (log a) := if_pos h
theorem fin_log10 {a : ℝ} (h : 0 < a) : log10 (fin a) = fin (log10 a) := if_pos h
@[simp] theorem fin_cbrt : cbrt (fin a) = fin (cbrt a) := rfl
@[simp] theorem fin_cos : cos (fin a) = fin (cos a) := rfl
@[simp] theorem fin_sin : sin (fin a) = fin (sin a) := rfl
@[simp] theorem fin_fabs : fabs (fin a) = fin (fabs a) := rfl
@[simp] theorem fin_ceil : ceil (fin a) = fin (ceil a) := rfl
@[simp] theorem fin_fmin : fmin (fin a) (fin b) = fin (fmin a b) := rfl
@[simp] theorem fin_fmax : fmax (fin a) (fin b) = fin (fmax a b) := rfl
@[simp] theorem fin_lit (q : ℚ) : (lit q : XReal) = fin (lit q) := rfl
@[simp] theorem fin_ofInt (k : ℤ) : (ofInt k : XReal) = fin (ofInt k) := rfl
@[simp] theorem fin_trunc : trunc (fin a) = trunc a := rfl
@[simp] theorem fin_pi : (pi : XReal) = fin pi := rfl
@[simp] theorem fin_oneDivTwoPi : (oneDivTwoPi : XReal) = fin oneDivTwoPi := rfl
@[simp] theorem fin_twoPi : (twoPi : XReal) = fin twoPi := rfl
@[simp] theorem fin_oneDivRootPi : (oneDivRootPi : XReal) = fin oneDivRootPi := rfl
@[simp] theorem fin_rootTwo : (rootTwo : XReal) = fin rootTwo := rfl
@[simp] theorem fin_sqr : sqr (fin a) = fin (sqr a) := rfl
@[simp] theorem fin_TINY : (TINY : XReal) = fin TINY := rfl
theorem fin_pow_pos {a : ℝ} (h : 0 < a) : pow (fin a) (fin b) = fin (pow a b) := if_pos h
theorem fin_pow_nonneg {a b : ℝ} (h : 0 ≤ a) (hb : 0 < b) : pow (fin a) (fin b) = fin (pow a b) := by
  rcases h.eq_or_lt with rfl | h
  · show (if (0:ℝ) < 0 then fin (pow 0 b) else if b = 0 then fin 1 else if (0:ℝ) = 0 then (if 0 < b then fin 0 else pinf) else _) = _
    rw [if_neg (lt_irrefl _), if_neg hb.ne', if_pos rfl, if_pos hb, pow_real, Real.zero_rpow hb.ne']
  · exact fin_pow_pos _ h
theorem fin_pow_two (a : ℝ) : pow (fin a) (fin 2) = fin (pow a 2) := by
  rcases lt_trichotomy a 0 with h | rfl | h
  · show (if 0 < a then fin (pow a 2) else if (2:ℝ) = 0 then fin 1 else if a = 0 then _ else
      if (⌊(2:ℝ)⌋ : ℝ) = 2 then fin (pow a 2) else nan) = _
    rw [if_neg (not_lt.mpr h.le), if_neg (by norm_num), if_neg h.ne, if_pos (by norm_num)]
  · exact fin_pow_nonneg (le_refl _) (by norm_num)
  · exact fin_pow_pos _ h
@[simp] theorem fin_castInt : castInt (fin a) = castInt a := rfl
@[simp] theorem fin_castSize : castSize (fin a) = castSize a := rfl
@[simp] theorem toReal_fin : (fin a).toReal = a := rfl

theorem fin_injective : Function.Injective fin := fun _ _ h => by injection h
end XReal

end Trento
