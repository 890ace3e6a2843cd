import Verif.Model.Random
import Mathlib.Analysis.SpecialFunctions.Pow.Real
import Mathlib.Analysis.SpecialFunctions.Trigonometric.Basic
import Mathlib.Analysis.SpecialFunctions.Log.Base
import Mathlib.MeasureTheory.Integral.IntervalIntegral.Basic

/-!
# Exact real arithmetic

`Arith ℝ`: the model's operations read as the exact mathematical operations.  What this instance does not
show is rounding, overflow, NaN and infinities.  Lean's total functions return junk values where the
C++ function returns NaN/inf (`x / 0 = 0`, `√x = 0` for `x < 0`, `log x` for `x ≤ 0`); theorems at this
instance carry hypotheses that keep the arguments in the proper domain.
-/

namespace Trento
open scoped Classical in
/-- The exact real instance.  `expint x` is `Ei x = -∫_{-x}^∞ e^{-t}/t dt` (meaningful for `x < 0`, the
only arguments trento uses); `erfInv` is an inverse of the error function. -/
noncomputable instance : Arith ℝ where
  lt a b := decide (a < b)
  sqrt := Real.sqrt
  exp := Real.exp
  log := Real.log
  log10 := Real.logb 10
  cbrt x := if 0 ≤ x then x ^ ((1:ℝ)/3) else -((-x) ^ ((1:ℝ)/3))
  cos := Real.cos
  sin := Real.sin
  fabs x := |x|
  ceil x := (⌈x⌉ : ℝ)
  pow x y := x ^ y
  fmin := min
  fmax := max
  expint x := -∫ t in Set.Ioi (-x), Real.exp (-t) / t
  erfInv := Function.invFun fun x : ℝ => 2 / Real.sqrt Real.pi * ∫ t in (0:ℝ)..x, Real.exp (-t^2)
  lit q := (q : ℝ)
  ofInt k := (k : ℝ)
  trunc x := some (if 0 ≤ x then ⌊x⌋ else ⌈x⌉)
  pi := Real.pi
  oneDivTwoPi := 1 / (2 * Real.pi)
  twoPi := 2 * Real.pi
  oneDivRootPi := 1 / Real.sqrt Real.pi
  rootTwo := Real.sqrt 2

section simps
@[simp] theorem lt_real (a b : ℝ) : lt a b = decide (a < b) := by
  show @decide _ _ = @decide _ _
  congr
@[simp] theorem sqrt_real (a : ℝ) : sqrt a = Real.sqrt a := rfl
@[simp] theorem exp_real (a : ℝ) : exp a = Real.exp a := rfl
@[simp] theorem log_real (a : ℝ) : log a = Real.log a := rfl
@[simp] theorem log10_real (a : ℝ) : log10 a = Real.logb 10 a := rfl
@[simp] theorem cos_real (a : ℝ) : cos a = Real.cos a := rfl
@[simp] theorem sin_real (a : ℝ) : sin a = Real.sin a := rfl
@[simp] theorem fabs_real (a : ℝ) : fabs a = |a| := rfl
@[simp] theorem ceil_real (a : ℝ) : ceil a = (⌈a⌉ : ℝ) := rfl
@[simp] theorem pow_real (a b : ℝ) : pow a b = a ^ b := rfl
@[simp] theorem fmin_real (a b : ℝ) : fmin a b = min a b := rfl
@[simp] theorem fmax_real (a b : ℝ) : fmax a b = max a b := rfl
@[simp] theorem lit_real (q : ℚ) : (lit q : ℝ) = (q : ℝ) := rfl
@[simp] theorem ofInt_real (k : ℤ) : (ofInt k : ℝ) = (k : ℝ) := rfl
@[simp] theorem pi_real : (pi : ℝ) = Real.pi := rfl
@[simp] theorem oneDivTwoPi_real : (oneDivTwoPi : ℝ) = 1 / (2 * Real.pi) := rfl
@[simp] theorem twoPi_real : (twoPi : ℝ) = 2 * Real.pi := rfl
@[simp] theorem oneDivRootPi_real : (oneDivRootPi : ℝ) = 1 / Real.sqrt Real.pi := rfl
@[simp] theorem rootTwo_real : (rootTwo : ℝ) = Real.sqrt 2 := rfl
theorem trunc_real (a : ℝ) : trunc a = some (if 0 ≤ a then ⌊a⌋ else ⌈a⌉) := by
  show some (@ite _ _ _ _ _) = some (@ite _ _ _ _ _)
  congr
theorem cbrt_real {a : ℝ} (h : 0 ≤ a) : cbrt a = a ^ ((1:ℝ)/3) := if_pos h
theorem expint_real (a : ℝ) : expint a = -∫ t in Set.Ioi (-a), Real.exp (-t) / t := rfl
theorem erfInv_real : (erfInv : ℝ → ℝ) =
  Function.invFun fun x : ℝ => 2 / Real.sqrt Real.pi * ∫ t in (0:ℝ)..x, Real.exp (-t^2) := rfl
theorem TINY_real : (TINY : ℝ) = 1e-12 := by
  simp only [TINY, lit_real]; norm_num
@[simp] theorem sqr_real (a : ℝ) : sqr a = a ^ 2 := by simp [sqr, pow_two]
end simps

/-- The C++ library contract for the random sources, at exact reals. -/
class LawfulRng (E D : Type) [Rng ℝ E D] : Prop where
  /-- `std::generate_canonical` yields values in [0, 1) -/
  canonical_mem : ∀ e : E, 0 ≤ (Rng.canonical (F := ℝ) (D := D) e).1 ∧ (Rng.canonical (F := ℝ) (D := D) e).1 < 1
  /-- gamma variates are non-negative -/
  gamma_nonneg : ∀ (a b : ℝ) (d : D) (e : E), 0 ≤ (Rng.gamma a b d e).1
  /-- a piecewise linear distribution yields values between its smallest and its largest breakpoint -/
  piecewiseLinear_mem : ∀ (t : List (ℝ × ℝ)) (d : D) (e : E) (lo hi : ℝ), t ≠ [] → (∀ p ∈ t, lo ≤ p.1 ∧ p.1 ≤ hi) →
    lo ≤ (Rng.piecewiseLinear t d e).1 ∧ (Rng.piecewiseLinear t d e).1 ≤ hi
  /-- a centred normal distribution with zero width yields its mean -/
  normal_zero : ∀ (d : D) (e : E), (Rng.normal (0:ℝ) 0 d e).1 = 0
  /-- `uniform_int_distribution(0, k)` yields values ≤ k -/
  uniformInt_le : ∀ (k : Nat) (d : D) (e : E), (Rng.uniformInt ℝ k d e).1 ≤ k
  /-- `std::shuffle` permutes -/
  shuffle_perm : ∀ (l : List ℝ) (e : E), (Rng.shuffle D l e).1.Perm l

/-- A concrete random source: an infinite tape of uniform numbers in [0, 1). -/
structure Tape where
  val : Nat → ℝ
  mem : ∀ i, 0 ≤ val i ∧ val i < 1

/-- advance the tape by one -/
def Tape.next (t : Tape) : Tape := ⟨fun i => t.val (i+1), fun i => t.mem (i+1)⟩

/-- The tape that is constantly `u`. -/
def Tape.const (u : ℝ) (h : 0 ≤ u ∧ u < 1) : Tape := ⟨fun _ => u, fun _ => h⟩

/-- One lawful random source (used to show that hypotheses are satisfiable; the particular shapes of the
distributions are irrelevant). -/
noncomputable instance : Rng ℝ Tape Unit where
  canonical t := (t.val 0, t.next)
  normal m s _ t := (m + s * (2 * t.val 0 - 1), (), t.next)
  gamma _ b _ t := (|b| * t.val 0, (), t.next)
  piecewiseLinear l _ t := ((1 - t.val 0) * (l.headD (0, 0)).1 + t.val 0 * (l.getLastD (0, 0)).1, (), t.next)
  uniformInt k _ t := (⌊(k:ℝ) * t.val 0⌋₊, (), t.next)
  shuffle l t := (l.reverse, t.next)
  seed s := Tape.const (1 / (s.toNat + 2 : ℝ)) (by
    constructor
    · positivity
    · rw [div_lt_one (by positivity)]; have : (0:ℝ) ≤ s.toNat := by positivity
      linarith)
  freshDist := ()

instance : LawfulRng Tape Unit where
  canonical_mem t := t.mem 0
  gamma_nonneg _ b _ t := mul_nonneg (abs_nonneg b) (t.mem 0).1
  piecewiseLinear_mem l _ t lo hi hne h := by
    have h0 := t.mem 0
    have h1 : (l.headD (0, 0)) ∈ l := by
      cases l with
      | nil => exact absurd rfl hne
      | cons x xs => simp
    have h2 : (l.getLastD (0, 0)) ∈ l := by
      rw [List.getLastD_eq_getLast?, List.getLast?_eq_getLast_of_ne_nil hne]
      exact List.getLast_mem hne
    have h1 := h _ h1
    have h2 := h _ h2
    show lo ≤ (1 - t.val 0) * _ + t.val 0 * _ ∧ (1 - t.val 0) * _ + t.val 0 * _ ≤ hi
    constructor <;> nlinarith
  normal_zero _ t := by show (0:ℝ) + 0 * _ = 0; ring
  uniformInt_le k _ t := by
    show ⌊(k:ℝ) * t.val 0⌋₊ ≤ k
    apply Nat.floor_le_of_le
    have := t.mem 0
    nlinarith [(Nat.cast_nonneg k : (0:ℝ) ≤ k)]
  shuffle_perm l _ := List.reverse_perm l

end Trento
