import Verif.Model.FastExp
import Verif.Lemmas.Casts
import Verif.Lemmas.ExpBound

/-!
# C01, C02: the fast exponential

`FastExp.make xmin xmax n` models the constructor, `eval debug x` models `operator()`.  Numbers are exact
reals for the accuracy claims; the build-mode claims of C02 hold for every arithmetic, including IEEE
doubles.
-/

namespace Trento

/-- step between two tabulated points -/
noncomputable abbrev FastExp.step (xmin xmax : ℝ) (n : ℕ) : ℝ := (xmax - xmin) / (n - 1)

theorem FastExp.make_real (xmin xmax : ℝ) {n : ℕ} (hn : 2 ≤ n) :
    FastExp.make xmin xmax n = ⟨xmin, xmax, FastExp.step xmin xmax n,
      (List.range n).map fun (i : Nat) => Real.exp (xmin + i * FastExp.step xmin xmax n)⟩ := by
  have h0 : n ≠ 0 := by omega
  have h1 : ((n - 1 : ℕ) : ℝ) = n - 1 := by push_cast [Nat.cast_sub (by omega : 1 ≤ n)]; ring
  simp only [FastExp.make, h0, if_false, ofInt_real, Int.cast_natCast, h1, exp_real]

/-- The index computed for an argument in range lies in the table, and the argument is within half a
step of the tabulated point. -/
theorem FastExp.index_bound {xmin xmax : ℝ} (hx : xmin < xmax) {n : ℕ} (hn : 2 ≤ n) {x : ℝ}
    (h1 : xmin ≤ x) (h2 : x ≤ xmax) :
    0 ≤ (x - xmin) / FastExp.step xmin xmax n + 1/2 ∧
    ⌊(x - xmin) / FastExp.step xmin xmax n + 1/2⌋₊ < n ∧
    |x - (xmin + ⌊(x - xmin) / FastExp.step xmin xmax n + 1/2⌋₊ * FastExp.step xmin xmax n)|
      ≤ FastExp.step xmin xmax n / 2 := by
  have hn1 : (0:ℝ) < n - 1 := by have : (2:ℝ) ≤ n := by exact_mod_cast hn
                                 linarith
  have hs : 0 < FastExp.step xmin xmax n := div_pos (by linarith) hn1
  set s := FastExp.step xmin xmax n with hsdef
  have hq0 : 0 ≤ (x - xmin) / s := div_nonneg (by linarith) hs.le
  have hqn : (x - xmin) / s ≤ n - 1 := by
    rw [div_le_iff₀ hs]
    have : (n - 1 : ℝ) * s = xmax - xmin := by rw [hsdef]; unfold FastExp.step; field_simp
    linarith
  have h3 : 0 ≤ (x - xmin) / s + 1/2 := by linarith
  refine ⟨h3, ?_, ?_⟩
  · rw [Nat.floor_lt h3]; linarith
  · have ha := Nat.floor_le h3
    have hb := Nat.lt_floor_add_one ((x - xmin) / s + 1/2)
    set k : ℝ := (⌊(x - xmin) / s + 1/2⌋₊ : ℝ)
    have hxs : x - xmin = (x - xmin) / s * s := by field_simp
    have : x - (xmin + k * s) = ((x - xmin) / s - k) * s := by linarith
    rw [this, abs_mul, abs_of_pos hs]
    have : |(x - xmin) / s - k| ≤ 1/2 := by rw [abs_le]; constructor <;> linarith
    nlinarith

/-- The value computed inside the range. -/
theorem FastExp.eval_in_range (xmin xmax : ℝ) (hx : xmin < xmax) (n : ℕ) (hn : 2 ≤ n)
    (hn64 : n ≤ 2^64 - 1) (debug : Bool) (x : ℝ) (h1 : xmin ≤ x) (h2 : x ≤ xmax) :
    (FastExp.make xmin xmax n).eval debug x = .ok
      (Real.exp (xmin + ⌊(x - xmin) / FastExp.step xmin xmax n + 1/2⌋₊ * FastExp.step xmin xmax n) *
        (1 + (x - (xmin + ⌊(x - xmin) / FastExp.step xmin xmax n + 1/2⌋₊ * FastExp.step xmin xmax n)))) := by
  obtain ⟨ha, hb, _⟩ := FastExp.index_bound hx hn h1 h2
  rw [FastExp.make_real xmin xmax hn]
  unfold FastExp.eval
  have hd : (debug && (lt x xmin || lt xmax x)) = false := by simp [h1, h2]
  have hl : (lit 0.5 : ℝ) = 1/2 := by simp only [lit_real]; norm_num
  have hc : castSize ((x - xmin) / FastExp.step xmin xmax n + lit 0.5) =
      .ok ⌊(x - xmin) / FastExp.step xmin xmax n + 1/2⌋₊ := by
    rw [hl]
    apply castSize_ok_of_nonneg ha
    have h5 : (⌊(x - xmin) / FastExp.step xmin xmax n + 1/2⌋₊ : ℝ) + 1 ≤ n := by exact_mod_cast hb
    have h6 := Nat.lt_floor_add_one ((x - xmin) / FastExp.step xmin xmax n + 1/2)
    have h7 : (n:ℝ) ≤ 18446744073709551615 := by exact_mod_cast hn64
    linarith
  simp only [hd, Bool.false_eq_true, if_false, hc]
  rw [List.getElem?_map, List.getElem?_range hb]
  simp only [Option.map_some, lit_real, Int.cast_natCast, Except.ok.injEq, ofInt_real]
  push_cast
  ring

/-- **C01.** Over its whole range, in debug and release builds, the fast exponential returns a value (so it
reads inside its table and throws nothing); the value never exceeds `exp x` and falls short of it by a
relative error of at most `dx²/8 · e^{dx/2}`, where `dx = (xmax - xmin)/(n-1)`.  (`n ≤ 2^64-1` is the range
of `std::size_t`.) -/
theorem C01_fastExp_accurate (xmin xmax : ℝ) (hx : xmin < xmax) (n : ℕ) (hn : 2 ≤ n)
    (hn64 : n ≤ 2^64 - 1) (debug : Bool) (x : ℝ) (h1 : xmin ≤ x) (h2 : x ≤ xmax) :
    ∃ v, (FastExp.make xmin xmax n).eval debug x = .ok v ∧ v ≤ Real.exp x ∧
      Real.exp x - v ≤ Real.exp x *
        (((xmax - xmin) / (n - 1))^2 / 8 * Real.exp ((xmax - xmin) / (n - 1) / 2)) := by
  refine ⟨_, FastExp.eval_in_range xmin xmax hx n hn hn64 debug x h1 h2, ?_⟩
  obtain ⟨_, _, hc⟩ := FastExp.index_bound hx hn h1 h2
  have := linear_exp_error (x := x) hc
  rwa [sub_sub_cancel] at this

/-- **C01, exactness.** At every tabulated point `xmin + i·dx` the result is exactly the exponential. -/
theorem C01_fastExp_exact_at_points (xmin xmax : ℝ) (hx : xmin < xmax) (n : ℕ) (hn : 2 ≤ n)
    (hn64 : n ≤ 2^64 - 1) (debug : Bool) (i : ℕ) (hi : i < n) :
    (FastExp.make xmin xmax n).eval debug (xmin + i * ((xmax - xmin) / (n - 1))) =
      .ok (Real.exp (xmin + i * ((xmax - xmin) / (n - 1)))) := by
  have hn1 : (0:ℝ) < n - 1 := by have : (2:ℝ) ≤ n := by exact_mod_cast hn
                                 linarith
  have hs : 0 < (xmax - xmin) / (n - 1 : ℝ) := div_pos (by linarith) hn1
  have hi' : (i:ℝ) ≤ n - 1 := by have : (i:ℝ) + 1 ≤ n := by exact_mod_cast hi
                                 linarith
  have htop : (n - 1 : ℝ) * ((xmax - xmin) / (n - 1 : ℝ)) = xmax - xmin := by field_simp
  have h1 : xmin ≤ xmin + i * ((xmax - xmin) / (n - 1)) := by
    have : 0 ≤ (i:ℝ) * ((xmax - xmin) / (n - 1)) := by positivity
    linarith
  have h2 : xmin + i * ((xmax - xmin) / (n - 1)) ≤ xmax := by
    have := mul_le_mul_of_nonneg_right hi' hs.le
    linarith
  rw [FastExp.eval_in_range xmin xmax hx n hn hn64 debug _ h1 h2]
  have hidx : ⌊(xmin + i * ((xmax - xmin) / (n - 1)) - xmin) / FastExp.step xmin xmax n + 1/2⌋₊ = i := by
    have : (xmin + i * ((xmax - xmin) / (n - 1)) - xmin) / FastExp.step xmin xmax n = i := by
      rw [add_sub_cancel_left]; exact mul_div_cancel_right₀ _ hs.ne'
    rw [this]
    rw [Nat.floor_eq_iff (by positivity)]
    constructor <;> linarith
  rw [hidx]
  congr 1
  unfold FastExp.step
  rw [sub_self]; ring

/-- Non-vacuity: the table trento uses, 1000 points on [-12.5, 0]. -/
example : (-12.5:ℝ) < 0 ∧ 2 ≤ 1000 ∧ (1000:ℕ) ≤ 2^64 - 1 ∧ (-12.5:ℝ) ≤ -3 ∧ (-3:ℝ) ≤ 0 := by norm_num

/-- **C02, debug builds.** For every arithmetic (hence also IEEE doubles): an argument below `xmin` or above
`xmax` always throws `std::out_of_range`. -/
theorem C02_fastExp_debug_throws {F : Type} [Arith F] (fe : FastExp F) (x : F)
    (h : lt x fe.xmin = true ∨ lt fe.xmax x = true) :
    ∃ msg, fe.eval true x = .error (.throw .outOfRange msg) := by
  unfold FastExp.eval
  have hc : (true && (lt x fe.xmin || lt fe.xmax x)) = true := by rcases h with h | h <;> simp [h]
  rw [if_pos hc]
  exact ⟨_, rfl⟩

/-- **C02, release builds.** For every arithmetic, no argument makes a release build throw. -/
theorem C02_fastExp_release_never_throws {F : Type} [Arith F] (fe : FastExp F) (x : F) :
    ∀ e msg, fe.eval false x ≠ .error (.throw e msg) := by
  intro e msg h
  unfold FastExp.eval at h
  simp only [Bool.false_and, Bool.false_eq_true, if_false] at h
  have hcast : ∀ y : F, ∀ er, castSize y = .error er → ∃ s, er = .ub s := by
    intro y er hy
    unfold castSize at hy
    split at hy
    · exact ⟨_, (Except.error.inj hy).symm⟩
    · split at hy
      · cases hy
      · exact ⟨_, (Except.error.inj hy).symm⟩
  split at h
  · rename_i er he
    obtain ⟨s, rfl⟩ := hcast _ _ he
    cases h
  · split at h <;> cases h

/-- **C02, far outside.** In a release build an argument more than half a step above `xmax`, or one and a half
steps or more below `xmin`, is undefined behaviour. -/
theorem C02_fastExp_release_ub (xmin xmax : ℝ) (hx : xmin < xmax) (n : ℕ) (hn : 2 ≤ n) (x : ℝ)
    (h : xmax + (xmax - xmin) / (n - 1) / 2 ≤ x ∨ x ≤ xmin - 3/2 * ((xmax - xmin) / (n - 1))) :
    ∃ s, (FastExp.make xmin xmax n).eval false x = .error (.ub s) := by
  have hn1 : (0:ℝ) < n - 1 := by have : (2:ℝ) ≤ n := by exact_mod_cast hn
                                 linarith
  have hs : 0 < FastExp.step xmin xmax n := div_pos (by linarith) hn1
  have htop : (n - 1 : ℝ) * FastExp.step xmin xmax n = xmax - xmin := by
    unfold FastExp.step; field_simp
  change xmax + FastExp.step xmin xmax n / 2 ≤ x ∨ x ≤ xmin - 3/2 * FastExp.step xmin xmax n at h
  rw [FastExp.make_real xmin xmax hn]
  unfold FastExp.eval
  have hl : (lit 0.5 : ℝ) = 1/2 := by simp only [lit_real]; norm_num
  simp only [Bool.false_and, Bool.false_eq_true, if_false, hl]
  rcases h with h | h
  · have h1 : (n:ℝ) ≤ (x - xmin) / FastExp.step xmin xmax n + 1/2 := by
      have : (n - 1/2 : ℝ) ≤ (x - xmin) / FastExp.step xmin xmax n := by
        rw [le_div_iff₀ hs]; linarith
      linarith
    rcases castSize_real ((x - xmin) / FastExp.step xmin xmax n + 1/2) with ⟨s, hs⟩ | ⟨k, hk, hk2⟩
    · rw [hs]; exact ⟨s, rfl⟩
    · rw [hk]
      have h0 : 0 ≤ (x - xmin) / FastExp.step xmin xmax n + 1/2 := le_trans (Nat.cast_nonneg n) h1
      have : n ≤ k := by rw [hk2 h0]; exact Nat.le_floor h1
      have hnone : ((List.range n).map fun (i : Nat) => Real.exp (xmin + i * FastExp.step xmin xmax n))[k]? = none := by
        apply List.getElem?_eq_none; simpa using this
      simp only [hnone]
      exact ⟨_, rfl⟩
  · have h1 : (x - xmin) / FastExp.step xmin xmax n + 1/2 ≤ -1 := by
      have : (x - xmin) / FastExp.step xmin xmax n ≤ -3/2 := by
        rw [div_le_iff₀ hs]; linarith
      linarith
    obtain ⟨s, hs⟩ := castSize_ub_of_neg h1
    rw [hs]; exact ⟨s, rfl⟩

/-- Non-vacuity of the C02 hypotheses for trento's table. -/
example : ((0:ℝ) + (0 - (-12.5)) / ((1000:ℕ) - 1) / 2 ≤ 1) ∧
    (lt (1:ℝ) (-12.5) = true ∨ lt (0:ℝ) 1 = true) := by
  constructor
  · norm_num
  · right; simp

end Trento
