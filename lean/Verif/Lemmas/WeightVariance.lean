import Verif.Props.WeightEvents

/-! # Squared deviation of the thickness from its value for weights 1 -/

namespace Trento
open MeasureTheory Set Spec ProbabilityTheory
open scoped ENNReal

/-- mean of a square in a gamma distributed weight -/
theorem gamma_sq {k : ℝ} (hk : 0 < k) (R a : ℝ) :
    ∫⁻ f, ENNReal.ofReal ((R + (f - 1) * a)^2) ∂gammaMeasure k k = ENNReal.ofReal (R^2) + ENNReal.ofReal (1 / k) * ENNReal.ofReal (a^2) := by
  have hp : IsProbabilityMeasure (gammaMeasure k k) := isProbabilityMeasure_gammaMeasure hk hk
  obtain ⟨m1, m2, m0⟩ := C98_moments hk
  have hae : ∀ᵐ f ∂gammaMeasure k k, 0 ≤ f := by
    rw [ae_iff]
    simp only [not_le]
    exact m0
  have i1 : Integrable (fun f : ℝ => f) (gammaMeasure k k) := by
    refine ⟨by fun_prop, ?_⟩
    rw [hasFiniteIntegral_iff_ofReal hae, m1]
    exact ENNReal.one_lt_top
  have i2 : Integrable (fun f : ℝ => f^2) (gammaMeasure k k) := by
    refine ⟨by fun_prop, ?_⟩
    rw [hasFiniteIntegral_iff_ofReal (Filter.Eventually.of_forall fun f => sq_nonneg f), m2]
    exact ENNReal.ofReal_lt_top
  have e1 : ∫ f, f ∂gammaMeasure k k = 1 := by
    rw [integral_eq_lintegral_of_nonneg_ae hae (by fun_prop), m1]
    simp
  have e2 : ∫ f, f^2 ∂gammaMeasure k k = 1 + 1 / k := by
    rw [integral_eq_lintegral_of_nonneg_ae (Filter.Eventually.of_forall fun f => sq_nonneg f) (by fun_prop), m2, ENNReal.toReal_ofReal (by positivity)]
  have hexp : (fun f : ℝ => (R + (f - 1) * a)^2) = fun f => ((R - a)^2 + 2 * (R - a) * a * f) + a^2 * f^2 := by
    funext f; ring
  have int : Integrable (fun f : ℝ => (R + (f - 1) * a)^2) (gammaMeasure k k) := by
    rw [hexp]
    exact ((integrable_const _).add (i1.const_mul _)).add (i2.const_mul _)
  rw [← ofReal_integral_eq_lintegral_ofReal int (Filter.Eventually.of_forall fun f => sq_nonneg _), hexp,
    integral_add (by exact (integrable_const _).add (i1.const_mul _)) (by exact i2.const_mul _), integral_add (integrable_const _) (by exact i1.const_mul _), integral_const_mul, integral_const_mul, e1, e2]
  rw [← ENNReal.ofReal_mul (by positivity), ← ENNReal.ofReal_add (sq_nonneg _) (by positivity)]
  congr 1
  simp
  ring

/-- what the constituent contributes to the thickness, per weight -/
noncomputable def slope (nc : NucleonCommon ℝ) (debug : Bool) (x y : ℝ) (l : List (NucleonData ℝ)) (a j : ℕ) : ℝ :=
  match l[a]? with
  | none => 0
  | some n => if n.isParticipant then (match n.constituents[j]? with
    | none => 0
    | some c => nc.prefactor * kern nc debug x y (c.x, c.y)) else 0

theorem sum_set {κ : ℝ × ℝ → ℝ} (cs : List (Constituent ℝ)) (j : ℕ) (f : ℝ) :
    ((cs.modify j fun c => { c with fluctuation := f }).map fun c => c.fluctuation * κ (c.x, c.y)).sum =
      ((cs.modify j fun c => { c with fluctuation := 1 }).map fun c => c.fluctuation * κ (c.x, c.y)).sum + (f - 1) * (match cs[j]? with | none => 0 | some c => κ (c.x, c.y)) := by
  induction cs generalizing j with
  | nil => cases j <;> simp
  | cons c cs ih =>
    cases j with
    | zero => simp; ring
    | succ j =>
      rw [List.modify_succ_cons, List.modify_succ_cons, List.map_cons, List.map_cons, List.sum_cons, List.sum_cons, ih, List.getElem?_cons_succ]
      ring

theorem direct_set (w v : ℝ) (m : ℕ) (σ : ℝ) (ncoll : Bool) (k : ℝ) (hv : 0 < v) (debug : Bool) (x y : ℝ) (l : List (NucleonData ℝ)) (a j : ℕ) (f : ℝ) :
    directThickness (NucleonCommon.make w v m σ ncoll k) debug (l.modify a (NucleonData.reweigh j f)) x y =
      directThickness (NucleonCommon.make w v m σ ncoll k) debug (l.modify a (NucleonData.reweigh j 1)) x y + (f - 1) * slope (NucleonCommon.make w v m σ ncoll k) debug x y l a j := by
  have htk := thicknessAt_kern w v m σ ncoll k hv debug x y
  generalize NucleonCommon.make w v m σ ncoll k = nc at *
  have one : ∀ n : NucleonData ℝ, thicknessAt nc debug (n.reweigh j f) x y = thicknessAt nc debug (n.reweigh j 1) x y +
      (f - 1) * (match n.constituents[j]? with | none => 0 | some c => nc.prefactor * kern nc debug x y (c.x, c.y)) := by
    intro n
    rw [htk, htk]
    have := sum_set (κ := kern nc debug x y) n.constituents j f
    show nc.prefactor * ((n.constituents.modify j fun c => { c with fluctuation := f }).map fun c => c.fluctuation * kern nc debug x y (c.x, c.y)).sum =
      nc.prefactor * ((n.constituents.modify j fun c => { c with fluctuation := 1 }).map fun c => c.fluctuation * kern nc debug x y (c.x, c.y)).sum + _
    rw [this]
    cases n.constituents[j]? <;> simp; ring
  unfold directThickness
  induction l generalizing a with
  | nil => cases a <;> simp [slope]
  | cons n l ih =>
    cases a with
    | zero =>
      have hs : slope nc debug x y (n :: l) 0 j = if n.isParticipant then (match n.constituents[j]? with | none => 0 | some c => nc.prefactor * kern nc debug x y (c.x, c.y)) else 0 := rfl
      rw [hs, List.modify_zero_cons, List.modify_zero_cons, List.filter_cons, List.filter_cons]
      have p1 : (NucleonData.reweigh j f n).isParticipant = n.isParticipant := rfl
      have p2 : (NucleonData.reweigh j 1 n).isParticipant = n.isParticipant := rfl
      rw [p1, p2]
      by_cases hp : n.isParticipant = true
      · rw [if_pos hp, if_pos hp, if_pos hp, List.map_cons, List.map_cons, List.sum_cons, List.sum_cons, one]
        ring
      · rw [if_neg hp, if_neg hp, if_neg hp]
        ring
    | succ a =>
      have hs : slope nc debug x y (n :: l) (a+1) j = slope nc debug x y l a j := rfl
      rw [hs, List.modify_succ_cons, List.modify_succ_cons, List.filter_cons, List.filter_cons]
      by_cases hp : n.isParticipant = true
      · rw [if_pos hp, if_pos hp, List.map_cons, List.map_cons, List.sum_cons, List.sum_cons, ih]
        ring
      · rw [if_neg hp, if_neg hp, ih]

/-- only positions matter -/
theorem slope_modify (nc : NucleonCommon ℝ) (debug : Bool) (x y : ℝ) (l : List (NucleonData ℝ)) (a j a' j' : ℕ) (f : ℝ) :
    slope nc debug x y (l.modify a' (NucleonData.reweigh j' f)) a j = slope nc debug x y l a j := by
  unfold slope
  rw [List.getElem?_modify]
  cases h : l[a]? with
  | none => rfl
  | some n =>
    dsimp only [Functor.map, Option.map]
    by_cases e : a' = a
    · rw [if_pos e]
      have p : (NucleonData.reweigh j' f n).isParticipant = n.isParticipant := rfl
      rw [p]
      congr 1
      have c : (NucleonData.reweigh j' f n).constituents = n.constituents.modify j' fun c => { c with fluctuation := f } := rfl
      rw [c, List.getElem?_modify]
      cases n.constituents[j]? with
      | none => rfl
      | some c => by_cases e : j' = j <;> simp [e]
    · rw [if_neg e]

/-- the squared contributions of all constituents of participants -/
noncomputable def Spec.squares (nc : NucleonCommon ℝ) (debug : Bool) (l : List (NucleonData ℝ)) (x y : ℝ) : ℝ≥0∞ :=
  ((l.filter (·.isParticipant)).map fun n => (n.constituents.map fun c => ENNReal.ofReal ((thicknessAt nc debug { n with constituents := [{ c with fluctuation := 1 }] } x y)^2)).sum).sum

theorem sum_getElem {α : Type} (l : List α) (g : Option α → ℝ≥0∞) (h0 : g none = 0) {N : ℕ} (hN : l.length ≤ N) : ((List.range N).map fun a => g l[a]?).sum = (l.map fun a => g (some a)).sum := by
  induction l generalizing N with
  | nil => simp [h0]
  | cons a l ih =>
    obtain ⟨N, rfl⟩ : ∃ N', N = N' + 1 := ⟨N - 1, by simp at hN; omega⟩
    rw [List.range_succ_eq_map, List.map_cons, List.sum_cons, List.map_map, List.map_cons, List.sum_cons, ← ih (by simpa using hN)]
    rfl

theorem squares_slope (w v : ℝ) (m : ℕ) (σ : ℝ) (ncoll : Bool) (k : ℝ) (hv : 0 < v) (debug : Bool) (x y : ℝ) {l : List (NucleonData ℝ)} {N M : ℕ} (hN : l.length ≤ N)
    (hM : ∀ n ∈ l, n.constituents.length ≤ M) :
    ((List.range N).map fun a => ((List.range M).map fun j => ENNReal.ofReal (slope (NucleonCommon.make w v m σ ncoll k) debug x y l a j ^ 2)).sum).sum =
      squares (NucleonCommon.make w v m σ ncoll k) debug l x y := by
  have htk := thicknessAt_kern w v m σ ncoll k hv debug x y
  unfold squares
  generalize NucleonCommon.make w v m σ ncoll k = nc at *
  have e1 := sum_getElem l (fun o => ((List.range M).map fun j => ENNReal.ofReal ((match o with
      | none => 0
      | some n => if n.isParticipant then (match n.constituents[j]? with
        | none => 0
        | some c => nc.prefactor * kern nc debug x y (c.x, c.y)) else 0 : ℝ) ^ 2)).sum) (by simp) hN
  refine e1.trans ?_
  clear e1 hN
  induction l with
  | nil => rfl
  | cons n l ih =>
    have ihh := ih fun n h => hM n (by simp [h])
    rw [List.map_cons, List.sum_cons, List.filter_cons]
    by_cases hp : n.isParticipant = true
    · rw [if_pos hp, List.map_cons, List.sum_cons, ihh]
      congr 1
      simp only [hp, if_true]
      have e2 := sum_getElem n.constituents (fun o => ENNReal.ofReal ((match o with
        | none => 0
        | some c => nc.prefactor * kern nc debug x y (c.x, c.y) : ℝ) ^ 2)) (by simp) (hM n (by simp))
      refine e2.trans ?_
      congr 1
      refine List.map_congr_left fun c _ => ?_
      rw [htk]
      simp
    · rw [if_neg hp, ihh]
      simp [hp]

end Trento
