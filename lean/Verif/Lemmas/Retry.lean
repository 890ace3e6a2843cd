import Verif.Lemmas.Renew

/-! # Repeating an attempt until it succeeds -/

namespace Trento
open MeasureTheory Set Spec
open scoped ENNReal

variable {α W I : Type} [MeasurableSpace α] [MeasurableSpace W]

/-- repeat until the flag is set -/
def retry (P : W → Res ((α × Bool) × W)) : ℕ → W → Res (α × W)
  | 0, _ => .error .fuel
  | n+1, w => bindR (P w) fun a w => if a.2 then .ok (a.1, w) else retry P n w

variable {μ : I → Measure W}

theorem Renews.const {Y : Type} [MeasurableSpace Y] [∀ i, IsProbabilityMeasure (μ i)] {P : Y → W → Res (α × W)} (hP : Renews μ P) (y : Y)
    {f : α → ℝ≥0∞} (hf : Measurable f) (i j : I) :
    ∫⁻ w, ifOk (P y w) (fun t => f t.1) ∂(μ i) = ∫⁻ w, ifOk (P y w) (fun t => f t.1) ∂(μ j) := by
  have := hP.law y (fun t => f t.1) (hf.comp measurable_fst) (fun a i j => by simp) i j j
  simpa using this

theorem Renews.meas1 {P : W → Res (α × W)} (hP : Renews μ fun (_ : Unit) w => P w) : Measurable P :=
  hP.meas.comp ((measurable_const (a := ())).prodMk measurable_id)

variable [∀ i, IsProbabilityMeasure (μ i)]

theorem Renews.retry {P : W → Res ((α × Bool) × W)} (hP : Renews μ fun (_ : Unit) w => P w) (n : ℕ) : Renews μ fun (_ : Unit) w => retry P n w := by
  induction n with
  | zero => exact Renews.fail _
  | succ n ih =>
    have h1 := Renews.bite (Renews.pure (q := fun p : Unit × (α × Bool) => p.2.1) (μ := μ) (by fun_prop))
      (ih.comp (measurable_const (a := ()))) (c := fun p : Unit × (α × Bool) => p.2.2) (by fun_prop)
    exact (hP.bind h1).congr fun y w => rfl

/-- mean of `f` over the values found in at most `n` attempts -/
noncomputable def retryMean (μ : I → Measure W) (P : W → Res ((α × Bool) × W)) (n : ℕ) (f : α → ℝ≥0∞) (i : I) : ℝ≥0∞ :=
  ∫⁻ w, ifOk (retry P n w) (fun t => f t.1) ∂(μ i)

/-- probability that an attempt ends without success -/
noncomputable def missProb (μ : I → Measure W) (P : W → Res ((α × Bool) × W)) (i : I) : ℝ≥0∞ :=
  ∫⁻ w, ifOk (P w) (fun t => if t.1.2 then 0 else 1) ∂(μ i)

theorem flag_meas : MeasurableSet {p : (α × Bool) × W | p.1.2 = true} := (measurable_snd.comp measurable_fst) (measurableSet_singleton true)

omit [MeasurableSpace α] [MeasurableSpace W] in
theorem ifOk_retry_one (P : W → Res ((α × Bool) × W)) (f : α → ℝ≥0∞) (w : W) :
    ifOk (retry P 1 w) (fun t => f t.1) = ifOk (P w) (fun t => if t.1.2 then f t.1.1 else 0) := by
  simp only [Trento.retry, ifOk_bindR]
  congr 1
  funext t
  split <;> rfl

theorem retryMean_const {P : W → Res ((α × Bool) × W)} (hP : Renews μ fun (_ : Unit) w => P w) (n : ℕ) {f : α → ℝ≥0∞} (hf : Measurable f) (i j : I) :
    retryMean μ P n f i = retryMean μ P n f j :=
  (hP.retry n).const () hf i j

theorem missProb_const {P : W → Res ((α × Bool) × W)} (hP : Renews μ fun (_ : Unit) w => P w) (i j : I) : missProb μ P i = missProb μ P j := by
  refine hP.const () (f := fun a : α × Bool => if a.2 then 0 else 1) ?_ i j
  exact Measurable.ite (measurable_snd (measurableSet_singleton true)) measurable_const measurable_const

omit [∀ i, IsProbabilityMeasure (μ i)] in
theorem ifOk_meas1 {P : W → Res (α × W)} (hP : Renews μ fun (_ : Unit) w => P w) {g : α × W → ℝ≥0∞} (hg : Measurable g) :
    Measurable fun w => ifOk (P w) g :=
  measurable_ifOk (g := fun _ => g) hP.meas1 (hg.comp measurable_snd)

theorem retryMean_succ {P : W → Res ((α × Bool) × W)} (hP : Renews μ fun (_ : Unit) w => P w) (n : ℕ) {f : α → ℝ≥0∞} (hf : Measurable f) (i : I) :
    retryMean μ P (n+1) f i = retryMean μ P 1 f i + missProb μ P i * retryMean μ P n f i := by
  set e := retryMean μ P n f i with he
  have hf1 : Measurable fun t : α × W => f t.1 := hf.comp measurable_fst
  have hmN : Measurable fun w : W => ifOk (retry P n w) fun t => f t.1 := ifOk_meas1 (hP.retry n) hf1
  let g : (α × Bool) × W → ℝ≥0∞ := fun p => if p.1.2 then f p.1.1 else ifOk (retry P n p.2) fun t => f t.1
  have hg : Measurable g := Measurable.ite flag_meas (hf.comp (measurable_fst.comp measurable_fst)) (hmN.comp measurable_snd)
  have hint : ∀ a i', ∫⁻ w, g (a, w) ∂(μ i') = if a.2 then f a.1 else e := by
    intro a i'
    by_cases ha : a.2 = true
    · simp [g, ha]
    · simp only [g, ha, Bool.false_eq_true, if_false]
      exact retryMean_const hP n hf i' i
  have hinv : Inv μ g := fun a i' j' => by rw [hint, hint]
  have h1 : retryMean μ P (n+1) f i = ∫⁻ w, ifOk (P w) g ∂(μ i) := by
    unfold retryMean
    refine lintegral_congr fun w => ?_
    rw [Trento.retry, ifOk_bindR]
    congr 1
    funext t
    simp only [g]
    split <;> rfl
  have h2 : retryMean μ P 1 f i = ∫⁻ w, ifOk (P w) (fun t => if t.1.2 then f t.1.1 else 0) ∂(μ i) :=
    lintegral_congr fun w => ifOk_retry_one P f w
  have h3 := hP.law () g hg hinv i i i
  rw [h1, h3, h2, missProb]
  simp only [hint]
  have hm2 : Measurable fun w : W => ifOk (P w) fun t => if t.1.2 then (0:ℝ≥0∞) else 1 :=
    ifOk_meas1 hP (Measurable.ite flag_meas measurable_const measurable_const)
  have hm1 : Measurable fun w : W => ifOk (P w) fun t => if t.1.2 then f t.1.1 else 0 :=
    ifOk_meas1 hP (Measurable.ite flag_meas (hf.comp (measurable_fst.comp measurable_fst)) measurable_const)
  rw [← lintegral_mul_const _ hm2, ← lintegral_add_left hm1]
  refine lintegral_congr fun w => ?_
  cases P w with
  | error _ => simp [ifOk]
  | ok t =>
    simp only [ifOk]
    split <;> simp

theorem retryMean_eq {P : W → Res ((α × Bool) × W)} (hP : Renews μ fun (_ : Unit) w => P w) (n : ℕ) {f : α → ℝ≥0∞} (hf : Measurable f) (i : I) :
    retryMean μ P n f i = (∑ k ∈ Finset.range n, missProb μ P i ^ k) * retryMean μ P 1 f i := by
  induction n with
  | zero => simp [retryMean, Trento.retry, ifOk]
  | succ n ih =>
    rw [retryMean_succ hP n hf i, ih, Finset.sum_range_succ', pow_zero, add_mul, one_mul, add_comm, ← mul_assoc, Finset.mul_sum]
    congr 3
    funext k
    rw [pow_succ, mul_comm]

omit [∀ i, IsProbabilityMeasure (μ i)] in
/-- an attempt succeeds, misses, or cannot be made -/
theorem miss_add_hit {P : W → Res ((α × Bool) × W)} (hP : Renews μ fun (_ : Unit) w => P w) (i : I) :
    missProb μ P i + retryMean μ P 1 (fun _ => 1) i = ∫⁻ w, ifOk (P w) (fun _ => 1) ∂(μ i) := by
  have hm2 : Measurable fun w : W => ifOk (P w) fun t => if t.1.2 then (0:ℝ≥0∞) else 1 :=
    ifOk_meas1 hP (Measurable.ite flag_meas measurable_const measurable_const)
  unfold missProb retryMean
  rw [← lintegral_add_left hm2]
  refine lintegral_congr fun w => ?_
  rw [ifOk_retry_one P (fun _ => 1)]
  cases P w with
  | error _ => simp [ifOk]
  | ok t =>
    simp only [ifOk]
    by_cases ht : t.1.2 = true <;> simp [ht]

end Trento
