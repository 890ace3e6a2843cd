import Verif.Lemmas.Iterate
import Mathlib.Probability.Moments.Variance
import Mathlib.Probability.ConditionalProbability

/-! # The mean of independent results -/

namespace Trento
open MeasureTheory Set Spec ProbabilityTheory
open scoped ENNReal

variable {α W I : Type} [MeasurableSpace α] [MeasurableSpace W]

theorem pi_cond (ρ : Measure α) [IsFiniteMeasure ρ] (hp : ρ univ ≠ 0) (k : ℕ) :
    Measure.pi (fun _ : Fin k => ρ) = (ρ univ) ^ k • Measure.pi fun _ : Fin k => ρ[|univ] := by
  have : IsProbabilityMeasure (ρ[|univ]) := cond_isProbabilityMeasure hp
  refine Measure.pi_eq fun s hs => ?_
  rw [Measure.smul_apply, Measure.pi_pi, smul_eq_mul]
  have e : ∀ l : Fin k, ρ (s l) = ρ univ * ρ[|univ] (s l) := by
    intro l
    rw [cond_apply MeasurableSet.univ, univ_inter, ← mul_assoc, ENNReal.mul_inv_cancel hp (measure_ne_top ρ univ), one_mul]
  simp only [e, Finset.prod_mul_distrib, Finset.prod_const, Finset.card_univ, Fintype.card_fin]

/-- Chebyshev's inequality for the mean of independent results -/
theorem sampleMean_dev (ρ : Measure α) [IsFiniteMeasure ρ] (hp : ρ univ ≠ 0) {f : α → ℝ} (hf2 : MemLp f 2 (ρ[|univ])) {k : ℕ} (hk : 0 < k)
    {ε : ℝ} (hε : 0 < ε) :
    Measure.pi (fun _ : Fin k => ρ) {v | ε ≤ |(∑ l, f (v l)) / k - ∫ x, f x ∂(ρ[|univ])|} ≤ (ρ univ) ^ k * ENNReal.ofReal (Var[f; ρ[|univ]] / (k * ε ^ 2)) := by
  have : IsProbabilityMeasure (ρ[|univ]) := cond_isProbabilityMeasure hp
  rw [pi_cond ρ hp k, Measure.smul_apply, smul_eq_mul]
  refine mul_le_mul_right ?_ _
  have hk' : (0:ℝ) < k := by exact_mod_cast hk
  set ν := Measure.pi fun _ : Fin k => ρ[|univ]
  have hX : ∀ l : Fin k, MemLp (fun v : Fin k → α => f (v l)) 2 ν := fun l => hf2.comp_measurePreserving (measurePreserving_eval (fun _ : Fin k => ρ[|univ]) l)
  have hS : MemLp (∑ l, fun v : Fin k → α => f (v l)) 2 ν := memLp_finsetSum' _ fun l _ => hX l
  have hmean : ∫ v, (∑ l, fun v : Fin k → α => f (v l)) v ∂ν = k * ∫ x, f x ∂(ρ[|univ]) := by
    simp only [Finset.sum_apply]
    rw [integral_finsetSum _ fun l _ => (hX l).integrable (by norm_num)]
    have e : ∀ l : Fin k, ∫ v, f (v l) ∂ν = ∫ x, f x ∂(ρ[|univ]) := fun l => by
      have mp := measurePreserving_eval (fun _ : Fin k => ρ[|univ]) l
      have hae : AEStronglyMeasurable f (ν.map (Function.eval l)) := by rw [mp.map_eq]; exact hf2.1
      have := integral_map mp.measurable.aemeasurable hae
      rw [mp.map_eq] at this
      exact this.symm
    simp [e]
  have hvar : Var[∑ l, fun v : Fin k → α => f (v l); ν] = k * Var[f; ρ[|univ]] := by
    have := variance_sum_pi (μ := fun _ : Fin k => ρ[|univ]) (X := fun _ => f) fun _ => hf2
    simpa using this
  have hc := meas_ge_le_variance_div_sq hS (c := k * ε) (by positivity)
  rw [hmean, hvar] at hc
  refine le_trans (measure_mono ?_) (hc.trans_eq ?_)
  · intro v hv
    rw [mem_ofPred_eq] at hv ⊢
    rw [Finset.sum_apply]
    have : (∑ l, f (v l)) - k * ∫ x, f x ∂(ρ[|univ]) = k * ((∑ l, f (v l)) / k - ∫ x, f x ∂(ρ[|univ])) := by field_simp
    rw [this, abs_mul, abs_of_pos hk']
    exact mul_le_mul_of_nonneg_left hv hk'.le
  · congr 1
    field_simp

variable {μ : I → Measure W} [∀ i, IsProbabilityMeasure (μ i)]

/-- events in terms of the product measure -/
theorem iter_event {P : W → Res (α × W)} (hP : Renews μ fun (_ : Unit) w => P w) (k : ℕ) (i j : I) {T : Set (List α)} (hT : MeasurableSet T) :
    (μ i) {w | ∃ l, (iter P k w).map Prod.fst = .ok l ∧ l ∈ T} =
      Measure.pi (fun _ : Fin k => okLaw (μ j) fun w => (P w).map Prod.fst) {v | List.ofFn v ∈ T} := by
  have hmap : ∀ {β : Type} [MeasurableSpace β] {r : W → Res (β × W)}, Measurable r → Measurable fun w => (r w).map Prod.fst := by
    intro β _ r hr
    refine measurable_of_eq (measurable_exBind (r := r) (g := fun _ a => .ok a.1) hr (measurable_ok.comp (by fun_prop))) fun w => ?_
    cases r w <;> rfl
  have hk : Measurable fun w => (Trento.iter P k w).map Prod.fst := hmap (hP.iter k).meas1
  have hT' : MeasurableSet {v : Fin k → α | List.ofFn v ∈ T} := measurable_ofFn k hT
  rw [← iter_law hP k i j, (embedding_ofFn k).comap_apply, okLaw_apply hk ((embedding_ofFn k).measurableSet_image.mpr hT')]
  congr 1
  ext w
  simp only [mem_ofPred_eq]
  refine exists_congr fun l => and_congr_right fun hl => ?_
  cases h : Trento.iter P k w with
  | error e => rw [h] at hl; cases hl
  | ok t =>
    rw [h] at hl
    simp only [Except.map, Except.ok.injEq] at hl
    have hlen := iter_length h
    rw [hl] at hlen
    obtain ⟨v, rfl⟩ : ∃ v : Fin k → α, List.ofFn v = l := by
      subst hlen
      exact ⟨l.get, List.ofFn_get l⟩
    rw [List.ofFn_injective.mem_set_image]
    rfl

end Trento
