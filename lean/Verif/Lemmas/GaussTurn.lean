import Verif.Lemmas.ConstituentLaw
import Verif.Lemmas.GlauberIntegral
import Mathlib.MeasureTheory.Measure.CharacteristicFunction.Basic
import Mathlib.Probability.Distributions.Gaussian.Real

/-!
# Two independent normal numbers have no preferred direction
-/

namespace Trento
open MeasureTheory Set ProbabilityTheory Spec
open scoped ENNReal NNReal

theorem charFunDual_gauss2 (v : ℝ≥0) (L : StrongDual ℝ (ℝ × ℝ)) :
    charFunDual ((gaussianReal 0 v).prod (gaussianReal 0 v)) L = Complex.exp (-(v:ℝ) * ((L (1, 0))^2 + (L (0, 1))^2 : ℝ) / 2) := by
  have h1 : ∀ M : StrongDual ℝ ℝ, charFunDual (gaussianReal 0 v) M = Complex.exp (-(v:ℝ) * ((M 1)^2 : ℝ) / 2) := by
    intro M
    have e : ∀ x : ℝ, M x = M 1 * x := by
      intro x
      have := M.map_smul x (1:ℝ)
      simp only [smul_eq_mul, mul_one] at this
      rw [this, mul_comm]
    have h2 := charFun_gaussianReal (μ := 0) (v := v) (M 1)
    rw [charFun_apply_real] at h2
    rw [charFunDual_apply]
    have h3 : ∀ x : ℝ, Complex.exp (M x * Complex.I) = Complex.exp (((M 1 : ℝ) : ℂ) * (x : ℂ) * Complex.I) := by
      intro x
      rw [e x]
      push_cast
      rfl
    rw [integral_congr_ae (Filter.Eventually.of_forall h3), h2]
    congr 1
    push_cast
    simp
    ring
  rw [charFunDual_prod, h1, h1, ← Complex.exp_add]
  congr 1
  simp
  ring

/-- the turn as a linear map -/
noncomputable def turnL (c s : ℝ) : (ℝ × ℝ) →L[ℝ] (ℝ × ℝ) :=
  (c • ContinuousLinearMap.fst ℝ ℝ ℝ - s • ContinuousLinearMap.snd ℝ ℝ ℝ).prod (s • ContinuousLinearMap.fst ℝ ℝ ℝ + c • ContinuousLinearMap.snd ℝ ℝ ℝ)

theorem turnL_apply (c s : ℝ) (p : ℝ × ℝ) : turnL c s p = turnPoint c s p := by
  simp [turnL, turnPoint]

theorem gauss_turn (v : ℝ≥0) {c s : ℝ} (hcs : c^2 + s^2 = 1) :
    ((gaussianReal 0 v).prod (gaussianReal 0 v)).map (turnPoint c s) = (gaussianReal 0 v).prod (gaussianReal 0 v) := by
  have hf : turnPoint c s = turnL c s := by funext p; exact (turnL_apply c s p).symm
  rw [hf]
  have : IsProbabilityMeasure (((gaussianReal 0 v).prod (gaussianReal 0 v)).map (turnL c s)) := Measure.isProbabilityMeasure_map (turnL c s).measurable.aemeasurable
  refine Measure.ext_of_charFunDual ?_
  funext L
  rw [charFunDual_map, charFunDual_gauss2, charFunDual_gauss2]
  congr 4
  have e : ∀ p : ℝ × ℝ, L p = p.1 * L (1, 0) + p.2 * L (0, 1) := by
    intro p
    have : p = p.1 • ((1:ℝ), (0:ℝ)) + p.2 • ((0:ℝ), (1:ℝ)) := by ext <;> simp
    conv_lhs => rw [this]
    rw [map_add, map_smul, map_smul, smul_eq_mul, smul_eq_mul]
  simp only [ContinuousLinearMap.comp_apply, turnL_apply, turnPoint]
  rw [e (c * 1 - s * 0, s * 1 + c * 0), e (c * 0 - s * 1, s * 0 + c * 1)]
  linear_combination (L (1, 0) ^ 2 + L (0, 1) ^ 2) * hcs

/-- position turned, weight kept -/
def turnC3 (c s : ℝ) (p : ℝ × ℝ × ℝ) : ℝ × ℝ × ℝ := (c * p.1 - s * p.2.1, s * p.1 + c * p.2.1, p.2.2)

theorem turnC3_meas (c s : ℝ) : Measurable (turnC3 c s) := by unfold turnC3; fun_prop

theorem constituentLaw_turn (w k : ℝ) (hk : 0 < k) {c s : ℝ} (hcs : c^2 + s^2 = 1) : (constituentLaw w k).map (turnC3 c s) = constituentLaw w k := by
  have hp : IsProbabilityMeasure (gammaMeasure k k) := isProbabilityMeasure_gammaMeasure hk hk
  unfold constituentLaw
  set N := gaussianReal 0 (w^2).toNNReal
  have e : turnC3 c s = MeasurableEquiv.prodAssoc ∘ (Prod.map (turnPoint c s) id ∘ MeasurableEquiv.prodAssoc.symm) := by
    funext p
    simp [turnC3, turnPoint, MeasurableEquiv.prodAssoc]
  rw [e]
  have hm1 : Measurable (Prod.map (turnPoint c s) (id : ℝ → ℝ)) := (turnPoint_meas c s).prodMap measurable_id
  rw [← Measure.map_map MeasurableEquiv.prodAssoc.measurable (hm1.comp MeasurableEquiv.prodAssoc.symm.measurable), ← Measure.map_map hm1 MeasurableEquiv.prodAssoc.symm.measurable]
  have h1 : (N.prod (N.prod (gammaMeasure k k))).map MeasurableEquiv.prodAssoc.symm = (N.prod N).prod (gammaMeasure k k) := by
    rw [← Measure.prodAssoc_prod, Measure.map_map MeasurableEquiv.prodAssoc.symm.measurable MeasurableEquiv.prodAssoc.measurable]
    simp
  rw [h1, ← Measure.map_prod_map _ _ (turnPoint_meas c s) measurable_id, gauss_turn _ hcs, Measure.map_id, Measure.prodAssoc_prod]

end Trento
