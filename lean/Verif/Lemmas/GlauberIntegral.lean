import Verif.Lemmas.NucleonDensity
import Mathlib.Analysis.SpecialFunctions.PolarCoord

/-!
# The Glauber integral over the impact parameter plane
-/

namespace Trento
open MeasureTheory Set Spec
open scoped ENNReal

/-- The Glauber integral of two densities with the probability `P` that a pair collides, the first nucleus displaced by `(x, y)`. -/
noncomputable def Spec.glauber (ρA ρB : Measure (ℝ × ℝ)) (P : ℝ → ℝ → ℝ≥0∞) (x y : ℝ) : ℝ≥0∞ :=
  ∫⁻ p, (∫⁻ q, P (p.1 - q.1 + x) (p.2 - q.2 + y) ∂ρB) ∂ρA

/-- the integral of a function of the distance over the plane -/
theorem lintegral_turned {K : ℝ → ℝ → ℝ≥0∞} (hK : Measurable fun p : ℝ × ℝ => K p.1 p.2) (hrot : ∀ r θ : ℝ, K (r * Real.cos θ) (r * Real.sin θ) = K r 0) :
    ∫⁻ p : ℝ × ℝ, K p.1 p.2 = ∫⁻ r in Ioi (0:ℝ), ENNReal.ofReal (2 * Real.pi * r) * K r 0 := by
  have hpi := Real.pi_pos
  have hK0 : Measurable fun r : ℝ => K r 0 := hK.comp (measurable_id.prodMk measurable_const)
  have h1 := lintegral_comp_polarCoord_symm fun p : ℝ × ℝ => K p.1 p.2
  rw [← h1]
  have e : ∀ p : ℝ × ℝ, ENNReal.ofReal p.1 • K (polarCoord.symm p).1 (polarCoord.symm p).2 = ENNReal.ofReal p.1 * K p.1 0 := by
    intro p
    rw [smul_eq_mul]
    congr 1
    exact hrot p.1 p.2
  simp only [e, polarCoord_target]
  rw [Measure.volume_eq_prod, ← Measure.prod_restrict]
  have hm : Measurable fun p : ℝ × ℝ => ENNReal.ofReal p.1 * K p.1 0 :=
    (ENNReal.measurable_ofReal.comp measurable_fst).mul (hK0.comp measurable_fst)
  rw [lintegral_prod _ hm.aemeasurable]
  refine setLIntegral_congr_fun measurableSet_Ioi fun r hr => ?_
  simp only [lintegral_const, Measure.restrict_apply_univ, Real.volume_Ioo]
  rw [mul_assoc 2, ENNReal.ofReal_mul zero_le_two, ENNReal.ofReal_mul hpi.le, sub_neg_eq_add, ← two_mul, ENNReal.ofReal_mul zero_le_two]
  ring

variable {ρA ρB : Measure (ℝ × ℝ)} [IsFiniteMeasure ρA] [IsFiniteMeasure ρB] {P : ℝ → ℝ → ℝ≥0∞}

theorem glauber_inner_meas (hP : Measurable fun p : ℝ × ℝ => P p.1 p.2) :
    Measurable fun t : (ℝ × ℝ) × (ℝ × ℝ) => ∫⁻ q, P (t.2.1 - q.1 + t.1.1) (t.2.2 - q.2 + t.1.2) ∂ρB := by
  have h1 : Measurable fun t : ((ℝ × ℝ) × (ℝ × ℝ)) × (ℝ × ℝ) => (t.1.2.1 - t.2.1 + t.1.1.1, t.1.2.2 - t.2.2 + t.1.1.2) := by fun_prop
  exact (hP.comp h1).lintegral_prod_right'

theorem glauber_meas (hP : Measurable fun p : ℝ × ℝ => P p.1 p.2) : Measurable fun p : ℝ × ℝ => glauber ρA ρB P p.1 p.2 :=
  (glauber_inner_meas (ρB := ρB) hP).lintegral_prod_right'

/-- the integral over the plane of the displacements -/
theorem lintegral_glauber (hP : Measurable fun p : ℝ × ℝ => P p.1 p.2) :
    ∫⁻ v : ℝ × ℝ, glauber ρA ρB P v.1 v.2 = ρA univ * ρB univ * ∫⁻ v : ℝ × ℝ, P v.1 v.2 := by
  unfold glauber
  rw [lintegral_lintegral_swap (f := fun v p : ℝ × ℝ => ∫⁻ q, P (p.1 - q.1 + v.1) (p.2 - q.2 + v.2) ∂ρB) (glauber_inner_meas hP).aemeasurable]
  have e1 : ∀ p : ℝ × ℝ, ∫⁻ v : ℝ × ℝ, (∫⁻ q, P (p.1 - q.1 + v.1) (p.2 - q.2 + v.2) ∂ρB) = ρB univ * ∫⁻ v : ℝ × ℝ, P v.1 v.2 := by
    intro p
    have hm : Measurable fun t : (ℝ × ℝ) × (ℝ × ℝ) => P (p.1 - t.2.1 + t.1.1) (p.2 - t.2.2 + t.1.2) :=
      hP.comp (show Measurable fun t : (ℝ × ℝ) × (ℝ × ℝ) => (p.1 - t.2.1 + t.1.1, p.2 - t.2.2 + t.1.2) by fun_prop)
    rw [lintegral_lintegral_swap (f := fun v q : ℝ × ℝ => P (p.1 - q.1 + v.1) (p.2 - q.2 + v.2)) hm.aemeasurable]
    have e2 : ∀ q : ℝ × ℝ, ∫⁻ v : ℝ × ℝ, P (p.1 - q.1 + v.1) (p.2 - q.2 + v.2) = ∫⁻ v : ℝ × ℝ, P v.1 v.2 :=
      fun q => lintegral_add_left_eq_self (fun v : ℝ × ℝ => P v.1 v.2) (p.1 - q.1, p.2 - q.2)
    simp only [e2, lintegral_const]
    ring
  simp only [e1, lintegral_const]
  ring

omit [IsFiniteMeasure ρA] in
/-- turning both nuclei and the displacement -/
theorem glauber_turn {c s : ℝ} (hP : Measurable fun p : ℝ × ℝ => P p.1 p.2)
    (hA : ∀ f : ℝ × ℝ → ℝ≥0∞, Measurable f → ∫⁻ p, f (turnPoint c s p) ∂ρA = ∫⁻ p, f p ∂ρA)
    (hB : ∀ f : ℝ × ℝ → ℝ≥0∞, Measurable f → ∫⁻ p, f (turnPoint c s p) ∂ρB = ∫⁻ p, f p ∂ρB)
    (hPr : ∀ x y, P (c * x - s * y) (s * x + c * y) = P x y) (x y : ℝ) :
    glauber ρA ρB P (c * x - s * y) (s * x + c * y) = glauber ρA ρB P x y := by
  unfold glauber
  have hm : Measurable fun p : ℝ × ℝ => ∫⁻ q, P (p.1 - q.1 + (c * x - s * y)) (p.2 - q.2 + (s * x + c * y)) ∂ρB :=
    (glauber_inner_meas (ρB := ρB) hP).comp (show Measurable fun p : ℝ × ℝ => (((c * x - s * y, s * x + c * y), p) : (ℝ × ℝ) × (ℝ × ℝ)) by fun_prop)
  rw [← hA _ hm]
  refine lintegral_congr fun p => ?_
  have hq : Measurable fun q : ℝ × ℝ => P ((turnPoint c s p).1 - q.1 + (c * x - s * y)) ((turnPoint c s p).2 - q.2 + (s * x + c * y)) :=
    hP.comp (show Measurable fun q : ℝ × ℝ => ((turnPoint c s p).1 - q.1 + (c * x - s * y), (turnPoint c s p).2 - q.2 + (s * x + c * y)) by fun_prop)
  rw [← hB _ hq]
  refine lintegral_congr fun q => ?_
  rw [← hPr (p.1 - q.1 + x) (p.2 - q.2 + y)]
  congr 1 <;> (simp only [turnPoint]; ring)

omit [IsFiniteMeasure ρA] [IsFiniteMeasure ρB] in
/-- no collisions beyond the sum of the radii and the range of `P` -/
theorem glauber_far {rA rB d : ℝ} (hA : ∀ᵐ p ∂ρA, |p.1| ≤ rA) (hB : ∀ᵐ p ∂ρB, |p.1| ≤ rB) (hP : ∀ x y, d < x → P x y = 0) {b : ℝ} (hb : rA + rB + d < b) (y : ℝ) :
    glauber ρA ρB P b y = 0 := by
  unfold glauber
  rw [lintegral_congr_ae (g := fun _ => 0) (hA.mono fun p hp => ?_), lintegral_zero]
  show ∫⁻ q, P (p.1 - q.1 + b) (p.2 - q.2 + y) ∂ρB = 0
  rw [lintegral_congr_ae (g := fun _ => 0) (hB.mono fun q hq => ?_), lintegral_zero]
  refine hP _ _ ?_
  have h1 := abs_le.mp hp
  have h2 := abs_le.mp hq
  linarith [h1.1, h2.2]

/-- **the total**, over a disk that holds all collisions -/
theorem glauber_total (hP : Measurable fun p : ℝ × ℝ => P p.1 p.2)
    (hrot : ∀ r θ : ℝ, glauber ρA ρB P (r * Real.cos θ) (r * Real.sin θ) = glauber ρA ρB P r 0) :
    ∫⁻ b in Ioi (0:ℝ), ENNReal.ofReal (2 * Real.pi * b) * glauber ρA ρB P b 0 = ρA univ * ρB univ * ∫⁻ v : ℝ × ℝ, P v.1 v.2 := by
  rw [← lintegral_glauber hP, lintegral_turned (glauber_meas hP) hrot]

end Trento
