import Verif.Lemmas.Haar
import Mathlib.MeasureTheory.Measure.Prod
import Mathlib.Probability.ProductMeasure

/-!
# An ideal source of random numbers

What the documentation takes for granted about the random engine: successive canonical numbers are independent and uniform in `[0, 1)`.
-/

namespace Trento
open MeasureTheory Set Real Spec
open scoped ENNReal

variable {E D : Type} [Rng ℝ E D] [MeasurableSpace E]

/-- The engine state `e`, drawn with probability law `μ`, is an ideal source of random numbers: the next canonical number is uniform in `[0, 1)` and
independent of the state of the engine after it, which has the law `μ` again; the same holds, with some law, for the radii of the Woods–Saxon
distribution and for the index of a configuration.  (`std::piecewise_linear_distribution` and `std::uniform_int_distribution` keep no values
from one draw to the next: the second components do not change.) -/
structure Spec.IdealSource (E D : Type) [Rng ℝ E D] [MeasurableSpace E] (μ : Measure E) : Prop where
  prob : IsProbabilityMeasure μ
  canonical_meas : Measurable fun e : E => Rng.canonical (F := ℝ) (D := D) e
  canonical_law : μ.map (fun e : E => Rng.canonical (F := ℝ) (D := D) e) = (volume.restrict (Ico (0:ℝ) 1)).prod μ
  radius_state : ∀ (t : List (ℝ × ℝ)) (d : D) (e : E), (Rng.piecewiseLinear t d e).2.1 = d
  radius_meas : ∀ (t : List (ℝ × ℝ)) (d : D), Measurable fun e : E => ((Rng.piecewiseLinear t d e).1, (Rng.piecewiseLinear t d e).2.2)
  radius_law : ∀ (t : List (ℝ × ℝ)) (d : D), ∃ ν : Measure ℝ, IsProbabilityMeasure ν ∧
    μ.map (fun e : E => ((Rng.piecewiseLinear t d e).1, (Rng.piecewiseLinear t d e).2.2)) = ν.prod μ
  index_meas : ∀ (k : ℕ) (d : D), Measurable fun e : E => ((Rng.uniformInt ℝ k d e).1, (Rng.uniformInt ℝ k d e).2.2)

variable {μ : Measure E}

/-- the next canonical number and the engine after it -/
noncomputable def can (E D : Type) [Rng ℝ E D] (e : E) : ℝ × E := Rng.canonical (F := ℝ) (D := D) e

theorem Spec.IdealSource.can_meas (h : IdealSource E D μ) : Measurable (can E D) := h.canonical_meas

theorem Spec.IdealSource.can_lintegral (h : IdealSource E D μ) {g : ℝ × E → ℝ≥0∞} (hg : Measurable g) :
    ∫⁻ e, g (can E D e) ∂μ = ∫⁻ u in Ico (0:ℝ) 1, ∫⁻ e, g (u, e) ∂μ := by
  have := h.prob
  unfold can
  rw [← lintegral_map hg h.canonical_meas, h.canonical_law, lintegral_prod _ hg.aemeasurable]

theorem Spec.IdealSource.radius_lintegral (h : IdealSource E D μ) (t : List (ℝ × ℝ)) (d : D) :
    ∃ ν : Measure ℝ, IsProbabilityMeasure ν ∧ ∀ g : ℝ × E → ℝ≥0∞, Measurable g →
      ∫⁻ e, g ((Rng.piecewiseLinear t d e).1, (Rng.piecewiseLinear t d e).2.2) ∂μ = ∫⁻ r, ∫⁻ e, g (r, e) ∂μ ∂ν := by
  have := h.prob
  obtain ⟨ν, hν, hl⟩ := h.radius_law t d
  refine ⟨ν, hν, fun g hg => ?_⟩
  rw [← lintegral_map hg (h.radius_meas t d), hl, lintegral_prod _ hg.aemeasurable]

/-- an affine change of variables -/
theorem lintegral_affine {a b : ℝ} (ha : 0 < a) (k : ℝ → ℝ≥0∞) :
    ∫⁻ u in Ioo (0:ℝ) 1, k (a * u + b) = ENNReal.ofReal (1/a) * ∫⁻ c in Ioo b (a + b), k c := by
  have himg : (fun u : ℝ => a * u + b) '' Ioo 0 1 = Ioo b (a + b) := by
    ext c
    simp only [mem_image, mem_Ioo]
    constructor
    · rintro ⟨u, ⟨h0, h1⟩, rfl⟩; constructor <;> nlinarith
    · rintro ⟨h0, h1⟩
      refine ⟨(c - b)/a, ⟨by apply div_pos <;> linarith, by rw [div_lt_one ha]; linarith⟩, by field_simp; ring⟩
  have := lintegral_image_eq_lintegral_abs_deriv_mul (s := Ioo (0:ℝ) 1) (f := fun u => a * u + b) (f' := fun _ => a) measurableSet_Ioo
    (fun x _ => by simpa using (((hasDerivAt_id x).const_mul a).add_const b).hasDerivWithinAt)
    (fun x _ y _ hxy => by simpa [ha.ne'] using hxy) k
  rw [himg] at this
  rw [this, abs_of_pos ha, lintegral_const_mul' _ _ ENNReal.ofReal_ne_top, ← mul_assoc, ← ENNReal.ofReal_mul (by positivity),
    one_div_mul_cancel ha.ne']
  simp

theorem lintegral_cosU (k : ℝ → ℝ≥0∞) : ∫⁻ u in Ico (0:ℝ) 1, k (2 * u - 1) = ENNReal.ofReal (1/2) * ∫⁻ c in Ioo (-1:ℝ) 1, k c := by
  have := lintegral_affine (a := 2) (b := -1) (by norm_num) k
  norm_num at this ⊢
  rw [← this]
  exact (setLIntegral_congr Ioo_ae_eq_Ico.symm).trans (by simp only [sub_eq_add_neg])

theorem lintegral_phiU {k : ℝ → ℝ≥0∞} (hk : Function.Periodic k (2*π)) :
    ∫⁻ u in Ico (0:ℝ) 1, k (2 * π * u) = ENNReal.ofReal (1/(2*π)) * circ k := by
  have := lintegral_affine (a := 2*π) (b := 0) (by positivity) k
  rw [circ_eq hk 0, zero_add]
  rw [add_zero, setLIntegral_congr (Ioo_ae_eq_Ioc (a := (0:ℝ)) (b := 2*π))] at this
  rw [← this]
  exact (setLIntegral_congr Ioo_ae_eq_Ico.symm).trans (by simp only [add_zero])

/-- the normalisation of the uniform direction -/
noncomputable def sphereConst : ℝ≥0∞ := ENNReal.ofReal (1/2) * ENNReal.ofReal (1/(2*π))

/-- two canonical numbers in a row -/
noncomputable def draw2 (E D : Type) [Rng ℝ E D] (e : E) : (ℝ × ℝ) × E :=
  (((can E D e).1, (can E D (can E D e).2).1), (can E D (can E D e).2).2)

theorem Spec.IdealSource.draw2_meas (h : IdealSource E D μ) : Measurable (draw2 E D) := by
  have h1 := h.can_meas
  have h2 := h1.comp (measurable_snd.comp h1)
  exact ((measurable_fst.comp h1).prodMk (measurable_fst.comp h2)).prodMk (measurable_snd.comp h2)

theorem Spec.IdealSource.draw2_lintegral (h : IdealSource E D μ) {g : (ℝ × ℝ) × E → ℝ≥0∞} (hg : Measurable g) :
    ∫⁻ e, g (draw2 E D e) ∂μ = ∫⁻ u in Ico (0:ℝ) 1, ∫⁻ v in Ico (0:ℝ) 1, ∫⁻ e, g ((u, v), e) ∂μ := by
  have hc : Measurable fun t : ℝ × E => can E D t.2 := h.can_meas.comp measurable_snd
  have hm : Measurable fun t : ℝ × E => g ((t.1, (can E D t.2).1), (can E D t.2).2) :=
    hg.comp ((measurable_fst.prodMk (measurable_fst.comp hc)).prodMk (measurable_snd.comp hc))
  have e1 := h.can_lintegral hm
  refine Eq.trans ?_ (e1.trans ?_)
  · rfl
  apply lintegral_congr
  intro u
  have hm2 : Measurable fun t : ℝ × E => g ((u, t.1), t.2) :=
    hg.comp ((measurable_const.prodMk measurable_fst).prodMk measurable_snd)
  exact h.can_lintegral hm2

/-- direction of a polar cosine and an azimuth drawn in this order -/
theorem Spec.IdealSource.dir_lintegral (h : IdealSource E D μ) {k : V3 × E → ℝ≥0∞} (hk : Measurable k) :
    ∫⁻ e, k (dir (2 * (draw2 E D e).1.1 - 1) (2 * π * (draw2 E D e).1.2), (draw2 E D e).2) ∂μ =
      sphereConst * sphereInt fun n => ∫⁻ e, k (n, e) ∂μ := by
  have := h.prob
  have hdir : Measurable fun t : ℝ × ℝ => dir t.1 t.2 := by unfold dir; fun_prop
  have hn : Measurable fun n : V3 => ∫⁻ e, k (n, e) ∂μ := hk.lintegral_prod_right'
  have hm : Measurable fun t : (ℝ × ℝ) × E => k (dir (2 * t.1.1 - 1) (2 * π * t.1.2), t.2) := by
    have h1 : Measurable fun t : (ℝ × ℝ) × E => (2 * t.1.1 - 1, 2 * π * t.1.2) := by fun_prop
    exact hk.comp ((hdir.comp h1).prodMk measurable_snd)
  refine (h.draw2_lintegral hm).trans ?_
  simp only
  rw [lintegral_cosU (fun c => ∫⁻ v in Ico (0:ℝ) 1, ∫⁻ e, k (dir c (2 * π * v), e) ∂μ)]
  have e2 : ∀ c, ∫⁻ v in Ico (0:ℝ) 1, ∫⁻ e, k (dir c (2 * π * v), e) ∂μ =
      ENNReal.ofReal (1/(2*π)) * circ fun φ => ∫⁻ e, k (dir c φ, e) ∂μ := by
    intro c
    exact lintegral_phiU (k := fun φ => ∫⁻ e, k (dir c φ, e) ∂μ) (fun φ => by simp only [dir, cos_add_two_pi, sin_add_two_pi])
  simp only [e2]
  rw [lintegral_const_mul' _ _ ENNReal.ofReal_ne_top, ← mul_assoc]
  unfold sphereConst sphereInt circ
  congr 1
  rw [lintegral_lintegral_swap]
  exact (hn.comp hdir).aemeasurable

end Trento
