import Verif.Lemmas.IdealTape
import Mathlib.Analysis.SpecialFunctions.PolarCoord
import Mathlib.MeasureTheory.Function.JacobianOneDim
import Mathlib.Probability.Distributions.Gaussian.Real
import Mathlib.MeasureTheory.Measure.Lebesgue.Integral

/-!
# Marsaglia's polar method

Two uniform numbers that fall into the unit disc give two independent standard normal numbers.
-/

namespace Trento
open MeasureTheory Set ProbabilityTheory
open scoped ENNReal

/-- the standard normal law -/
noncomputable abbrev gauss : Measure ℝ := gaussianReal 0 1

/-- the accepted pairs of canonical numbers -/
def polarAcc : Set (ℝ × ℝ) :=
  {p | 0 < (2 * p.1 - 1) * (2 * p.1 - 1) + (2 * p.2 - 1) * (2 * p.2 - 1) ∧ (2 * p.1 - 1) * (2 * p.1 - 1) + (2 * p.2 - 1) * (2 * p.2 - 1) ≤ 1}

theorem polarAcc_meas : MeasurableSet polarAcc := by
  unfold polarAcc
  measurability

/-- the factor of the polar method -/
noncomputable def polarMult (r : ℝ) : ℝ := Real.sqrt (-2 * Real.log r / r)

/-- the two normal numbers from a point of the disc -/
noncomputable def polarPair (p : ℝ × ℝ) : ℝ × ℝ :=
  (p.2 * polarMult (p.1 * p.1 + p.2 * p.2), p.1 * polarMult (p.1 * p.1 + p.2 * p.2))

theorem polarMult_meas : Measurable polarMult := by unfold polarMult; fun_prop

theorem polarPair_meas : Measurable polarPair := by
  unfold polarPair
  have := polarMult_meas
  fun_prop

/-- the radial change of variables -/
theorem polar_radial (h : ℝ → ℝ≥0∞) :
    ∫⁻ r in Ioo (0:ℝ) 1, ENNReal.ofReal r * h (Real.sqrt (-4 * Real.log r)) =
      ∫⁻ ρ in Ioi (0:ℝ), ENNReal.ofReal (1 / 2) * (ENNReal.ofReal ρ * (ENNReal.ofReal (Real.exp (-ρ ^ 2 / 2)) * h ρ)) := by
  set f : ℝ → ℝ := fun ρ => Real.exp (-ρ ^ 2 / 4) with hf
  have himg : f '' Ioi 0 = Ioo 0 1 := by
    ext r
    constructor
    · rintro ⟨ρ, hρ, rfl⟩
      refine ⟨Real.exp_pos _, ?_⟩
      rw [hf]
      dsimp only
      rw [Real.exp_lt_one_iff]
      have : 0 < ρ := hρ
      have : 0 < ρ ^ 2 := by positivity
      linarith
    · rintro ⟨h0, h1⟩
      have hl : Real.log r < 0 := Real.log_neg h0 h1
      refine ⟨Real.sqrt (-4 * Real.log r), Real.sqrt_pos.2 (by linarith), ?_⟩
      rw [hf]
      dsimp only
      rw [Real.sq_sqrt (by linarith)]
      rw [show -(-4 * Real.log r) / 4 = Real.log r by ring, Real.exp_log h0]
  have hder : ∀ ρ ∈ Ioi (0:ℝ), HasDerivWithinAt f (-(ρ / 2) * Real.exp (-ρ ^ 2 / 4)) (Ioi 0) ρ := by
    intro ρ _
    have h1 : HasDerivAt (fun ρ : ℝ => -ρ ^ 2 / 4) (-(ρ / 2)) ρ := by
      have := ((hasDerivAt_pow 2 ρ).neg).div_const 4
      refine this.congr_deriv ?_
      norm_num
      ring
    have := h1.exp
    rw [mul_comm] at this
    exact this.hasDerivWithinAt
  have hinj : InjOn f (Ioi 0) := by
    intro a ha b hb hab
    have h1 : -a ^ 2 / 4 = -b ^ 2 / 4 := Real.exp_injective hab
    have h2 : a ^ 2 = b ^ 2 := by linarith
    exact (pow_left_inj₀ (le_of_lt ha) (le_of_lt hb) two_ne_zero).1 h2
  rw [← himg, lintegral_image_eq_lintegral_abs_deriv_mul measurableSet_Ioi hder hinj]
  refine setLIntegral_congr_fun measurableSet_Ioi fun ρ hρ => ?_
  have hρ0 : 0 < ρ := hρ
  have e1 : Real.sqrt (-4 * Real.log (f ρ)) = ρ := by
    rw [hf]
    dsimp only
    rw [Real.log_exp, show -4 * (-ρ ^ 2 / 4) = ρ ^ 2 by ring, Real.sqrt_sq hρ0.le]
  have e2 : |-(ρ / 2) * Real.exp (-ρ ^ 2 / 4)| = ρ / 2 * Real.exp (-ρ ^ 2 / 4) := by
    rw [abs_mul, abs_neg, abs_of_pos (by positivity), abs_of_pos (Real.exp_pos _)]
  rw [e1, e2, ← mul_assoc, ← mul_assoc, ← mul_assoc]
  congr 1
  rw [← ENNReal.ofReal_mul (by positivity), ← ENNReal.ofReal_mul (by norm_num), ← ENNReal.ofReal_mul (by positivity)]
  congr 1
  have : Real.exp (-ρ ^ 2 / 2) = Real.exp (-ρ ^ 2 / 4) * Real.exp (-ρ ^ 2 / 4) := by rw [← Real.exp_add]; congr 1; ring
  rw [this, hf]
  ring

/-- the plane in polar coordinates, angle first -/
theorem lintegral_polar' (f : ℝ × ℝ → ℝ≥0∞) (hf : Measurable f) :
    ∫⁻ p, f p = ∫⁻ θ in Ioo (-Real.pi) Real.pi, ∫⁻ r in Ioi (0:ℝ), ENNReal.ofReal r * f (r * Real.cos θ, r * Real.sin θ) := by
  rw [← lintegral_comp_polarCoord_symm]
  show ∫⁻ p in Ioi (0:ℝ) ×ˢ Ioo (-Real.pi) Real.pi, ENNReal.ofReal p.1 • f (p.1 * Real.cos p.2, p.1 * Real.sin p.2) = _
  rw [Measure.volume_eq_prod, ← Measure.prod_restrict, lintegral_prod_symm]
  · rfl
  · have : Measurable fun p : ℝ × ℝ => (p.1 * Real.cos p.2, p.1 * Real.sin p.2) := by fun_prop
    exact ((ENNReal.measurable_ofReal.comp measurable_fst).mul (hf.comp this)).aemeasurable

/-- two independent standard normal numbers, as a density -/
theorem gauss_prod (g : ℝ × ℝ → ℝ≥0∞) (hg : Measurable g) :
    ∫⁻ p, g p ∂(gauss.prod gauss) = ∫⁻ p : ℝ × ℝ, ENNReal.ofReal ((2 * Real.pi)⁻¹ * Real.exp (-(p.1 ^ 2 + p.2 ^ 2) / 2)) * g p := by
  rw [gauss, gaussianReal_of_var_ne_zero 0 one_ne_zero, prod_withDensity (measurable_gaussianPDF 0 1) (measurable_gaussianPDF 0 1),
    lintegral_withDensity_eq_lintegral_mul _ (by fun_prop) hg]
  refine lintegral_congr fun p => ?_
  show gaussianPDF 0 1 p.1 * gaussianPDF 0 1 p.2 * g p = _
  congr 1
  rw [gaussianPDF, gaussianPDF, ← ENNReal.ofReal_mul (gaussianPDFReal_nonneg _ _ _)]
  congr 1
  unfold gaussianPDFReal
  simp only [NNReal.coe_one, mul_one, sub_zero]
  have h1 : Real.exp (-(p.1 ^ 2 + p.2 ^ 2) / 2) = Real.exp (-p.1 ^ 2 / 2) * Real.exp (-p.2 ^ 2 / 2) := by
    rw [← Real.exp_add]; congr 1; ring
  have h2 : (2 * Real.pi)⁻¹ = (Real.sqrt (2 * Real.pi))⁻¹ * (Real.sqrt (2 * Real.pi))⁻¹ := by
    rw [← mul_inv, Real.mul_self_sqrt (by positivity)]
  rw [h1, h2]
  ring

/-- the unit disc without its centre -/
def disc : Set (ℝ × ℝ) := {p | 0 < p.1 * p.1 + p.2 * p.2 ∧ p.1 * p.1 + p.2 * p.2 ≤ 1}

theorem disc_meas : MeasurableSet disc := by
  unfold disc
  measurability

theorem disc_law (g : ℝ × ℝ → ℝ≥0∞) (hg : Measurable g) :
    ∫⁻ p in disc, g (polarPair p) = ENNReal.ofReal Real.pi * ∫⁻ q, g q ∂(gauss.prod gauss) := by
  rw [← lintegral_indicator disc_meas, lintegral_polar' (disc.indicator fun p => g (polarPair p)) (Measurable.indicator (hg.comp polarPair_meas) disc_meas)]
  have hin : ∀ θ, ∫⁻ r in Ioi (0:ℝ), ENNReal.ofReal r * disc.indicator (fun p => g (polarPair p)) (r * Real.cos θ, r * Real.sin θ) =
      ∫⁻ ρ in Ioi (0:ℝ), ENNReal.ofReal (1 / 2) * (ENNReal.ofReal ρ * (ENNReal.ofReal (Real.exp (-ρ ^ 2 / 2)) * g (ρ * Real.sin θ, ρ * Real.cos θ))) := by
    intro θ
    rw [← polar_radial fun ρ => g (ρ * Real.sin θ, ρ * Real.cos θ)]
    have hr : ∀ r : ℝ, r * Real.cos θ * (r * Real.cos θ) + r * Real.sin θ * (r * Real.sin θ) = r ^ 2 := by
      intro r
      have := Real.sin_sq_add_cos_sq θ
      calc _ = r ^ 2 * (Real.sin θ ^ 2 + Real.cos θ ^ 2) := by ring
        _ = r ^ 2 := by rw [this, mul_one]
    have h1 : ∫⁻ r in Ioi (0:ℝ), ENNReal.ofReal r * disc.indicator (fun p => g (polarPair p)) (r * Real.cos θ, r * Real.sin θ) =
        ∫⁻ r in Ioi (0:ℝ), (Ioc (0:ℝ) 1).indicator (fun r => ENNReal.ofReal r * g (polarPair (r * Real.cos θ, r * Real.sin θ))) r := by
      refine setLIntegral_congr_fun measurableSet_Ioi fun r hr0 => ?_
      have hr0 : 0 < r := hr0
      by_cases h : r ≤ 1
      · rw [indicator_of_mem (show r ∈ Ioc (0:ℝ) 1 from ⟨hr0, h⟩), indicator_of_mem]
        show _ ∧ _
        dsimp only
        rw [hr]
        exact ⟨by positivity, by nlinarith⟩
      · rw [indicator_of_notMem (s := Ioc (0:ℝ) 1) (fun hm => h hm.2), indicator_of_notMem, mul_zero]
        rintro ⟨-, hm⟩
        rw [hr] at hm
        nlinarith
    rw [h1, setLIntegral_indicator measurableSet_Ioc, show Ioc (0:ℝ) 1 ∩ Ioi 0 = Ioc 0 1 from inter_eq_left.2 fun x hx => hx.1,
      ← setLIntegral_congr (Ioo_ae_eq_Ioc (a := (0:ℝ)) (b := 1))]
    refine setLIntegral_congr_fun measurableSet_Ioo fun r hr01 => ?_
    obtain ⟨h0, h1⟩ := hr01
    congr 2
    have hm : r * polarMult (r ^ 2) = Real.sqrt (-4 * Real.log r) := by
      unfold polarMult
      have hl : Real.log r < 0 := Real.log_neg h0 h1
      rw [Real.log_pow]
      have e : -2 * ((2:ℕ) * Real.log r) / r ^ 2 = (-4 * Real.log r) / r ^ 2 := by push_cast; ring
      rw [e, Real.sqrt_div (by linarith), Real.sqrt_sq h0.le]
      field_simp
    unfold polarPair
    dsimp only
    rw [hr, ← hm]
    ext <;> dsimp only <;> ring
  simp only [hin]
  rw [gauss_prod g hg]
  have hsw : ∫⁻ p : ℝ × ℝ, ENNReal.ofReal ((2 * Real.pi)⁻¹ * Real.exp (-(p.1 ^ 2 + p.2 ^ 2) / 2)) * g p =
      ∫⁻ p : ℝ × ℝ, ENNReal.ofReal ((2 * Real.pi)⁻¹ * Real.exp (-(p.1 ^ 2 + p.2 ^ 2) / 2)) * g p.swap := by
    rw [Measure.volume_eq_prod, ← lintegral_prod_swap]
    refine lintegral_congr fun p => ?_
    rw [Prod.fst_swap, Prod.snd_swap, add_comm]
  rw [hsw, lintegral_polar' _ (by
    refine Measurable.mul (by fun_prop) (hg.comp measurable_swap)),
    ← lintegral_const_mul' _ _ ENNReal.ofReal_ne_top]
  refine lintegral_congr fun θ => ?_
  rw [← lintegral_const_mul' _ _ ENNReal.ofReal_ne_top]
  refine lintegral_congr fun ρ => ?_
  have hr : (ρ * Real.cos θ) ^ 2 + (ρ * Real.sin θ) ^ 2 = ρ ^ 2 := by
    have := Real.sin_sq_add_cos_sq θ
    calc _ = ρ ^ 2 * (Real.sin θ ^ 2 + Real.cos θ ^ 2) := by ring
      _ = ρ ^ 2 := by rw [this, mul_one]
  dsimp only
  rw [hr, Prod.swap_prod_mk, ENNReal.ofReal_mul (by positivity)]
  have hc : ENNReal.ofReal (1 / 2) = ENNReal.ofReal Real.pi * ENNReal.ofReal (2 * Real.pi)⁻¹ := by
    rw [← ENNReal.ofReal_mul Real.pi_pos.le]
    congr 1
    field_simp
  rw [hc]
  ring

/-- the interval `[-1, 1)` by canonical numbers -/
theorem lintegral_pm1 (h : ℝ → ℝ≥0∞) : ∫⁻ u, h (2 * u - 1) ∂unif = ENNReal.ofReal (1 / 2) * ∫⁻ x in Ico (-1:ℝ) 1, h x := by
  have himg : (fun u : ℝ => 2 * u - 1) '' Ico 0 1 = Ico (-1) 1 := by
    ext x
    constructor
    · rintro ⟨u, ⟨h0, h1⟩, rfl⟩
      exact ⟨by dsimp only; linarith, by dsimp only; linarith⟩
    · rintro ⟨h0, h1⟩
      exact ⟨(x+1)/2, ⟨by linarith, by linarith⟩, by dsimp only; ring⟩
  have hder : ∀ u ∈ Ico (0:ℝ) 1, HasDerivWithinAt (fun u : ℝ => 2 * u - 1) 2 (Ico 0 1) u := by
    intro u _
    have := ((hasDerivAt_id u).const_mul (2:ℝ)).sub_const (1:ℝ)
    rw [mul_one] at this
    exact this.hasDerivWithinAt
  rw [← himg, lintegral_image_eq_lintegral_abs_deriv_mul measurableSet_Ico hder (fun a _ b _ hab => by linarith)]
  rw [abs_of_pos (by norm_num : (0:ℝ) < 2), lintegral_const_mul' _ _ ENNReal.ofReal_ne_top, ← mul_assoc, ← ENNReal.ofReal_mul (by norm_num)]
  norm_num
  rfl

theorem polar_integral (g : ℝ × ℝ → ℝ≥0∞) (hg : Measurable g) :
    ∫⁻ p in polarAcc, g (polarPair (2 * p.1 - 1, 2 * p.2 - 1)) ∂(unif.prod unif) = ENNReal.ofReal (Real.pi / 4) * ∫⁻ q, g q ∂(gauss.prod gauss) := by
  have hG : Measurable (disc.indicator fun p => g (polarPair p)) := Measurable.indicator (hg.comp polarPair_meas) disc_meas
  set G : ℝ × ℝ → ℝ≥0∞ := disc.indicator fun p => g (polarPair p) with hGd
  have h1 : ∫⁻ p in polarAcc, g (polarPair (2 * p.1 - 1, 2 * p.2 - 1)) ∂(unif.prod unif) = ∫⁻ p, G (2 * p.1 - 1, 2 * p.2 - 1) ∂(unif.prod unif) := by
    rw [← lintegral_indicator polarAcc_meas]
    rfl
  rw [h1, lintegral_prod _ (by
    have : Measurable fun p : ℝ × ℝ => (2 * p.1 - 1, 2 * p.2 - 1) := by fun_prop
    exact (hG.comp this).aemeasurable)]
  have h2 : ∀ u, ∫⁻ v, G (2 * u - 1, 2 * v - 1) ∂unif = ENNReal.ofReal (1 / 2) * ∫⁻ y in Ico (-1:ℝ) 1, G (2 * u - 1, y) := fun u => lintegral_pm1 fun y => G (2 * u - 1, y)
  simp only [h2]
  rw [lintegral_pm1 fun x => ENNReal.ofReal (1 / 2) * ∫⁻ y in Ico (-1:ℝ) 1, G (x, y), lintegral_const_mul' _ _ ENNReal.ofReal_ne_top, ← mul_assoc,
    ← ENNReal.ofReal_mul (by norm_num)]
  have h3 : ∫⁻ x in Ico (-1:ℝ) 1, ∫⁻ y in Ico (-1:ℝ) 1, G (x, y) = ∫⁻ p in disc, g (polarPair p) := by
    rw [← lintegral_prod (f := G) (μ := volume.restrict (Ico (-1:ℝ) 1)) (ν := volume.restrict (Ico (-1:ℝ) 1)) (by exact hG.aemeasurable),
      Measure.prod_restrict, ← Measure.volume_eq_prod, hGd, setLIntegral_indicator disc_meas]
    -- up to the lines x = 1 and y = 1 the disc lies in the square
    refine setLIntegral_congr ?_
    have hnull : ∀ᵐ p : ℝ × ℝ, p.1 ≠ 1 ∧ p.2 ≠ 1 := by
      rw [Measure.volume_eq_prod]
      have a1 : ∀ᵐ x : ℝ, x ≠ 1 := by simp [ae_iff]
      have b1 : ∀ᵐ p : ℝ × ℝ ∂(volume.prod volume), p.1 ≠ 1 := Measure.quasiMeasurePreserving_fst.ae a1
      have b2 : ∀ᵐ p : ℝ × ℝ ∂(volume.prod volume), p.2 ≠ 1 := Measure.quasiMeasurePreserving_snd.ae a1
      filter_upwards [b1, b2] with p h1 h2 using ⟨h1, h2⟩
    refine hnull.mono fun p hp => ?_
    refine propext ⟨fun h => h.1, fun h => ⟨h, ?_⟩⟩
    obtain ⟨ha, hb⟩ : 0 < p.1 * p.1 + p.2 * p.2 ∧ p.1 * p.1 + p.2 * p.2 ≤ 1 := h
    have hx : p.1 ^ 2 ≤ 1 := by nlinarith [mul_self_nonneg p.2]
    have hy : p.2 ^ 2 ≤ 1 := by nlinarith [mul_self_nonneg p.1]
    have hx := abs_le_one_iff_mul_self_le_one.2 (by linarith [sq p.1] : p.1 * p.1 ≤ 1)
    have hy := abs_le_one_iff_mul_self_le_one.2 (by linarith [sq p.2] : p.2 * p.2 ≤ 1)
    rw [abs_le] at hx hy
    exact ⟨⟨hx.1, lt_of_le_of_ne hx.2 hp.1⟩, ⟨hy.1, lt_of_le_of_ne hy.2 hp.2⟩⟩
  rw [h3, disc_law g hg, ← mul_assoc, ← ENNReal.ofReal_mul (by norm_num)]
  congr 2
  ring

theorem polarAcc_prob : (unif.prod unif) polarAcc = ENNReal.ofReal (Real.pi / 4) := by
  have := polar_integral (fun _ => 1) measurable_const
  simpa using this

/-- **The polar method**: an accepted pair gives two independent standard normal numbers. -/
theorem polar_law : (ProbabilityTheory.cond (unif.prod unif) polarAcc).map (fun p => polarPair (2 * p.1 - 1, 2 * p.2 - 1)) = gauss.prod gauss := by
  have hm : Measurable fun p : ℝ × ℝ => polarPair (2 * p.1 - 1, 2 * p.2 - 1) := polarPair_meas.comp (by fun_prop)
  refine Measure.ext_of_lintegral _ fun g hg => ?_
  rw [lintegral_map hg hm, ProbabilityTheory.cond, lintegral_smul_measure, polar_integral g hg, polarAcc_prob, smul_eq_mul, ← mul_assoc,
    ENNReal.inv_mul_cancel (by simp [Real.pi_pos]) ENNReal.ofReal_ne_top, one_mul]

end Trento
