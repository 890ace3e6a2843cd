import Verif.Lemmas.LibDraw
import Mathlib.MeasureTheory.Constructions.BorelSpace.Order

/-!
# The law of `std::piecewise_linear_distribution` and of `std::uniform_int_distribution`
-/

namespace Trento
open MeasureTheory Set ProbabilityTheory
open scoped ENNReal

/-! ### Piecewise linear densities -/

/-- The density that interpolates a table of breakpoints and densities linearly; zero outside of the breakpoints. -/
noncomputable def Spec.interpolated : List (ℝ × ℝ) → ℝ → ℝ
  | (b0, d0) :: (b1, d1) :: t, y =>
    if b0 ≤ y ∧ y < b1 then d0 + (d1 - d0) / (b1 - b0) * (y - b0) else interpolated ((b1, d1) :: t) y
  | _, _ => 0

open Spec

theorem interpolated_meas (t : List (ℝ × ℝ)) : Measurable (interpolated t) := by
  induction t with
  | nil => exact measurable_const
  | cons p t ih =>
    cases t with
    | nil => exact measurable_const
    | cons p' t =>
      obtain ⟨b0, d0⟩ := p
      obtain ⟨b1, d1⟩ := p'
      show Measurable fun y => if b0 ≤ y ∧ y < b1 then d0 + (d1 - d0) / (b1 - b0) * (y - b0) else interpolated ((b1, d1) :: t) y
      exact Measurable.ite (measurableSet_Ico (a := b0) (b := b1)) (by fun_prop) ih

theorem interpolated_before {b d y : ℝ} {t : List (ℝ × ℝ)} (h : GoodTable ((b, d) :: t)) (hy : y < b) : interpolated ((b, d) :: t) y = 0 := by
  induction t generalizing b d with
  | nil => rfl
  | cons p' t ih =>
    obtain ⟨b1, d1⟩ := p'
    rw [interpolated, if_neg (by intro hc; linarith [hc.1])]
    exact ih h.2.2 (by linarith [h.1])

/-- area of a segment -/
theorem lintegral_segment {b0 b1 d0 d1 x : ℝ} (hb : b0 < b1) (h0 : 0 ≤ d0) (h1 : 0 ≤ d1) (hx0 : b0 ≤ x) (hx1 : x ≤ b1) :
    ∫⁻ y in Ioo b0 x, ENNReal.ofReal (d0 + (d1 - d0) / (b1 - b0) * (y - b0)) = ENNReal.ofReal (segArea d0 ((d1 - d0) / (b1 - b0)) (x - b0)) := by
  set m := (d1 - d0) / (b1 - b0) with hm
  have hnn : ∀ y ∈ Ioo b0 x, 0 ≤ d0 + m * (y - b0) := by
    intro y hy
    have hd : d1 = d0 + m * (b1 - b0) := by
      have : b1 - b0 ≠ 0 := by linarith
      rw [hm]; field_simp; ring
    have hs : 0 ≤ (y - b0) / (b1 - b0) := div_nonneg (by linarith [hy.1]) (by linarith)
    have hs1 : (y - b0) / (b1 - b0) ≤ 1 := by rw [div_le_one (by linarith)]; linarith [hy.2]
    have e : d0 + m * (y - b0) = d0 * (1 - (y - b0) / (b1 - b0)) + d1 * ((y - b0) / (b1 - b0)) := by
      have : b1 - b0 ≠ 0 := by linarith
      rw [hm]; field_simp; ring
    rw [e]
    exact add_nonneg (mul_nonneg h0 (by linarith)) (mul_nonneg h1 hs)
  have hint : IntegrableOn (fun y => d0 + m * (y - b0)) (Ioo b0 x) := by
    have : ContinuousOn (fun y => d0 + m * (y - b0)) (Icc b0 x) := by fun_prop
    exact (this.integrableOn_compact isCompact_Icc).mono_set Ioo_subset_Icc_self
  rw [← ofReal_integral_eq_lintegral_ofReal hint (by
    rw [Filter.EventuallyLE, ae_restrict_iff' measurableSet_Ioo]
    exact Filter.Eventually.of_forall hnn), ← integral_Ioc_eq_integral_Ioo, ← intervalIntegral.integral_of_le hx0]
  congr 1
  have hder : ∀ y ∈ uIcc b0 x, HasDerivAt (fun y => segArea d0 m (y - b0)) (d0 + m * (y - b0)) y := by
    intro y _
    have h1 : HasDerivAt (fun y : ℝ => y - b0) 1 y := (hasDerivAt_id y).sub_const b0
    have := (h1.const_mul d0).add ((h1.pow 2).const_mul (m / 2))
    refine this.congr_deriv ?_
    simp
    ring
  rw [intervalIntegral.integral_eq_sub_of_hasDerivAt hder]
  · simp [segArea]
  · exact ((by fun_prop : Continuous fun y => d0 + m * (y - b0))).intervalIntegrable _ _

/-- the area under the interpolated density up to `x` -/
theorem lintegral_interpolated {t : List (ℝ × ℝ)} (h : GoodTable t) (x : ℝ) :
    ∫⁻ y in Iio x, ENNReal.ofReal (interpolated t y) = ENNReal.ofReal (pwlCum t x) := by
  induction t with
  | nil => simp [interpolated, pwlCum]
  | cons p t ih =>
    cases t with
    | nil => simp [interpolated, pwlCum]
    | cons p' t =>
      obtain ⟨b0, d0⟩ := p
      obtain ⟨b1, d1⟩ := p'
      have hb := h.1
      have h0 := h.2.1
      have h1 := h.2.2.snd_nonneg
      have ih := ih h.2.2
      -- the first segment and the rest
      have hsplit : ∀ y, ENNReal.ofReal (interpolated ((b0, d0) :: (b1, d1) :: t) y) =
          (Ico b0 b1).indicator (fun y => ENNReal.ofReal (d0 + (d1 - d0) / (b1 - b0) * (y - b0))) y + ENNReal.ofReal (interpolated ((b1, d1) :: t) y) := by
        intro y
        rw [interpolated]
        by_cases hc : b0 ≤ y ∧ y < b1
        · rw [if_pos hc, indicator_of_mem (show y ∈ Ico b0 b1 from hc), interpolated_before h.2.2 hc.2]
          simp
        · rw [if_neg hc, indicator_of_notMem (show y ∉ Ico b0 b1 from hc), zero_add]
      simp only [hsplit]
      rw [lintegral_add_right _ (interpolated_meas _).ennreal_ofReal, ih, setLIntegral_indicator measurableSet_Ico, pwlCum]
      have hcn := pwlCum_nonneg h.2.2 x
      by_cases hx0 : x ≤ b0
      · rw [if_pos hx0, pwlCum_first _ _ _ _ (by linarith)]
        have : Ico b0 b1 ∩ Iio x = ∅ := by
          ext y; simp only [mem_inter_iff, mem_Ico, mem_Iio, mem_empty_iff_false, iff_false]; rintro ⟨⟨a, _⟩, c⟩; linarith
        rw [this]
        simp
      · push Not at hx0
        rw [if_neg (not_le.2 hx0)]
        by_cases hx1 : x ≤ b1
        · rw [if_pos hx1, pwlCum_first _ _ _ _ hx1]
          have : Ico b0 b1 ∩ Iio x = Ico b0 x := by
            ext y; simp only [mem_inter_iff, mem_Ico, mem_Iio]
            exact ⟨fun ⟨⟨a, _⟩, c⟩ => ⟨a, c⟩, fun ⟨a, c⟩ => ⟨⟨a, by linarith⟩, c⟩⟩
          rw [this, ← setLIntegral_congr (Ioo_ae_eq_Ico (a := b0) (b := x)), lintegral_segment hb h0 h1 hx0.le hx1]
          simp
        · push Not at hx1
          rw [if_neg (not_le.2 hx1)]
          have : Ico b0 b1 ∩ Iio x = Ico b0 b1 := by
            ext y; simp only [mem_inter_iff, mem_Ico, mem_Iio]
            exact ⟨fun ⟨a, _⟩ => a, fun a => ⟨a, by linarith [a.2]⟩⟩
          have hseg : segArea d0 ((d1 - d0) / (b1 - b0)) (b1 - b0) = (d1 + d0) / 2 * (b1 - b0) := by
            have : b1 - b0 ≠ 0 := by linarith
            unfold segArea; field_simp; ring
          rw [this, ← setLIntegral_congr (Ioo_ae_eq_Ico (a := b0) (b := b1)), lintegral_segment hb h0 h1 hb.le le_rfl, hseg, ← ENNReal.ofReal_add _ hcn]
          exact mul_nonneg (by linarith) (by linarith)

/-- The law with the interpolated density, normalised. -/
noncomputable def Spec.interpolatedLaw (t : List (ℝ × ℝ)) : Measure ℝ :=
  volume.withDensity fun y => ENNReal.ofReal (interpolated t y / ∫ z, interpolated t z)

theorem interpolated_nonneg {t : List (ℝ × ℝ)} (h : GoodTable t) (y : ℝ) : 0 ≤ interpolated t y := by
  induction t with
  | nil => exact le_rfl
  | cons p t ih =>
    cases t with
    | nil => exact le_rfl
    | cons p' t =>
      obtain ⟨b0, d0⟩ := p
      obtain ⟨b1, d1⟩ := p'
      rw [interpolated]
      split
      · next hy =>
        have hb := h.1
        have h1 := h.2.2.snd_nonneg
        have hs : 0 ≤ (y - b0) / (b1 - b0) := div_nonneg (by linarith [hy.1]) (by linarith)
        have hs1 : (y - b0) / (b1 - b0) ≤ 1 := by rw [div_le_one (by linarith)]; linarith [hy.2]
        have e : d0 + (d1 - d0) / (b1 - b0) * (y - b0) = d0 * (1 - (y - b0) / (b1 - b0)) + d1 * ((y - b0) / (b1 - b0)) := by
          have : b1 - b0 ≠ 0 := by linarith
          field_simp; ring
        rw [e]
        exact add_nonneg (mul_nonneg h.2.1 (by linarith)) (mul_nonneg h1 hs)
      · exact ih h.2.2

theorem exists_above (t : List (ℝ × ℝ)) (x : ℝ) : ∃ M, x ≤ M ∧ ∀ p ∈ t, p.1 ≤ M := by
  induction t with
  | nil => exact ⟨x, le_rfl, by simp⟩
  | cons p t ih =>
    obtain ⟨M, h1, h2⟩ := ih
    exact ⟨max M p.1, h1.trans (le_max_left _ _), fun q hq => by
      rcases List.mem_cons.1 hq with rfl | hq
      · exact le_max_right _ _
      · exact (h2 q hq).trans (le_max_left _ _)⟩

theorem interpolated_after {t : List (ℝ × ℝ)} {M y : ℝ} (hM : ∀ p ∈ t, p.1 ≤ M) (hy : M ≤ y) : interpolated t y = 0 := by
  induction t with
  | nil => rfl
  | cons p t ih =>
    cases t with
    | nil => rfl
    | cons p' t =>
      obtain ⟨b0, d0⟩ := p
      obtain ⟨b1, d1⟩ := p'
      have := hM (b1, d1) (by simp)
      dsimp only at this
      rw [interpolated, if_neg (by intro hc; linarith [hc.2])]
      exact ih fun q hq => hM q (List.mem_cons_of_mem _ hq)

theorem lintegral_interpolated_all {t : List (ℝ × ℝ)} (h : GoodTable t) : ∫⁻ y, ENNReal.ofReal (interpolated t y) = ENNReal.ofReal (tableArea t) := by
  obtain ⟨M, -, hM⟩ := exists_above t 0
  rw [← pwlCum_last h M hM, ← lintegral_interpolated h M, ← lintegral_indicator measurableSet_Iio]
  refine lintegral_congr fun y => ?_
  by_cases hy : y < M
  · rw [indicator_of_mem (show y ∈ Iio M from hy)]
  · rw [indicator_of_notMem (show y ∉ Iio M from hy), interpolated_after hM (not_lt.1 hy), ENNReal.ofReal_zero]

theorem integral_interpolated {t : List (ℝ × ℝ)} (h : GoodTable t) : ∫ y, interpolated t y = tableArea t := by
  rw [integral_eq_lintegral_of_nonneg_ae (Filter.Eventually.of_forall (interpolated_nonneg h)) (interpolated_meas t).aestronglyMeasurable,
    lintegral_interpolated_all h, ENNReal.toReal_ofReal (tableArea_nonneg h)]

theorem interpolatedLaw_lintegral {t : List (ℝ × ℝ)} (h : GoodTable t) (s : Set ℝ) (hs : MeasurableSet s) :
    interpolatedLaw t s = ENNReal.ofReal (1 / tableArea t) * ∫⁻ y in s, ENNReal.ofReal (interpolated t y) := by
  unfold interpolatedLaw
  rw [withDensity_apply _ hs, integral_interpolated h, ← lintegral_const_mul' _ _ ENNReal.ofReal_ne_top]
  refine lintegral_congr fun y => ?_
  rw [← ENNReal.ofReal_mul (by have := tableArea_nonneg h; positivity)]
  congr 1
  ring

theorem interpolatedLaw_prob {t : List (ℝ × ℝ)} (h : GoodTable t) (hs : 0 < tableArea t) : IsProbabilityMeasure (interpolatedLaw t) := by
  constructor
  rw [interpolatedLaw_lintegral h _ MeasurableSet.univ, Measure.restrict_univ, lintegral_interpolated_all h, ← ENNReal.ofReal_mul (by positivity),
    one_div_mul_cancel hs.ne', ENNReal.ofReal_one]

theorem pwlRec_meas (t : List (ℝ × ℝ)) : Measurable (pwlRec t) := by
  induction t with
  | nil => exact measurable_const
  | cons p t ih =>
    cases t with
    | nil => exact measurable_const
    | cons p' t =>
      obtain ⟨b0, d0⟩ := p
      obtain ⟨b1, d1⟩ := p'
      show Measurable fun q => if q ≤ (d1 + d0) / 2 * (b1 - b0) then b0 + segInv d0 ((d1 - d0) / (b1 - b0)) q
        else pwlRec ((b1, d1) :: t) (q - (d1 + d0) / 2 * (b1 - b0))
      refine Measurable.ite (measurableSet_Iic (a := (d1 + d0) / 2 * (b1 - b0))) ?_ (ih.comp (by fun_prop))
      have : Measurable fun q => segInv d0 ((d1 - d0) / (b1 - b0)) q := by
        unfold segInv
        split <;> fun_prop
      exact this.const_add b0

/-- inversion of the cumulative distribution -/
theorem pwl_law {t : List (ℝ × ℝ)} (h : GoodTable t) (hs : 0 < tableArea t) : unif.map (fun u => pwlRec t (u * tableArea t)) = interpolatedLaw t := by
  have hm : Measurable fun u => pwlRec t (u * tableArea t) := (pwlRec_meas t).comp (by fun_prop)
  have := interpolatedLaw_prob h hs
  have : IsProbabilityMeasure (unif.map fun u => pwlRec t (u * tableArea t)) := Measure.isProbabilityMeasure_map hm.aemeasurable
  refine Measure.ext_of_Iic _ _ fun x => ?_
  rw [Measure.map_apply hm measurableSet_Iic, interpolatedLaw_lintegral h _ measurableSet_Iic, ← setLIntegral_congr (Iio_ae_eq_Iic (a := x)), lintegral_interpolated h,
    ← ENNReal.ofReal_mul (by positivity)]
  have hcum0 := pwlCum_nonneg h x
  have hcum1 : pwlCum t x ≤ tableArea t := by
    obtain ⟨M, hxM, hM⟩ := exists_above t x
    have h1 := lintegral_interpolated h x
    have h2 := lintegral_interpolated h M
    rw [pwlCum_last h M hM] at h2
    have : ∫⁻ y in Iio x, ENNReal.ofReal (interpolated t y) ≤ ∫⁻ y in Iio M, ENNReal.ofReal (interpolated t y) := lintegral_mono_set (Iio_subset_Iio hxM)
    rw [h1, h2] at this
    exact (ENNReal.ofReal_le_ofReal_iff hs.le).1 this
  set c := 1 / tableArea t * pwlCum t x with hc
  have hc0 : 0 ≤ c := by rw [hc]; positivity
  have hc1 : c ≤ 1 := by rw [hc, one_div, inv_mul_le_one₀ hs]; exact hcum1
  have hae : unif ((fun u => pwlRec t (u * tableArea t)) ⁻¹' Iic x) = unif (Ioo 0 c) := by
    refine measure_congr ?_
    have h0 : ∀ᵐ u ∂unif, 0 < u ∧ u < 1 ∧ u ≠ c := by
      unfold unif
      have a0 : ∀ᵐ u : ℝ, u ≠ 0 := by simp [ae_iff]
      have a1 : ∀ᵐ u : ℝ, u ≠ c := by simp [ae_iff]
      filter_upwards [ae_restrict_mem measurableSet_Ico, ae_restrict_of_ae a0, ae_restrict_of_ae a1] with u hu h0 h1
      exact ⟨lt_of_le_of_ne hu.1 (Ne.symm h0), hu.2, h1⟩
    refine h0.mono fun u hu => propext ?_
    obtain ⟨u0, u1, une⟩ := hu
    show pwlRec t (u * tableArea t) ≤ x ↔ 0 < u ∧ u < c
    rw [pwlRec_le_iff h (by positivity) (by nlinarith)]
    have : u * tableArea t ≤ pwlCum t x ↔ u ≤ c := by
      rw [hc, one_div, inv_mul_eq_div, le_div_iff₀ hs]
    rw [this]
    exact ⟨fun hh => ⟨u0, lt_of_le_of_ne hh une⟩, fun hh => hh.2.le⟩
  rw [hae]
  unfold unif
  rw [Measure.restrict_apply measurableSet_Ioo, inter_eq_left.2, Real.volume_Ioo, sub_zero]
  intro u hu
  exact ⟨hu.1.le, lt_of_lt_of_le hu.2 hc1⟩

/-- the value drawn, as a function of the canonical number -/
noncomputable def pwlOf (t : List (ℝ × ℝ)) (p : ℝ) : ℝ :=
  if goodTable t && lt (lit 0) ((runningSums (lit 0) (segAreas t)).getLastD (lit 0)) then pwlRec t (p * tableArea t) else (t.headD (lit 0, lit 0)).1

theorem pwlDraw_eq (t : List (ℝ × ℝ)) (e : Tape) : pwlDraw (F := ℝ) t e = (pwlOf t (e.val 0), e.next) := by
  have hp := e.mem 0
  unfold pwlDraw pwlOf
  show (if _ then _ else (_, e.next)) = _
  by_cases hc : (goodTable t && lt (lit 0) ((runningSums (lit 0) (segAreas t)).getLastD (lit 0))) = true
  · rw [if_pos hc, if_pos hc]
    have hc' := hc
    simp only [Bool.and_eq_true, goodTable_real, lt_real, lit_zero', decide_eq_true_eq] at hc'
    obtain ⟨hg, hs⟩ := hc'
    have hlast : (runningSums (0:ℝ) (segAreas t)).getLastD 0 = tableArea t := by
      rw [runningSums_last, zero_add]; rfl
    rw [hlast] at hs
    have hv := pwlValue_eq t hs (e.val 0) hp.2.le
    split
    · next b0 d0 b1 d1 =>
      split
      · next hu =>
        simp only [eqv_real', Bool.and_eq_true, decide_eq_true_eq, lit_zero', lit_one'] at hu
        obtain ⟨⟨rfl, rfl⟩, rfl⟩ := hu
        have ha : tableArea [(0, d0), (1, d0)] = d0 := by
          rw [tableArea_cons]
          simp [tableArea, segAreas]
        rw [ha] at hs ⊢
        have : pwlRec [(0, d0), (1, d0)] (e.val 0 * d0) = e.val 0 := by
          rw [pwlRec, if_pos (by nlinarith [hp.2])]
          unfold segInv
          rw [if_pos (by simp), zero_add, mul_div_assoc, div_self hs.ne', mul_one]
        rw [this]
      · exact Prod.ext hv rfl
    · exact Prod.ext hv rfl
  · rw [if_neg hc, if_neg hc]

theorem pwlOf_meas (t : List (ℝ × ℝ)) : Measurable (pwlOf t) := by
  unfold pwlOf
  split
  · exact (pwlRec_meas t).comp (by fun_prop)
  · exact measurable_const

/-- **`std::piecewise_linear_distribution`** with an ideal engine. -/
theorem pwlOf_law {t : List (ℝ × ℝ)} (h : GoodTable t) (hs : 0 < tableArea t) : unif.map (pwlOf t) = interpolatedLaw t := by
  rw [← pwl_law h hs]
  congr 1
  funext p
  unfold pwlOf
  rw [if_pos]
  simp only [Bool.and_eq_true, goodTable_real, lt_real, lit_zero', decide_eq_true_eq]
  refine ⟨h, ?_⟩
  rw [runningSums_last, zero_add]
  exact hs

end Trento
