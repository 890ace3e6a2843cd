import Verif.Lemmas.Squeeze
import Verif.Lemmas.Polar
import Mathlib.Probability.Distributions.Gamma

/-!
# The gamma distribution from normal and uniform numbers (Marsaglia and Tsang)
-/

namespace Trento
open MeasureTheory Set ProbabilityTheory
open scoped ENNReal

/-- two probability laws whose integrals are proportional are equal -/
theorem prob_eq_of_prop {α : Type} [MeasurableSpace α] {μ ν : Measure α} [IsProbabilityMeasure μ] [IsProbabilityMeasure ν] {C : ℝ≥0∞}
    (h : ∀ g : α → ℝ≥0∞, Measurable g → ∫⁻ x, g x ∂μ = C * ∫⁻ x, g x ∂ν) : μ = ν := by
  have hC : C = 1 := by
    have := h (fun _ => 1) measurable_const
    simpa using this.symm
  refine Measure.ext_of_lintegral _ fun g hg => ?_
  rw [h g hg, hC, one_mul]

/-- the unnormalised gamma density -/
noncomputable def gammaCore (a x : ℝ) : ℝ := x ^ (a - 1) * Real.exp (-x)

theorem lintegral_gamma {a : ℝ} (ha : 0 < a) {g : ℝ → ℝ≥0∞} (hg : Measurable g) :
    ∫⁻ x, g x ∂gammaMeasure a 1 = ENNReal.ofReal (Real.Gamma a)⁻¹ * ∫⁻ x in Ioi (0:ℝ), ENNReal.ofReal (gammaCore a x) * g x := by
  have hG : 0 < Real.Gamma a := Real.Gamma_pos_of_pos ha
  rw [gammaMeasure, lintegral_withDensity_eq_lintegral_mul _ (by unfold gammaPDF; exact (measurable_gammaPDFReal a 1).ennreal_ofReal) hg,
    ← lintegral_const_mul' _ _ ENNReal.ofReal_ne_top, ← lintegral_indicator measurableSet_Ioi]
  refine lintegral_congr_ae ?_
  have h0 : ∀ᵐ x : ℝ, x ≠ 0 := by simp [ae_iff]
  refine h0.mono fun x hx => ?_
  show gammaPDF a 1 x * g x = _
  rcases lt_or_gt_of_ne hx with h | h
  · rw [gammaPDF_of_neg h, zero_mul, indicator_of_notMem (by simpa using h.le)]
  · rw [indicator_of_mem (show x ∈ Ioi 0 from h), gammaPDF_of_nonneg h.le, ← mul_assoc, ← ENNReal.ofReal_mul (by positivity)]
    congr 2
    unfold gammaCore
    rw [Real.one_rpow, one_mul, one_div, mul_assoc]

/-- a scaled gamma law -/
theorem gamma_scale {a b : ℝ} (ha : 0 < a) (hb : 0 < b) : (gammaMeasure a 1).map (fun x => x * b) = gammaMeasure a (1 / b) := by
  have hm : Measurable fun x : ℝ => x * b := by fun_prop
  have p1 : IsProbabilityMeasure (gammaMeasure a 1) := isProbabilityMeasure_gammaMeasure ha one_pos
  have p2 : IsProbabilityMeasure (gammaMeasure a (1 / b)) := isProbabilityMeasure_gammaMeasure ha (by positivity)
  refine Measure.ext_of_lintegral _ fun g hg => ?_
  rw [lintegral_map hg hm, lintegral_gamma (g := fun x => g (x * b)) ha (hg.comp hm), gammaMeasure,
    lintegral_withDensity_eq_lintegral_mul _ (by unfold gammaPDF; exact (measurable_gammaPDFReal a _).ennreal_ofReal) hg]
  have h1 : ∫⁻ x, (gammaPDF a (1 / b) * g) x = ∫⁻ x in Ioi (0:ℝ), gammaPDF a (1 / b) x * g x := by
    rw [← lintegral_indicator measurableSet_Ioi]
    refine lintegral_congr_ae ?_
    have h0 : ∀ᵐ x : ℝ, x ≠ 0 := by simp [ae_iff]
    refine h0.mono fun x hx => ?_
    show gammaPDF a (1 / b) x * g x = _
    rcases lt_or_gt_of_ne hx with h | h
    · rw [gammaPDF_of_neg h, zero_mul, indicator_of_notMem (by simpa using h.le)]
    · rw [indicator_of_mem (show x ∈ Ioi 0 from h)]
  have himg : (fun x : ℝ => x * b) '' Ioi 0 = Ioi 0 := by
    ext y
    constructor
    · rintro ⟨x, hx, rfl⟩
      exact mul_pos hx hb
    · intro hy
      exact ⟨y / b, div_pos hy hb, by dsimp only; field_simp⟩
  have hder : ∀ x ∈ Ioi (0:ℝ), HasDerivWithinAt (fun x : ℝ => x * b) b (Ioi 0) x := by
    intro x _
    have := (hasDerivAt_id x).mul_const b
    rw [one_mul] at this
    exact this.hasDerivWithinAt
  rw [h1]
  conv_rhs => rw [← himg]
  rw [lintegral_image_eq_lintegral_abs_deriv_mul measurableSet_Ioi hder (fun x _ y _ hxy => mul_right_cancel₀ hb.ne' hxy),
    ← lintegral_const_mul' _ _ ENNReal.ofReal_ne_top]
  refine setLIntegral_congr_fun measurableSet_Ioi fun x hx => ?_
  have hx : 0 < x := hx
  have hG : 0 < Real.Gamma a := Real.Gamma_pos_of_pos ha
  show _ = ENNReal.ofReal |b| * (gammaPDF a (1 / b) (x * b) * g (x * b))
  rw [abs_of_pos hb, gammaPDF_of_nonneg (by positivity), ← mul_assoc, ← mul_assoc]
  have hcore : 0 ≤ gammaCore a x := by unfold gammaCore; positivity
  rw [← ENNReal.ofReal_mul (by positivity), ← ENNReal.ofReal_mul (by positivity)]
  show ENNReal.ofReal _ * g (x * b) = _
  congr 2
  unfold gammaCore
  rw [show 1 / b * (x * b) = x by field_simp, Real.mul_rpow hx.le hb.le, Real.div_rpow zero_le_one hb.le, Real.one_rpow, Real.rpow_sub_one hb.ne']
  have : b ^ a ≠ 0 := (Real.rpow_pos_of_pos hb a).ne'
  field_simp

/-! ### The acceptance step -/

/-- accepted pairs of a normal number and a canonical number -/
def mtAcc (d : ℝ) : Set (ℝ × ℝ) :=
  {p | ¬(1 - 0.0331 * p.1 * p.1 * p.1 * p.1 < p.2 ∧
    0.5 * p.1 * p.1 + d * (1 - (1 + 1 / Real.sqrt (9 * d) * p.1) * (1 + 1 / Real.sqrt (9 * d) * p.1) * (1 + 1 / Real.sqrt (9 * d) * p.1) +
      Real.log ((1 + 1 / Real.sqrt (9 * d) * p.1) * (1 + 1 / Real.sqrt (9 * d) * p.1) * (1 + 1 / Real.sqrt (9 * d) * p.1))) < Real.log p.2)}

theorem mtAcc_meas (d : ℝ) : MeasurableSet (mtAcc d) := by
  unfold mtAcc
  refine MeasurableSet.compl (MeasurableSet.inter (s₁ := {p : ℝ × ℝ | 1 - 0.0331 * p.1 * p.1 * p.1 * p.1 < p.2}) ?_ ?_)
  · exact measurableSet_lt (by fun_prop) (by fun_prop)
  · refine measurableSet_lt ?_ (Real.measurable_log.comp measurable_snd)
    fun_prop

/-- the exponent the program computes -/
theorem mt_exponent {d n : ℝ} (hd : 2 / 3 ≤ d) (hv : 0 < 1 + 1 / Real.sqrt (9 * d) * n) :
    0.5 * n * n + d * (1 - (1 + 1 / Real.sqrt (9 * d) * n) * (1 + 1 / Real.sqrt (9 * d) * n) * (1 + 1 / Real.sqrt (9 * d) * n) +
      Real.log ((1 + 1 / Real.sqrt (9 * d) * n) * (1 + 1 / Real.sqrt (9 * d) * n) * (1 + 1 / Real.sqrt (9 * d) * n))) =
      3 * d * mtPhi (1 / Real.sqrt (9 * d) * n) := by
  have hs : 0 < Real.sqrt (9 * d) := Real.sqrt_pos.2 (by linarith)
  have hn : n = Real.sqrt (9 * d) * (1 / Real.sqrt (9 * d) * n) := by field_simp
  have h2 : Real.sqrt (9 * d) * Real.sqrt (9 * d) = 9 * d := Real.mul_self_sqrt (by linarith)
  set t := 1 / Real.sqrt (9 * d) * n with ht
  have hn2 : n * n = 9 * d * t ^ 2 := by
    rw [hn]
    calc _ = (Real.sqrt (9 * d) * Real.sqrt (9 * d)) * t ^ 2 := by ring
      _ = _ := by rw [h2]
  have hl : Real.log ((1 + t) * (1 + t) * (1 + t)) = 3 * Real.log (1 + t) := by
    rw [Real.log_mul (by positivity) hv.ne', Real.log_mul hv.ne' hv.ne']; ring
  rw [hl, mul_assoc, hn2]
  unfold mtPhi
  ring

/-- The probability of acceptance. -/
theorem mtAcc_prob {d n : ℝ} (hd : 2 / 3 ≤ d) (hv : 0 < 1 + 1 / Real.sqrt (9 * d) * n) :
    unif {u | (n, u) ∈ mtAcc d} = ENNReal.ofReal (Real.exp (3 * d * mtPhi (1 / Real.sqrt (9 * d) * n))) := by
  have hd0 : 0 < d := by linarith
  set h := 3 * d * mtPhi (1 / Real.sqrt (9 * d) * n) with hh
  have hsq := squeeze hd hv
  have hle : Real.exp h ≤ 1 := by
    rw [Real.exp_le_one_iff, hh]
    exact mul_nonpos_of_nonneg_of_nonpos (by linarith) (mtPhi_nonpos (by linarith))
  have hae : unif {u | (n, u) ∈ mtAcc d} = unif (Ioo 0 (Real.exp h)) := by
    refine measure_congr ?_
    have h0 : ∀ᵐ u ∂unif, 0 < u ∧ u < 1 ∧ u ≠ Real.exp h := by
      unfold unif
      have a0 : ∀ᵐ u : ℝ, u ≠ 0 := by simp [ae_iff]
      have a1 : ∀ᵐ u : ℝ, u ≠ Real.exp h := by simp [ae_iff]
      filter_upwards [ae_restrict_mem measurableSet_Ico, ae_restrict_of_ae a0, ae_restrict_of_ae a1] with u hu h0 h1
      exact ⟨lt_of_le_of_ne hu.1 (Ne.symm h0), hu.2, h1⟩
    refine h0.mono fun u hu => ?_
    obtain ⟨u0, u1, une⟩ := hu
    refine propext ?_
    show ¬(1 - 0.0331 * n * n * n * n < u ∧ _ < Real.log u) ↔ 0 < u ∧ u < Real.exp h
    dsimp only
    rw [mt_exponent hd hv, Real.lt_log_iff_exp_lt u0]
    constructor
    · intro hc
      refine ⟨u0, ?_⟩
      by_contra hlt
      push Not at hlt
      have : Real.exp h < u := lt_of_le_of_ne hlt (Ne.symm une)
      exact hc ⟨lt_of_le_of_lt hsq this, this⟩
    · rintro ⟨-, hlt⟩ ⟨-, h2⟩
      exact absurd h2 (not_lt.2 hlt.le)
  rw [hae]
  unfold unif
  rw [Measure.restrict_apply measurableSet_Ioo, inter_eq_left.2, Real.volume_Ioo, sub_zero]
  intro u hu
  exact ⟨hu.1.le, lt_of_lt_of_le hu.2 hle⟩

/-- the normal numbers that give a positive candidate -/
def mtPos (d : ℝ) : Set ℝ := {n | 0 < 1 + 1 / Real.sqrt (9 * d) * n}

theorem mtPos_meas (d : ℝ) : MeasurableSet (mtPos d) := measurableSet_lt measurable_const (by fun_prop)

/-- the candidate -/
noncomputable def mtCube (d n : ℝ) : ℝ :=
  (1 + 1 / Real.sqrt (9 * d) * n) * (1 + 1 / Real.sqrt (9 * d) * n) * (1 + 1 / Real.sqrt (9 * d) * n)

theorem mtCube_meas (d : ℝ) : Measurable (mtCube d) := by unfold mtCube; fun_prop

/-- the constant of proportionality -/
noncomputable def mtKappa (d : ℝ) : ℝ := (Real.sqrt (2 * Real.pi))⁻¹ * Real.exp d / (3 * d * (1 / Real.sqrt (9 * d)) * d ^ (d - 2 / 3))

theorem mtKappa_pos {d : ℝ} (hd : 2 / 3 ≤ d) : 0 < mtKappa d := by
  have hd0 : 0 < d := by linarith
  have hs : 0 < Real.sqrt (9 * d) := Real.sqrt_pos.2 (by linarith)
  unfold mtKappa
  have := Real.rpow_pos_of_pos hd0 (d - 2 / 3)
  positivity

/-- **The accepted candidates have the gamma density.** -/
theorem mt_integral {d : ℝ} (hd : 2 / 3 ≤ d) {g : ℝ → ℝ≥0∞} :
    ∫⁻ n in mtPos d, ENNReal.ofReal (Real.exp (3 * d * mtPhi (1 / Real.sqrt (9 * d) * n))) * g (d * mtCube d n) ∂gauss =
      ENNReal.ofReal (mtKappa d) * ∫⁻ x in Ioi (0:ℝ), ENNReal.ofReal (gammaCore (d + 1 / 3) x) * g x := by
  have hd0 : 0 < d := by linarith
  have hs : 0 < Real.sqrt (9 * d) := Real.sqrt_pos.2 (by linarith)
  set c := 1 / Real.sqrt (9 * d) with hc
  have hc0 : 0 < c := by rw [hc]; positivity
  have hk := mtKappa_pos hd
  -- the change of variables
  set f : ℝ → ℝ := fun n => d * mtCube d n with hf
  have himg : f '' mtPos d = Ioi 0 := by
    ext x
    constructor
    · rintro ⟨n, hn, rfl⟩
      have hn : 0 < 1 + c * n := hn
      show 0 < d * ((1 + c * n) * (1 + c * n) * (1 + c * n))
      positivity
    · intro hx
      have hx : 0 < x := hx
      set w := (x / d) ^ ((1:ℝ) / 3) with hw
      have hw0 : 0 < w := Real.rpow_pos_of_pos (by positivity) _
      have hw3 : w * w * w = x / d := by
        have : w ^ 3 = x / d := by
          rw [hw, ← Real.rpow_natCast, ← Real.rpow_mul (by positivity)]
          norm_num
        rw [← this]; ring
      refine ⟨(w - 1) / c, ?_, ?_⟩
      · show 0 < 1 + c * ((w - 1) / c)
        rw [mul_div_cancel₀ _ hc0.ne']
        linarith
      · show d * ((1 + c * ((w - 1) / c)) * (1 + c * ((w - 1) / c)) * (1 + c * ((w - 1) / c))) = x
        rw [mul_div_cancel₀ _ hc0.ne', add_sub_cancel, hw3]
        field_simp
  have hder : ∀ n ∈ mtPos d, HasDerivWithinAt f (3 * d * c * (1 + c * n) ^ 2) (mtPos d) n := by
    intro n _
    have h1 : HasDerivAt (fun n : ℝ => 1 + c * n) c n := by
      have := ((hasDerivAt_id n).const_mul c).const_add 1
      rwa [mul_one] at this
    have h2 := ((h1.mul h1).mul h1).const_mul d
    have h3 : HasDerivAt f (3 * d * c * (1 + c * n) ^ 2) n := by
      refine h2.congr_deriv ?_
      simp only [Pi.mul_apply]
      ring
    exact h3.hasDerivWithinAt
  have hinj : InjOn f (mtPos d) := by
    intro a ha b hb hab
    have ha : 0 < 1 + c * a := ha
    have hb : 0 < 1 + c * b := hb
    have h1 : (1 + c * a) * (1 + c * a) * (1 + c * a) = (1 + c * b) * (1 + c * b) * (1 + c * b) := mul_left_cancel₀ hd0.ne' hab
    have h2 : (1 + c * a) ^ 3 = (1 + c * b) ^ 3 := by rw [pow_succ, sq, h1]; ring
    have h3 := (pow_left_inj₀ ha.le hb.le three_ne_zero).1 h2
    exact mul_left_cancel₀ hc0.ne' (by linarith)
  rw [← himg, lintegral_image_eq_lintegral_abs_deriv_mul (mtPos_meas d) hder hinj, ← lintegral_const_mul' _ _ ENNReal.ofReal_ne_top,
    gauss, gaussianReal_of_var_ne_zero 0 one_ne_zero, restrict_withDensity (mtPos_meas d),
    lintegral_withDensity_eq_lintegral_mul_non_measurable _ (measurable_gaussianPDF 0 1) (Filter.Eventually.of_forall fun x => gaussianPDF_lt_top)]
  refine setLIntegral_congr_fun (mtPos_meas d) fun n hn => ?_
  have hn : 0 < 1 + c * n := hn
  show gaussianPDF 0 1 n * (ENNReal.ofReal (Real.exp (3 * d * mtPhi (c * n))) * g (f n)) =
    ENNReal.ofReal (mtKappa d) * (ENNReal.ofReal |3 * d * c * (1 + c * n) ^ 2| * (ENNReal.ofReal (gammaCore (d + 1 / 3) (f n)) * g (f n)))
  have hf0 : 0 < f n := by
    show 0 < d * ((1 + c * n) * (1 + c * n) * (1 + c * n))
    positivity
  have hcore : 0 ≤ gammaCore (d + 1 / 3) (f n) := by unfold gammaCore; positivity
  rw [abs_of_pos (by positivity), ← mul_assoc, ← mul_assoc, ← mul_assoc, gaussianPDF, ← ENNReal.ofReal_mul (gaussianPDFReal_nonneg _ _ _),
    ← ENNReal.ofReal_mul hk.le, ← ENNReal.ofReal_mul (by positivity)]
  congr 2
  -- the densities
  rw [← mt_exponent hd hn]
  unfold gaussianPDFReal mtKappa gammaCore
  rw [← hc]
  set v := 1 + c * n with hv
  have hv3 : f n = d * v ^ 3 := by
    show d * (v * v * v) = _
    ring
  simp only [NNReal.coe_one, mul_one, sub_zero]
  rw [hv3]
  have e1 : Real.exp (0.5 * n * n + d * (1 - v * v * v + Real.log (v * v * v))) =
      Real.exp (n ^ 2 / 2) * Real.exp d * Real.exp (-(d * v ^ 3)) * v ^ (3 * d) := by
    have hl : Real.log (v * v * v) = 3 * Real.log v := by
      rw [Real.log_mul (by positivity) hn.ne', Real.log_mul hn.ne' hn.ne']; ring
    rw [Real.rpow_def_of_pos hn, ← Real.exp_add, ← Real.exp_add, ← Real.exp_add, hl]
    congr 1
    ring
  have e2 : Real.exp (-n ^ 2 / 2) * Real.exp (n ^ 2 / 2) = 1 := by rw [← Real.exp_add]; simp [neg_div]
  have e3 : (d * v ^ 3) ^ (d + 1 / 3 - 1) = d ^ (d - 2 / 3) * v ^ (3 * d) / v ^ 2 := by
    rw [show d + 1 / 3 - 1 = d - 2 / 3 by ring, Real.mul_rpow hd0.le (by positivity), ← Real.rpow_natCast v 3, ← Real.rpow_mul hn.le]
    rw [show ((3:ℕ):ℝ) * (d - 2 / 3) = 3 * d - 2 by push_cast; ring, Real.rpow_sub hn, Real.rpow_two, mul_div_assoc]
  rw [e1, e3]
  have hp := (Real.rpow_pos_of_pos hd0 (d - 2 / 3)).ne'
  have hvn : v ≠ 0 := hn.ne'
  have hpi : Real.sqrt (2 * Real.pi) ≠ 0 := by positivity
  calc _ = (Real.sqrt (2 * Real.pi))⁻¹ * Real.exp d * Real.exp (-(d * v ^ 3)) * v ^ (3 * d) * (Real.exp (-n ^ 2 / 2) * Real.exp (n ^ 2 / 2)) := by ring
    _ = _ := by
      rw [e2]
      field_simp

/-! ### Shapes below one -/

theorem gammaCore_meas (a : ℝ) : Measurable fun x => ENNReal.ofReal (gammaCore a x) := by unfold gammaCore; fun_prop

theorem boost_inner {a x : ℝ} (ha : 0 < a) (hx : 0 < x) (g : ℝ → ℝ≥0∞) :
    ∫⁻ u, g (u ^ (1 / a) * x) ∂unif = ∫⁻ w in Ioo 0 x, ENNReal.ofReal (a * w ^ (a - 1) / x ^ a) * g w := by
  have h1 : ∫⁻ u, g (u ^ (1 / a) * x) ∂unif = ∫⁻ u in Ioo (0:ℝ) 1, g (u ^ (1 / a) * x) := by
    unfold unif
    exact (setLIntegral_congr Ioo_ae_eq_Ico).symm
  set f : ℝ → ℝ := fun w => (w / x) ^ a with hf
  have himg : f '' Ioo 0 x = Ioo 0 1 := by
    ext u
    constructor
    · rintro ⟨w, ⟨h0, h1⟩, rfl⟩
      have : 0 < w / x := div_pos h0 hx
      exact ⟨Real.rpow_pos_of_pos this a, Real.rpow_lt_one this.le ((div_lt_one hx).2 h1) ha⟩
    · rintro ⟨h0, h1⟩
      have hp := Real.rpow_pos_of_pos h0 (1 / a)
      have hl : u ^ (1 / a) < 1 := Real.rpow_lt_one h0.le h1 (by positivity)
      refine ⟨u ^ (1 / a) * x, ⟨by positivity, by nlinarith⟩, ?_⟩
      rw [hf]
      dsimp only
      rw [mul_div_cancel_right₀ _ hx.ne', ← Real.rpow_mul h0.le, one_div_mul_cancel ha.ne', Real.rpow_one]
  have hder : ∀ w ∈ Ioo 0 x, HasDerivWithinAt f (a * w ^ (a - 1) / x ^ a) (Ioo 0 x) w := by
    intro w hw
    have h1 : HasDerivAt (fun w : ℝ => w / x) (1 / x) w := (hasDerivAt_id w).div_const x
    have h2 := h1.rpow_const (p := a) (Or.inl (div_pos hw.1 hx).ne')
    refine (h2.congr_deriv ?_).hasDerivWithinAt
    rw [Real.div_rpow hw.1.le hx.le, Real.rpow_sub_one hx.ne']
    have := (Real.rpow_pos_of_pos hx a).ne'
    field_simp
  have hinj : InjOn f (Ioo 0 x) := by
    intro b hb c hc hbc
    have h1 : b / x = c / x := by
      have := congrArg (fun y : ℝ => y ^ (1 / a)) hbc
      simp only [hf] at this
      rwa [← Real.rpow_mul (div_pos hb.1 hx).le, ← Real.rpow_mul (div_pos hc.1 hx).le, mul_one_div_cancel ha.ne', Real.rpow_one, Real.rpow_one] at this
    field_simp at h1
    exact h1
  rw [h1, ← himg, lintegral_image_eq_lintegral_abs_deriv_mul measurableSet_Ioo hder hinj]
  refine setLIntegral_congr_fun measurableSet_Ioo fun w hw => ?_
  have hw0 := hw.1
  have := Real.rpow_pos_of_pos hx a
  rw [abs_of_nonneg (by positivity)]
  congr 2
  rw [hf]
  dsimp only
  rw [← Real.rpow_mul (div_pos hw.1 hx).le, mul_one_div_cancel ha.ne', Real.rpow_one, div_mul_cancel₀ _ hx.ne']

theorem lintegral_exp_neg {w : ℝ} : ∫⁻ x in Ioi w, ENNReal.ofReal (Real.exp (-x)) = ENNReal.ofReal (Real.exp (-w)) := by
  rw [← ofReal_integral_eq_lintegral_ofReal (integrableOn_exp_neg_Ioi w) (Filter.Eventually.of_forall fun x => (Real.exp_pos _).le), integral_exp_neg_Ioi]

/-- **The boost**: a uniform number to the power `1/a` times a gamma number of shape `a + 1` is a gamma number of shape `a`. -/
theorem gamma_boost {a : ℝ} (ha : 0 < a) : (unif.prod (gammaMeasure (a + 1) 1)).map (fun p => p.1 ^ (1 / a) * p.2) = gammaMeasure a 1 := by
  have p1 : IsProbabilityMeasure (gammaMeasure (a + 1) 1) := isProbabilityMeasure_gammaMeasure (by linarith) one_pos
  have p2 : IsProbabilityMeasure (gammaMeasure a 1) := isProbabilityMeasure_gammaMeasure ha one_pos
  have hm : Measurable fun p : ℝ × ℝ => p.1 ^ (1 / a) * p.2 := by fun_prop
  have p3 : IsProbabilityMeasure ((unif.prod (gammaMeasure (a + 1) 1)).map (fun p => p.1 ^ (1 / a) * p.2)) :=
    Measure.isProbabilityMeasure_map hm.aemeasurable
  refine prob_eq_of_prop (C := ENNReal.ofReal (Real.Gamma (a + 1))⁻¹ * (ENNReal.ofReal a * ENNReal.ofReal (Real.Gamma a))) fun g hg => ?_
  rw [lintegral_map hg hm, lintegral_prod_symm (fun p : ℝ × ℝ => g (p.1 ^ (1 / a) * p.2)) (hg.comp hm).aemeasurable, lintegral_gamma ha hg]
  have hmi : Measurable fun x : ℝ => ∫⁻ u, g (u ^ (1 / a) * x) ∂unif := by
    have : Measurable fun p : ℝ × ℝ => g (p.1 ^ (1 / a) * p.2) := hg.comp hm
    exact this.lintegral_prod_left'
  rw [lintegral_gamma (g := fun x => ∫⁻ u, g (u ^ (1 / a) * x) ∂unif) (by linarith : 0 < a + 1) hmi]
  rw [mul_assoc, mul_assoc]
  congr 1
  have hG : 0 < Real.Gamma a := Real.Gamma_pos_of_pos ha
  rw [← mul_assoc (ENNReal.ofReal (Real.Gamma a)), ← ENNReal.ofReal_mul hG.le, mul_inv_cancel₀ hG.ne', ENNReal.ofReal_one, one_mul,
    ← lintegral_const_mul' _ _ ENNReal.ofReal_ne_top]
  -- exchange the order of integration
  have h1 : ∀ x ∈ Ioi (0:ℝ), ENNReal.ofReal (gammaCore (a + 1) x) * ∫⁻ u, g (u ^ (1 / a) * x) ∂unif =
      ∫⁻ w in Ioi (0:ℝ), (Iio x).indicator (fun w => ENNReal.ofReal (Real.exp (-x)) * (ENNReal.ofReal (a * w ^ (a - 1)) * g w)) w := by
    intro x hx
    have hx : 0 < x := hx
    rw [boost_inner ha hx, setLIntegral_indicator measurableSet_Iio, ← lintegral_const_mul' _ _ ENNReal.ofReal_ne_top]
    have : Iio x ∩ Ioi 0 = Ioo 0 x := by rw [inter_comm]; rfl
    rw [this]
    refine setLIntegral_congr_fun measurableSet_Ioo fun w hw => ?_
    have hw0 := hw.1
    rw [← mul_assoc, ← mul_assoc, ← ENNReal.ofReal_mul (by unfold gammaCore; positivity), ← ENNReal.ofReal_mul (by positivity)]
    congr 2
    unfold gammaCore
    rw [add_sub_cancel_right]
    have := (Real.rpow_pos_of_pos hx a).ne'
    field_simp
  rw [setLIntegral_congr_fun measurableSet_Ioi h1]
  have hmm : Measurable fun p : ℝ × ℝ => (Iio p.1).indicator (fun w => ENNReal.ofReal (Real.exp (-p.1)) * (ENNReal.ofReal (a * w ^ (a - 1)) * g w)) p.2 := by
    have : (fun p : ℝ × ℝ => (Iio p.1).indicator (fun w => ENNReal.ofReal (Real.exp (-p.1)) * (ENNReal.ofReal (a * w ^ (a - 1)) * g w)) p.2) =
        {p : ℝ × ℝ | p.2 < p.1}.indicator fun p => ENNReal.ofReal (Real.exp (-p.1)) * (ENNReal.ofReal (a * p.2 ^ (a - 1)) * g p.2) := by
      funext p
      by_cases h : p.2 < p.1
      · rw [indicator_of_mem (show p.2 ∈ Iio p.1 from h), indicator_of_mem (show p ∈ {p : ℝ × ℝ | p.2 < p.1} from h)]
      · rw [indicator_of_notMem (show p.2 ∉ Iio p.1 from h), indicator_of_notMem (show p ∉ {p : ℝ × ℝ | p.2 < p.1} from h)]
    rw [this]
    refine Measurable.indicator ?_ (measurableSet_lt measurable_snd measurable_fst)
    have : Measurable fun p : ℝ × ℝ => g p.2 := hg.comp measurable_snd
    exact Measurable.mul (by fun_prop) (Measurable.mul (by fun_prop) this)
  rw [lintegral_lintegral_swap (f := fun x w => (Iio x).indicator (fun w => ENNReal.ofReal (Real.exp (-x)) * (ENNReal.ofReal (a * w ^ (a - 1)) * g w)) w)
    hmm.aemeasurable]
  refine setLIntegral_congr_fun measurableSet_Ioi fun w hw => ?_
  have hw : 0 < w := hw
  have h2 : ∀ x, (Iio x).indicator (fun w => ENNReal.ofReal (Real.exp (-x)) * (ENNReal.ofReal (a * w ^ (a - 1)) * g w)) w =
      (Ioi w).indicator (fun x => ENNReal.ofReal (Real.exp (-x)) * (ENNReal.ofReal (a * w ^ (a - 1)) * g w)) x := by
    intro x
    by_cases h : w < x
    · rw [indicator_of_mem (show w ∈ Iio x from h), indicator_of_mem (show x ∈ Ioi w from h)]
    · rw [indicator_of_notMem (show w ∉ Iio x from h), indicator_of_notMem (show x ∉ Ioi w from h)]
  simp only [h2]
  rw [setLIntegral_indicator measurableSet_Ioi, inter_eq_left.2 (Ioi_subset_Ioi hw.le : Ioi w ⊆ Ioi (0:ℝ)), lintegral_mul_const _ (by fun_prop), lintegral_exp_neg,
    ← mul_assoc, ← mul_assoc, ← ENNReal.ofReal_mul (by positivity), ← ENNReal.ofReal_mul ha.le]
  congr 2
  unfold gammaCore
  ring

end Trento
