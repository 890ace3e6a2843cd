import Verif.Props.Nucleon
import Verif.Model.CrossSection
import Mathlib.MeasureTheory.Integral.IntervalIntegral.IntegrationByParts
import Mathlib.Analysis.SpecialFunctions.ImproperIntegrals
import Mathlib.Analysis.SpecialFunctions.Integrals.Basic

/-! # C10: the semi-analytic cross section fit -/

namespace Trento
open Spec MeasureTheory Set
set_option linter.unusedSectionVars false

/-- The inelastic nucleon-nucleon cross section for nucleons of width `w` without substructure, for partonic cross section
`σ`: the integral over impact parameters up to `6 w` of the interaction probability `1 - exp(-σ T_AB(b))`, with the overlap
`T_AB` of two single constituents at distance `b` (the one `participate` uses, see `C07_participate_iff`). -/
noncomputable def Spec.inelasticCrossSection (w σ : ℝ) : ℝ :=
  ∫ b in (0:ℝ)..(6 * w), 2 * Real.pi * b * (1 - Real.exp (-σ * overlapTAB w 1 [⟨b, 0, 1⟩] [⟨0, 0, 1⟩]))

/-- `(1 - e^-t)/t`, the integrand after substitution. -/
noncomputable def substIntegrand (t : ℝ) : ℝ := (1 - Real.exp (-t)) / t

theorem substIntegrand_continuousOn : ContinuousOn substIntegrand (Ioi 0) := by
  unfold substIntegrand
  apply ContinuousOn.div (by fun_prop) (by fun_prop)
  intro x hx; exact (ne_of_gt hx)

theorem substIntegrand_pos {t : ℝ} (h : 0 < t) : 0 < substIntegrand t := by
  unfold substIntegrand
  apply div_pos _ h
  have : Real.exp (-t) < 1 := by rw [Real.exp_lt_one_iff]; linarith
  linarith

theorem uIcc_pos {a b : ℝ} (ha : 0 < a) (hb : 0 < b) : uIcc a b ⊆ Ioi 0 := by
  intro x hx
  rw [mem_Ioi]
  rcases le_total a b with h | h
  · rw [uIcc_of_le h] at hx; linarith [hx.1]
  · rw [uIcc_of_ge h] at hx; linarith [hx.1]

theorem substIntegrand_intervalIntegrable {a b : ℝ} (ha : 0 < a) (hb : 0 < b) : IntervalIntegrable substIntegrand volume a b :=
  (substIntegrand_continuousOn.mono (uIcc_pos ha hb)).intervalIntegrable

theorem expNegDiv_integrableOn {a : ℝ} (ha : 0 < a) : IntegrableOn (fun t => Real.exp (-t) / t) (Ioi a) := by
  have h1 : IntegrableOn (fun t : ℝ => Real.exp (-t) * (1 / a)) (Ioi a) := (integrableOn_exp_neg_Ioi a).mul_const _
  refine h1.mono' ?_ ?_
  · apply ContinuousOn.aestronglyMeasurable _ measurableSet_Ioi
    apply ContinuousOn.div (by fun_prop) (by fun_prop)
    intro x hx; exact (ne_of_gt (ha.trans hx))
  · rw [ae_restrict_iff' measurableSet_Ioi]
    refine .of_forall fun t ht => ?_
    rw [mem_Ioi] at ht
    have h0 : 0 < t := ha.trans ht
    rw [Real.norm_of_nonneg (by positivity), div_eq_mul_one_div]
    gcongr

theorem analyticC_real : (analyticC : ℝ) = 9 := by
  unfold analyticC maxImpactWidths
  simp only [sqr_real, lit_real]
  norm_num

/-- The equation handed to the root finder, as an integral. -/
theorem analyticEq_integral (rhs x : ℝ) :
    analyticEq analyticC rhs x = (∫ t in Real.exp (x - 9)..Real.exp x, substIntegrand t) - rhs := by
  have ha : 0 < Real.exp (x - 9) := Real.exp_pos _
  have hb : 0 < Real.exp x := Real.exp_pos _
  unfold analyticEq
  rw [analyticC_real, expint_real, expint_real]
  simp only [exp_real, neg_neg]
  have h1 := intervalIntegral.integral_Ioi_sub_Ioi (μ := volume) (f := fun t => Real.exp (-t) / t) (a := Real.exp (x-9)) (b := Real.exp x)
    (expNegDiv_integrableOn ha) (Real.exp_le_exp.mpr (by linarith))
  have hlog : ∫ t in Real.exp (x - 9)..Real.exp x, 1 / t = 9 := by
    rw [integral_one_div_of_pos ha hb, ← Real.exp_sub, Real.log_exp]; ring
  have hcont1 : IntervalIntegrable (fun t : ℝ => 1 / t) volume (Real.exp (x-9)) (Real.exp x) := by
    apply ContinuousOn.intervalIntegrable
    apply ContinuousOn.div (by fun_prop) (by fun_prop)
    intro t ht; exact ne_of_gt (uIcc_pos ha hb ht)
  have hcont2 : IntervalIntegrable (fun t : ℝ => Real.exp (-t) / t) volume (Real.exp (x-9)) (Real.exp x) := by
    apply ContinuousOn.intervalIntegrable
    apply ContinuousOn.div (by fun_prop) (by fun_prop)
    intro t ht; exact ne_of_gt (uIcc_pos ha hb ht)
  have hsub : ∫ t in Real.exp (x - 9)..Real.exp x, substIntegrand t =
      (∫ t in Real.exp (x - 9)..Real.exp x, 1 / t) - ∫ t in Real.exp (x - 9)..Real.exp x, Real.exp (-t) / t := by
    rw [← intervalIntegral.integral_sub hcont1 hcont2]
    apply intervalIntegral.integral_congr
    intro t _
    unfold substIntegrand
    ring
  rw [hsub, hlog, ← h1]
  ring

theorem overlapTAB_single (w b : ℝ) :
    overlapTAB w 1 [⟨b, 0, 1⟩] [⟨0, 0, 1⟩] = Real.exp (-b^2 / (4 * w^2)) / (4 * Real.pi * w^2) := by
  unfold overlapTAB
  simp

/-- The cross section integral by substitution `t = exp(x - b²/(4w²))`. -/
theorem inelastic_eq (w : ℝ) (hw : 0 < w) (x : ℝ) :
    inelasticCrossSection w (4 * Real.pi * w^2 * Real.exp x) =
      4 * Real.pi * w^2 * ∫ t in Real.exp (x - 9)..Real.exp x, substIntegrand t := by
  have hpi := Real.pi_pos
  let f : ℝ → ℝ := fun b => Real.exp (x - b^2 / (4 * w^2))
  let f' : ℝ → ℝ := fun b => Real.exp (x - b^2 / (4 * w^2)) * (-(2 * b) / (4 * w^2))
  have hder : ∀ b ∈ uIcc 0 (6 * w), HasDerivAt f (f' b) b := by
    intro b _
    have h1 : HasDerivAt (fun b : ℝ => x - b^2 / (4 * w^2)) (-(2 * b) / (4 * w^2)) b := by
      have := ((hasDerivAt_pow 2 b).div_const (4 * w^2)).const_sub x
      have e : -(((2:ℕ):ℝ) * b ^ (2 - 1) / (4 * w ^ 2)) = -(2 * b) / (4 * w^2) := by simp; ring
      rw [e] at this
      exact this
    exact h1.exp
  have hsub := intervalIntegral.integral_comp_mul_deriv' (a := 0) (b := 6 * w) (f := f) (f' := f') (g := substIntegrand) hder
    (by apply Continuous.continuousOn; simp only [f']; fun_prop)
    (by
      apply substIntegrand_continuousOn.mono
      rintro _ ⟨b, _, rfl⟩
      exact Real.exp_pos _)
  have hf0 : f 0 = Real.exp x := by simp [f]
  have hf6 : f (6 * w) = Real.exp (x - 9) := by
    simp only [f]
    congr 2
    field_simp
    ring
  rw [hf0, hf6] at hsub
  rw [intervalIntegral.integral_symm, ← hsub]
  unfold inelasticCrossSection
  rw [← intervalIntegral.integral_neg, ← intervalIntegral.integral_const_mul]
  apply intervalIntegral.integral_congr
  intro b _
  have hT : -(4 * Real.pi * w^2 * Real.exp x) * overlapTAB w 1 [⟨b, 0, 1⟩] [⟨0, 0, 1⟩] = -f b := by
    rw [overlapTAB_single]
    simp only [f]
    rw [sub_eq_add_neg, Real.exp_add, neg_div]
    field_simp
  have hfb : f b ≠ 0 := (Real.exp_pos _).ne'
  have hf'b : f' b = f b * (-(2 * b) / (4 * w^2)) := rfl
  simp only [hT, Function.comp_apply, substIntegrand, hf'b]
  field_simp

/-- **C10.** `x` solves the equation handed to the root finder exactly if the cross section for partonic cross section
`4 π w² eˣ` (which is what the fit returns for `x`) equals the requested one. -/
theorem C10_root_iff (w : ℝ) (hw : 0 < w) (sigmaNN x : ℝ) :
    analyticEq analyticC (analyticRhs sigmaNN w) x = 0 ↔ inelasticCrossSection w (4 * Real.pi * w^2 * Real.exp x) = sigmaNN := by
  have hpi := Real.pi_pos
  rw [analyticEq_integral, inelastic_eq w hw]
  have hr : analyticRhs sigmaNN w = sigmaNN / (4 * Real.pi * w^2) := by
    unfold analyticRhs; simp
  rw [hr, sub_eq_zero, eq_div_iff (by positivity), mul_comm]

theorem analyticEq_strictMono (rhs : ℝ) : StrictMono fun x : ℝ => analyticEq analyticC rhs x := by
  intro x y hxy
  dsimp only
  rw [analyticEq_integral, analyticEq_integral]
  -- t = e^s
  have key : ∀ x : ℝ, ∫ t in Real.exp (x - 9)..Real.exp x, substIntegrand t = ∫ s in (x - 9)..x, (1 - Real.exp (-Real.exp s)) := by
    intro x
    have h := intervalIntegral.integral_comp_mul_deriv' (a := x - 9) (b := x) (f := Real.exp) (f' := Real.exp) (g := substIntegrand)
      (fun b _ => Real.hasDerivAt_exp b) (Real.continuous_exp.continuousOn) (by
        apply substIntegrand_continuousOn.mono
        rintro _ ⟨b, _, rfl⟩
        exact Real.exp_pos _)
    rw [← h]
    apply intervalIntegral.integral_congr
    intro s _
    have := (Real.exp_pos s).ne'
    simp only [Function.comp_apply, substIntegrand]
    field_simp
  have hshift : ∀ x : ℝ, ∫ s in (x - 9)..x, (1 - Real.exp (-Real.exp s)) = ∫ s in (-9:ℝ)..0, (1 - Real.exp (-Real.exp (s + x))) := by
    intro x
    have := intervalIntegral.integral_comp_add_right (a := -9) (b := 0) (fun s => 1 - Real.exp (-Real.exp s)) x
    rw [this]
    congr 1 <;> ring
  rw [key, key, hshift, hshift]
  apply sub_lt_sub_right
  apply intervalIntegral.integral_lt_integral_of_continuousOn_of_le_of_exists_lt (by norm_num) (by fun_prop) (by fun_prop)
  · intro s _
    have : Real.exp (-Real.exp (s + y)) ≤ Real.exp (-Real.exp (s + x)) := by
      apply Real.exp_le_exp.mpr
      apply neg_le_neg
      exact Real.exp_le_exp.mpr (by linarith)
    linarith
  · refine ⟨0, ⟨by norm_num, by norm_num⟩, ?_⟩
    have : Real.exp (-Real.exp (0 + y)) < Real.exp (-Real.exp (0 + x)) := by
      apply Real.exp_lt_exp.mpr
      apply neg_lt_neg
      exact Real.exp_lt_exp.mpr (by linarith)
    linarith

/-- **C10, uniqueness.** The cross section is a strictly increasing function of the partonic cross section, so the fitted
parameter is unique. -/
theorem C10_strictly_increasing (w : ℝ) (hw : 0 < w) : StrictMonoOn (inelasticCrossSection w) (Ioi 0) := by
  have hpi := Real.pi_pos
  intro a ha b hb hab
  rw [mem_Ioi] at ha hb
  have e : ∀ s : ℝ, 0 < s → s = 4 * Real.pi * w^2 * Real.exp (Real.log (s / (4 * Real.pi * w^2))) := by
    intro s hs
    rw [Real.exp_log (by positivity)]
    field_simp
  rw [e a ha, e b hb, inelastic_eq w hw, inelastic_eq w hw]
  apply mul_lt_mul_of_pos_left _ (by positivity)
  have hlt : Real.log (a / (4 * Real.pi * w^2)) < Real.log (b / (4 * Real.pi * w^2)) := by
    apply Real.log_lt_log (by positivity)
    gcongr
  have := analyticEq_strictMono 0 hlt
  dsimp only at this
  rwa [analyticEq_integral, analyticEq_integral, sub_zero, sub_zero] at this

theorem analyticEq_continuous (rhs : ℝ) : Continuous fun x : ℝ => analyticEq analyticC rhs x := by
  have : (fun x : ℝ => analyticEq analyticC rhs x) = fun x => (∫ t in (1:ℝ)..Real.exp x, substIntegrand t) -
      (∫ t in (1:ℝ)..Real.exp (x - 9), substIntegrand t) - rhs := by
    funext x
    rw [analyticEq_integral, intervalIntegral.integral_interval_sub_left (substIntegrand_intervalIntegrable one_pos (Real.exp_pos _))
      (substIntegrand_intervalIntegrable one_pos (Real.exp_pos _))]
  rw [this]
  have hprim : ContinuousOn (fun u => ∫ t in (1:ℝ)..u, substIntegrand t) (Ioi 0) := by
    intro u hu
    have hu' : (0:ℝ) < u := hu
    have h1 : IntervalIntegrable substIntegrand volume (min 1 (u/2)) (max 1 (2*u)) :=
      substIntegrand_intervalIntegrable (lt_min one_pos (by linarith)) (lt_max_of_lt_left one_pos)
    have hc := intervalIntegral.continuousOn_primitive_interval' (μ := volume) (f := substIntegrand) (a := 1)
      (b₁ := min 1 (u/2)) (b₂ := max 1 (2*u)) h1 (by
        rw [uIcc_of_le (le_trans (min_le_left _ _) (le_max_left _ _))]
        exact ⟨min_le_left _ _, le_max_left _ _⟩)
    have hnhds : uIcc (min 1 (u/2)) (max 1 (2*u)) ∈ nhds u := by
      rw [uIcc_of_le (le_trans (min_le_left _ _) (le_max_left _ _))]
      apply Icc_mem_nhds
      · exact lt_of_le_of_lt (min_le_right _ _) (by linarith)
      · exact lt_of_lt_of_le (by linarith) (le_max_right _ _)
    exact (hc.continuousAt hnhds).continuousWithinAt
  have h1 : Continuous fun x : ℝ => ∫ t in (1:ℝ)..Real.exp x, substIntegrand t :=
    hprim.comp_continuous Real.continuous_exp (fun x => Real.exp_pos x)
  have h2 : Continuous fun x : ℝ => ∫ t in (1:ℝ)..Real.exp (x - 9), substIntegrand t :=
    hprim.comp_continuous (Real.continuous_exp.comp (continuous_id.sub continuous_const)) (fun x => Real.exp_pos _)
  exact (h1.sub h2).sub continuous_const

/-! ## The fit, given the contract of the root finder -/

/-- The contract of `boost::math::tools::toms748_solve` for a function without state and exceptions, a search range around 0, a tolerance of at least one bit
and at least three evaluations: a bracket inside the given one across which the function changes sign, if it does so across the given one;
`std::domain_error` otherwise.  The algorithm of Boost meets it (`boostToms_lawful`). -/
class LawfulToms [Toms748 ℝ] : Prop where
  bracket : ∀ (f : ℝ → ℝ) (a b : ℝ) (bits n : ℕ), a < 0 → 0 < b → 1 ≤ bits → 3 ≤ n → f a * f b ≤ 0 →
    ∃ l r, (Toms748.solve (fun x (s : Unit) => (.ok (f x), s)) a b bits n ()).1 = .ok (l, r) ∧ a ≤ l ∧ l ≤ r ∧ r ≤ b ∧ f l * f r ≤ 0
  no_bracket : ∀ (f : ℝ → ℝ) (a b : ℝ) (bits n : ℕ), a < 0 → 0 < b → 1 ≤ bits → 3 ≤ n → 0 < f a * f b →
    ∃ msg, (Toms748.solve (fun x (s : Unit) => (.ok (f x), s)) a b bits n ()).1 = .error (.throw .domainError msg)

/-- **C10, the fit.** If the requested cross section lies between the cross sections at both ends of the search range, the fit
returns a value `σ` with: there is exactly one partonic cross section `σ₀` in the range that reproduces the requested cross section, and
`σ` and `σ₀` lie in one bracket of the root finder, `σ` being its geometric middle: with `δ` the logarithmic width of the bracket, `σ`
is within a factor `exp(δ/2)` of `σ₀`.  Otherwise the fit throws `std::domain_error`. -/
theorem C10_fit [Toms748 ℝ] [LawfulToms] (w : ℝ) (hw : 0 < w) (sigmaNN : ℝ) :
    (inelasticCrossSection w (4 * Real.pi * w^2 * Real.exp (-10)) ≤ sigmaNN ∧
      sigmaNN ≤ inelasticCrossSection w (4 * Real.pi * w^2 * Real.exp 20) →
      ∃ σ l r σ₀, analyticCrossSection sigmaNN w = .ok σ ∧
        (Toms748.solve (fun x (s : Unit) => (.ok (analyticEq analyticC (analyticRhs sigmaNN w) x), s)) (lit (-10)) (lit 20) 39 1000 ()).1
          = .ok (l, r) ∧
        inelasticCrossSection w σ₀ = sigmaNN ∧ (∀ σ', 0 < σ' → inelasticCrossSection w σ' = sigmaNN → σ' = σ₀) ∧
        4 * Real.pi * w^2 * Real.exp l ≤ σ₀ ∧ σ₀ ≤ 4 * Real.pi * w^2 * Real.exp r ∧
        σ₀ * Real.exp (-((r - l)/2)) ≤ σ ∧ σ ≤ σ₀ * Real.exp ((r - l)/2)) ∧
    (sigmaNN < inelasticCrossSection w (4 * Real.pi * w^2 * Real.exp (-10)) ∨
      inelasticCrossSection w (4 * Real.pi * w^2 * Real.exp 20) < sigmaNN →
      ∃ msg, analyticCrossSection sigmaNN w = .error (.throw .domainError msg)) := by
  have hpi := Real.pi_pos
  set f : ℝ → ℝ := fun x => analyticEq analyticC (analyticRhs sigmaNN w) x with hf
  have hmono : StrictMono f := analyticEq_strictMono _
  have hr : analyticRhs sigmaNN w = sigmaNN / (4 * Real.pi * w^2) := by unfold analyticRhs; simp
  have hfx : ∀ x, f x = (inelasticCrossSection w (4 * Real.pi * w^2 * Real.exp x) - sigmaNN) / (4 * Real.pi * w^2) := by
    intro x
    rw [hf]
    dsimp only
    rw [analyticEq_integral, inelastic_eq w hw, hr]
    field_simp
  have hk : 0 < 4 * Real.pi * w^2 := by positivity
  have h10 : (lit (-10) : ℝ) = -10 := by simp
  have h20 : (lit 20 : ℝ) = 20 := by simp
  constructor
  · rintro ⟨ha, hb⟩
    have hfa : f (-10) ≤ 0 := by rw [hfx]; exact div_nonpos_of_nonpos_of_nonneg (by linarith) hk.le
    have hfb : 0 ≤ f 20 := by rw [hfx]; exact div_nonneg (by linarith) hk.le
    obtain ⟨l, r, hs, h1, h2, h3, h4⟩ := LawfulToms.bracket f (-10) 20 39 1000 (by norm_num) (by norm_num) (by norm_num) (by norm_num) (mul_nonpos_of_nonpos_of_nonneg hfa hfb)
    have hflr : f l ≤ f r := hmono.monotone h2
    have hfl : f l ≤ 0 := by
      by_contra h; push Not at h
      have : 0 < f l * f r := mul_pos h (by linarith)
      linarith
    have hfr : 0 ≤ f r := by
      by_contra h; push Not at h
      have : 0 < f l * f r := mul_pos_of_neg_of_neg (by linarith) h
      linarith
    obtain ⟨x, hx, hfx0⟩ := intermediate_value_Icc h2 (analyticEq_continuous (analyticRhs sigmaNN w)).continuousOn ⟨hfl, hfr⟩
    have hroot := (C10_root_iff w hw sigmaNN x).mp hfx0
    refine ⟨Real.exp (1/2 * (l + r)) * 4 * Real.pi * w^2, l, r, 4 * Real.pi * w^2 * Real.exp x, ?_, ?_, hroot, ?_, ?_, ?_, ?_, ?_⟩
    · unfold analyticCrossSection
      rw [h10, h20, hs]
      simp only [fitResult, exp_real, lit_real, pi_real, sqr_real]
      norm_num
    · rw [h10, h20]; exact hs
    · intro σ' hσ' h
      exact (C10_strictly_increasing w hw).injOn (show σ' ∈ Ioi 0 from hσ')
        (show 4 * Real.pi * w^2 * Real.exp x ∈ Ioi 0 from mul_pos hk (Real.exp_pos x)) (by rw [h, hroot])
    · exact mul_le_mul_of_nonneg_left (Real.exp_le_exp.mpr hx.1) hk.le
    · exact mul_le_mul_of_nonneg_left (Real.exp_le_exp.mpr hx.2) hk.le
    · rw [mul_assoc, ← Real.exp_add]
      have : Real.exp (x + -((r - l)/2)) ≤ Real.exp (1/2 * (l + r)) := Real.exp_le_exp.mpr (by linarith [hx.2])
      have := mul_le_mul_of_nonneg_left this hk.le
      linarith
    · rw [mul_assoc (4 * Real.pi * w^2), ← Real.exp_add]
      have : Real.exp (1/2 * (l + r)) ≤ Real.exp (x + (r - l)/2) := Real.exp_le_exp.mpr (by linarith [hx.1])
      have := mul_le_mul_of_nonneg_left this hk.le
      linarith
  · intro h
    have hprod : 0 < f (-10) * f 20 := by
      have hlt : f (-10) < f 20 := hmono (by norm_num)
      rcases h with h | h
      · have : 0 < f (-10) := by rw [hfx]; exact div_pos (by linarith) hk
        exact mul_pos this (by linarith)
      · have : f 20 < 0 := by rw [hfx]; exact div_neg_of_neg_of_pos (by linarith) hk
        exact mul_pos_of_neg_of_neg (by linarith) this
    obtain ⟨msg, hs⟩ := LawfulToms.no_bracket f (-10) 20 39 1000 (by norm_num) (by norm_num) (by norm_num) (by norm_num) hprod
    refine ⟨"unable to fit cross section", ?_⟩
    unfold analyticCrossSection
    rw [h10, h20, hs]
    rfl

/-! ## Concrete cases -/

/-- A root finder that meets the contract: it returns the bracket it was given. -/
@[reducible] noncomputable def trivialToms : Toms748 ℝ where
  solve f a b _ _ s :=
    match f a s with
    | (.error e, s) => (.error e, s)
    | (.ok fa, s) =>
      match f b s with
      | (.error e, s) => (.error e, s)
      | (.ok fb, s) => if lt (lit 0) (fa * fb) then (.error (.throw .domainError "no bracket"), s) else (.ok (a, b), s)

theorem trivialToms_lawful : @LawfulToms trivialToms := by
  refine @LawfulToms.mk trivialToms ?_ ?_
  · intro f a b bits n ha hb _ _ h
    refine ⟨a, b, ?_, le_rfl, (ha.trans hb).le, le_rfl, h⟩
    show (if lt (lit 0 : ℝ) (f a * f b) then _ else _ : Res (ℝ × ℝ) × Unit).1 = _
    rw [if_neg (by simpa using h)]
  · intro f a b bits n _ _ _ _ h
    refine ⟨"no bracket", ?_⟩
    show (if lt (lit 0 : ℝ) (f a * f b) then _ else _ : Res (ℝ × ℝ) × Unit).1 = _
    rw [if_pos (by simpa using h)]

/-- The search range contains a non-trivial interval of cross sections. -/
example (w : ℝ) (hw : 0 < w) : inelasticCrossSection w (4 * Real.pi * w^2 * Real.exp (-10)) <
    inelasticCrossSection w (4 * Real.pi * w^2 * Real.exp 20) := by
  have hpi := Real.pi_pos
  apply C10_strictly_increasing w hw
  · exact mem_Ioi.mpr (by positivity)
  · exact mem_Ioi.mpr (by positivity)
  · exact mul_lt_mul_of_pos_left (Real.exp_lt_exp.mpr (by norm_num)) (by positivity)

end Trento
