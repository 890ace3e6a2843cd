import Verif.Lemmas.Toms748
import Verif.Props.BinaryCollisions
import Verif.Lemmas.FreshTape
import Verif.Props.ExampleRun

/-!
# C103: the fitted cross section is accurate

C10 says that the fit returns the middle of a bracket of the root.  With the algorithm of Boost (`Model/Toms748.lean`) the bracket is narrow: the search stops by
the tolerance, at an exact root or, after 1000 evaluations, with a bracket that was halved at least 249 times.
-/

namespace Trento
open MeasureTheory Set Spec
open scoped ENNReal

/-- **C103, root finder.** `toms748_solve` with a search range around 0, a tolerance of 1 to 50 bits and at least three evaluations, for any function, also one that draws random numbers or
throws: if it returns, the bracket `(l, r)` lies in the search range, the function was evaluated at both ends with values of different sign (or 0), and the bracket is a
point, or meets the tolerance `r - l ≤ 2^(1-bits) min(|l|, |r|)` or is narrower than the search range divided by `2^((n-4)/4)`. -/
theorem C103_root_finder {S : Type} (f : ℝ → S → Res ℝ × S) (a b : ℝ) (bits n : ℕ) (s s' : S) (l r : ℝ) (ha : a < 0) (hb : 0 < b) (hb1 : 1 ≤ bits) (hb2 : bits ≤ 50)
    (hn : 3 ≤ n) (h : boostToms.solve f a b bits n s = (.ok (l, r), s')) :
    a ≤ l ∧ l ≤ r ∧ r ≤ b ∧ (∃ s1 s2 y1 y2, (f l s1).1 = .ok y1 ∧ (f r s2).1 = .ok y2 ∧ y1 * y2 ≤ 0) ∧
      (l = r ∨ r - l ≤ 2 / 2^bits * min |l| |r| ∨ r - l ≤ (b - a) / 2^((n - 4) / 4)) := by
  obtain ⟨h1, h2, h3, h4, h5⟩ := boostSolve_bracket f a b bits n s s' l r ha hb hb1 hn h
  refine ⟨h1, h2, h3, h4, ?_⟩
  rcases h5 with h5 | h5 | h5
  · exact .inl h5
  · have he : (tolEps bits : ℝ) = 2 / 2^bits := by
      unfold tolEps
      rw [machEps_real, fmax_real, max_eq_left]
      · rw [lit_real]; push_cast; rfl
      · rw [lit_real, lit_real]
        push_cast
        have : (2:ℝ)^bits ≤ 2^50 := pow_le_pow_right₀ (by norm_num) hb2
        have h0 : (0:ℝ) < 2^bits := by positivity
        rw [mul_one_div, div_le_div_iff₀ (by norm_num) h0]
        norm_num at this ⊢
        linarith
    rw [he] at h5
    exact .inr (.inl h5)
  · exact .inr (.inr (h5 hb2))

/-- the bracket of the analytic fit is narrow -/
theorem fit_width (f : ℝ → ℝ) (l r : ℝ) (h : (boostToms.solve (fun x (s : Unit) => (.ok (f x), s)) (lit (-10)) (lit 20) 39 1000 ()).1 = .ok (l, r)) :
    r - l ≤ 2 / 2^34 := by
  have e1 : (lit (-10) : ℝ) = -10 := by simp
  have e2 : (lit 20 : ℝ) = 20 := by simp
  rw [e1, e2] at h
  obtain ⟨h1, h2, h3, -, h5⟩ := C103_root_finder (fun x (s : Unit) => (.ok (f x), s)) (-10) 20 39 1000 () () l r (by norm_num) (by norm_num) (by norm_num) (by norm_num) (by norm_num)
    (Prod.ext h rfl)
  rcases h5 with h5 | h5 | h5
  · rw [h5, sub_self]; norm_num
  · have h6 : min |l| |r| ≤ 20 := by
      rcases le_total 0 r with hr | hr
      · exact (min_le_right _ _).trans (by rw [abs_of_nonneg hr]; exact h3)
      · refine (min_le_left _ _).trans ?_
        rw [abs_le]; constructor <;> linarith
    have : (2 / 2^39 : ℝ) * min |l| |r| ≤ 2 / 2^39 * 20 := mul_le_mul_of_nonneg_left h6 (by positivity)
    norm_num at this ⊢ h5
    linarith
  · have : (2:ℝ)^39 ≤ 2^((1000 - 4) / 4) := pow_le_pow_right₀ (by norm_num) (by norm_num)
    have h6 : (20 - (-10) : ℝ) / 2^((1000 - 4) / 4) ≤ 30 / 2^39 := by
      refine (div_le_div_of_nonneg_left (by norm_num) (by positivity) this).trans_eq (by norm_num)
    have h7 : (30 / 2^39 : ℝ) ≤ 2 / 2^34 := by norm_num
    exact (h5.trans h6).trans h7

/-- **C103, the parameter.** If a partonic cross section in the search range reproduces the requested cross section, the fit finds it with a relative error of `2^-34`:
with `σ₀` the only such parameter the fit returns `σ` with `|ln σ - ln σ₀| ≤ 2^-34`. -/
theorem C103_fit (w : ℝ) (hw : 0 < w) (sigmaNN : ℝ) (h1 : inelasticCrossSection w (4 * Real.pi * w^2 * Real.exp (-10)) ≤ sigmaNN)
    (h2 : sigmaNN ≤ inelasticCrossSection w (4 * Real.pi * w^2 * Real.exp 20)) :
    ∃ σ σ₀, @analyticCrossSection ℝ _ boostToms sigmaNN w = .ok σ ∧ 0 < σ₀ ∧ inelasticCrossSection w σ₀ = sigmaNN ∧
      (∀ σ', 0 < σ' → inelasticCrossSection w σ' = sigmaNN → σ' = σ₀) ∧ σ₀ * Real.exp (-(1 / 2^34)) ≤ σ ∧ σ ≤ σ₀ * Real.exp (1 / 2^34) := by
  have hpi := Real.pi_pos
  obtain ⟨σ, l, r, σ₀, e1, e2, e3, e4, e5, e6, e7, e8⟩ := (@C10_fit boostToms boostToms_lawful w hw sigmaNN).1 ⟨h1, h2⟩
  have hd : (r - l)/2 ≤ 1 / 2^34 := by
    have := fit_width _ l r e2
    norm_num at this ⊢
    linarith
  have h0 : 0 < σ₀ := lt_of_lt_of_le (by positivity) e5
  exact ⟨σ, σ₀, e1, h0, e3, e4, le_trans (mul_le_mul_of_nonneg_left (Real.exp_le_exp.mpr (by linarith)) h0.le) e7,
    e8.trans (mul_le_mul_of_nonneg_left (Real.exp_le_exp.mpr hd) h0.le)⟩

/-- the cross section is concave in the parameter -/
theorem inelastic_concave {w : ℝ} (hw : 0 < w) {σ : ℝ} {k : ℝ} (hk : 1 ≤ k) : inelasticCrossSection w (k * σ) ≤ k * inelasticCrossSection w σ := by
  have hpi := Real.pi_pos
  unfold inelasticCrossSection
  rw [← intervalIntegral.integral_const_mul]
  have hc : ∀ σ : ℝ, Continuous fun b : ℝ => 2 * Real.pi * b * (1 - Real.exp (-σ * overlapTAB w 1 [⟨b, 0, 1⟩] [⟨0, 0, 1⟩])) := by
    intro σ
    simp only [overlapTAB_single]
    fun_prop
  refine intervalIntegral.integral_mono_on (by positivity) ((hc _).intervalIntegrable _ _) (((hc σ).const_mul k).intervalIntegrable _ _) fun b hb => ?_
  have hT : 0 ≤ overlapTAB w 1 [⟨b, 0, 1⟩] [⟨0, 0, 1⟩] := by rw [overlapTAB_single]; positivity
  generalize overlapTAB w 1 [⟨b, 0, 1⟩] [⟨0, 0, 1⟩] = T at hT
  have h1 : -1 ≤ Real.exp (-σ * T) - 1 := by linarith [Real.exp_pos (-σ * T)]
  have h2 := one_add_mul_self_le_rpow_one_add h1 hk
  rw [add_sub_cancel, ← Real.exp_mul] at h2
  have h3 : -(k * σ) * T = -σ * T * k := by ring
  rw [h3]
  have h4 : 1 - Real.exp (-σ * T * k) ≤ k * (1 - Real.exp (-σ * T)) := by linarith
  have h5 := mul_le_mul_of_nonneg_left h4 (by have := hb.1; positivity : 0 ≤ 2 * Real.pi * b)
  linarith

theorem exp_small : Real.exp (1 / 2^34) ≤ 1 + 1 / 2^33 := by
  have h1 := Real.add_one_le_exp (-(1 / 2^34) : ℝ)
  have h2 : Real.exp (1 / 2^34) * Real.exp (-(1 / 2^34)) = 1 := by rw [← Real.exp_add, add_neg_cancel, Real.exp_zero]
  have h3 := Real.exp_pos (1 / 2^34)
  have h4 : Real.exp (1 / 2^34) * (-(1 / 2^34) + 1) ≤ 1 := (mul_le_mul_of_nonneg_left h1 h3.le).trans_eq h2
  norm_num at h4 h3 ⊢
  linarith

/-- **C103, the cross section.** The fitted parameter reproduces the requested cross section with a relative error of `2^-33`. -/
theorem C103_reproduces (w : ℝ) (hw : 0 < w) (sigmaNN : ℝ) (h1 : inelasticCrossSection w (4 * Real.pi * w^2 * Real.exp (-10)) ≤ sigmaNN)
    (h2 : sigmaNN ≤ inelasticCrossSection w (4 * Real.pi * w^2 * Real.exp 20)) :
    ∃ σ, @analyticCrossSection ℝ _ boostToms sigmaNN w = .ok σ ∧ 0 < σ ∧
      sigmaNN * (1 - 1 / 2^33) ≤ inelasticCrossSection w σ ∧ inelasticCrossSection w σ ≤ sigmaNN * (1 + 1 / 2^33) := by
  obtain ⟨σ, σ₀, e1, e2, e3, -, e4, e5⟩ := C103_fit w hw sigmaNN h1 h2
  have hσ : 0 < σ := lt_of_lt_of_le (mul_pos e2 (Real.exp_pos _)) e4
  have hmono := (C10_strictly_increasing w hw).monotoneOn
  set k := Real.exp (1 / 2^34) with hk
  have hk1 : 1 ≤ k := Real.one_le_exp (by positivity)
  have hpos : 0 ≤ sigmaNN := by
    rw [← e3]
    have hpi := Real.pi_pos
    refine intervalIntegral.integral_nonneg (by positivity) fun b hb => mul_nonneg (by have := hb.1; positivity) (C07_probability w 1 σ₀ e2.le _ _).2.1
  have hs := exp_small
  rw [← hk] at hs
  have u1 : inelasticCrossSection w σ ≤ k * sigmaNN := by
    rw [← e3]
    refine le_trans (hmono (mem_Ioi.mpr hσ) (mem_Ioi.mpr (mul_pos (by linarith) e2)) ?_) (inelastic_concave hw hk1)
    rw [mul_comm]; exact e5
  have u2 : sigmaNN ≤ k * inelasticCrossSection w σ := by
    rw [← e3]
    refine le_trans (hmono (mem_Ioi.mpr e2) (mem_Ioi.mpr (mul_pos (by linarith) hσ)) ?_) (inelastic_concave hw hk1)
    rw [Real.exp_neg, ← hk, ← div_eq_mul_inv, div_le_iff₀ (by linarith)] at e4
    rw [mul_comm]; exact e4
  have hi : 0 ≤ inelasticCrossSection w σ := by nlinarith
  refine ⟨σ, e1, hσ, ?_, ?_⟩
  · have h3 : k * inelasticCrossSection w σ ≤ (1 + 1 / 2^33) * inelasticCrossSection w σ := mul_le_mul_of_nonneg_right hs hi
    have h4 : sigmaNN * (1 - 1 / 2^33) ≤ (1 + 1 / 2^33) * inelasticCrossSection w σ * (1 - 1 / 2^33) :=
      mul_le_mul_of_nonneg_right (u2.trans h3) (by norm_num)
    norm_num at h4 ⊢
    linarith
  · have h3 : k * sigmaNN ≤ (1 + 1 / 2^33) * sigmaNN := mul_le_mul_of_nonneg_right hs hpos
    linarith

/-- **C103, failure.** If no parameter in the search range reproduces the requested cross section the fit throws `std::domain_error`. -/
theorem C103_fails (w : ℝ) (hw : 0 < w) (sigmaNN : ℝ) (h : sigmaNN < inelasticCrossSection w (4 * Real.pi * w^2 * Real.exp (-10)) ∨
    inelasticCrossSection w (4 * Real.pi * w^2 * Real.exp 20) < sigmaNN) :
    ∃ msg, @analyticCrossSection ℝ _ boostToms sigmaNN w = .error (.throw .domainError msg) :=
  (@C10_fit boostToms boostToms_lawful w hw sigmaNN).2 h

/-- **C103, `trento p p`.** Two protons without substructure, the default range of impact parameters and the fitted parameter: `π bmax²` times the probability that an attempt
collides is the `--cross-section` option, with a relative error of `2^-33`. -/
theorem C103_proton_proton {E D : Type} [Rng ℝ E D] [MeasurableSpace E] [MeasurableSpace D] {I : Type} {μ : I → Measure (Rand E D)}
    (h : FreshSource E D μ) (o : Options ℝ) (hA : NucleusHistory E D o.projectileA) (hB : NucleusHistory E D o.projectileB)
    (kA : o.projectileA.kind = .proton) (kB : o.projectileB.kind = .proton) (hw : 0 < o.nucleonWidth) (hv : o.constitWidth = o.nucleonWidth)
    (hm : o.constitNumber = 1) (h0 : o.bMin = 0) (h1 : o.bMax < 0)
    (r1 : inelasticCrossSection o.nucleonWidth (4 * Real.pi * o.nucleonWidth^2 * Real.exp (-10)) ≤ o.crossSection)
    (r2 : o.crossSection ≤ inelasticCrossSection o.nucleonWidth (4 * Real.pi * o.nucleonWidth^2 * Real.exp 20)) :
    ∃ σ, @analyticCrossSection ℝ _ boostToms o.crossSection o.nucleonWidth = .ok σ ∧ ∀ (rfuel : ℕ) (i : I),
      ENNReal.ofReal (o.crossSection * (1 - 1 / 2^33)) ≤ ENNReal.ofReal (Real.pi * (6 * o.nucleonWidth)^2) *
        collisionMean (μ i) rfuel (Collider.make o σ) o.projectileA o.projectileB 1 (fun _ => 1) ∧
      ENNReal.ofReal (Real.pi * (6 * o.nucleonWidth)^2) *
        collisionMean (μ i) rfuel (Collider.make o σ) o.projectileA o.projectileB 1 (fun _ => 1) ≤ ENNReal.ofReal (o.crossSection * (1 + 1 / 2^33)) := by
  obtain ⟨σ, e1, e2, e3, e4⟩ := C103_reproduces o.nucleonWidth hw o.crossSection r1 r2
  refine ⟨σ, e1, fun rfuel i => ?_⟩
  rw [C91_options h o hA hB kA kB hw hv hm h0 h1 σ e2.le _ rfl rfuel i]
  exact ⟨ENNReal.ofReal_le_ofReal e3, ENNReal.ofReal_le_ofReal e4⟩

/-- **C103, substructure.** With at least two constituents a fit that returns `σ` has found parameters `σ₁ ≤ σ ≤ σ₂`, at most a factor `exp(15/8)` apart, for which Monte
Carlo runs gave cross sections on different sides of the requested one (or equal to it). -/
theorem C103_monte_carlo {E D : Type} [Rng ℝ E D] (key : CacheKey ℝ) (hm : 2 ≤ key.m) (r r' : Rand E D) (σ : ℝ)
    (h : @crossSectionFit ℝ E D _ boostToms _ mcConst key r = (.ok σ, r')) :
    ∃ σ₁ σ₂ x₁ x₂, 4 * Real.pi * key.v^2 * Real.exp (-10) ≤ σ₁ ∧ σ₁ ≤ σ ∧ σ ≤ σ₂ ∧ σ₂ ≤ 4 * Real.pi * key.v^2 * Real.exp 20 ∧ σ₂ ≤ Real.exp (15/8) * σ₁ ∧
      MonteCarloGives E D key.w key.v key.m.toNat σ₁ x₁ ∧ MonteCarloGives E D key.w key.v key.m.toNat σ₂ x₂ ∧ (x₁ - key.s) * (x₂ - key.s) ≤ 0 ∧ σ^2 = σ₁ * σ₂ := by
  have hpi := Real.pi_pos
  unfold crossSectionFit at h
  rw [if_pos (by omega)] at h
  unfold numericCrossSection at h
  dsimp only at h
  generalize hsol : @Toms748.solve ℝ boostToms _ _ (lit (-10) : ℝ) (lit 20) 8 20 r = out at h
  obtain ⟨res, r2⟩ := out
  have hev : ∀ (x : ℝ) (r r2 : Rand E D) (cs : ℝ) (ps : List ℝ),
      (MonteCarlo.make key.w key.v key.m.toNat).run mcConst (exp x * (lit 4 * pi * sqr key.v)) r = .ok (cs, ps, r2) →
      MonteCarloGives E D key.w key.v key.m.toNat (4 * Real.pi * key.v^2 * Real.exp x) cs := by
    intro x r r2 cs ps hrun
    refine ⟨r, r2, ps, ?_⟩
    have e1 : (exp x * (lit 4 * pi * sqr key.v) : ℝ) = 4 * Real.pi * key.v^2 * Real.exp x := by
      simp only [exp_real, lit_real, pi_real, sqr_real]; push_cast; ring
    rw [← e1, hrun]
  simp only [Prod.mk.injEq] at h
  cases res with
  | error e =>
    rcases h with ⟨h, -⟩
    unfold fitResult at h
    split at h
    · rename_i he; cases he
    · cases h
    · cases h
  | ok lr =>
    obtain ⟨l, rr⟩ := lr
    obtain ⟨h1, h2, h3, ⟨s1, s2, y1, y2, e1, e2, hy⟩, hwid⟩ := C103_root_finder _ (lit (-10)) (lit 20) 8 20 r r2 l rr
      (by simp only [lit_real]; norm_num) (by simp only [lit_real]; norm_num) (by norm_num) (by norm_num) (by norm_num) hsol
    have hl : (-10:ℝ) ≤ l := by simpa using h1
    have hr : rr ≤ 20 := by simpa using h3
    have hd : rr - l ≤ 15/8 := by
      rcases hwid with h5 | h5 | h5
      · rw [h5, sub_self]; norm_num
      · have h6 : min |l| |rr| ≤ 20 := by
          rcases le_total 0 rr with hr' | hr'
          · exact (min_le_right _ _).trans (by rw [abs_of_nonneg hr']; exact hr)
          · refine (min_le_left _ _).trans ?_
            rw [abs_le]; constructor <;> linarith
        norm_num at h5
        linarith
      · simp only [lit_real] at h5
        norm_num at h5
        linarith
    split at e1
    · cases e1
    rename_i x1 ps1 r3 hr1
    split at e2
    · cases e2
    rename_i x2 ps2 r4 hr2
    simp only [Except.ok.injEq] at e1 e2
    have hσ : σ = 4 * Real.pi * key.v^2 * Real.exp ((l + rr)/2) := by
      have := h.1
      simp only [fitResult, Except.ok.injEq] at this
      rw [← this]
      simp only [exp_real, lit_real, pi_real, sqr_real]
      push_cast
      ring_nf
    have hk : 0 ≤ 4 * Real.pi * key.v^2 := by positivity
    refine ⟨4 * Real.pi * key.v^2 * Real.exp l, 4 * Real.pi * key.v^2 * Real.exp rr, x1, x2, ?_, ?_, ?_, ?_, ?_, hev _ _ _ _ _ hr1,
      hev _ _ _ _ _ hr2, by rw [e1, e2]; exact hy, ?_⟩
    · exact mul_le_mul_of_nonneg_left (Real.exp_le_exp.mpr hl) hk
    · rw [hσ]; exact mul_le_mul_of_nonneg_left (Real.exp_le_exp.mpr (by linarith)) hk
    · rw [hσ]; exact mul_le_mul_of_nonneg_left (Real.exp_le_exp.mpr (by linarith)) hk
    · exact mul_le_mul_of_nonneg_left (Real.exp_le_exp.mpr hr) hk
    · rw [mul_left_comm, ← Real.exp_add]
      exact mul_le_mul_of_nonneg_left (Real.exp_le_exp.mpr (by linarith)) hk
    · rw [hσ, mul_pow, ← Real.exp_nat_mul, show ((2:ℕ):ℝ) * ((l + rr)/2) = l + rr by push_cast; ring, Real.exp_add]
      ring

/-! ### The hypotheses can be met -/

theorem subst_le_one {t : ℝ} (ht : 0 < t) : substIntegrand t ≤ 1 := by
  unfold substIntegrand
  rw [div_le_one ht]
  linarith [Real.add_one_le_exp (-t)]

theorem subst_ge {t : ℝ} (ht : 1 ≤ t) : 1/2 * (1/t) ≤ substIntegrand t := by
  unfold substIntegrand
  have h1 : Real.exp (-t) ≤ 1/2 := by
    have h2 : (2:ℝ) ≤ Real.exp t := by linarith [Real.add_one_le_exp t]
    rw [Real.exp_neg]
    exact (inv_le_comm₀ (Real.exp_pos t) (by norm_num)).mpr (by linarith)
  rw [mul_one_div]
  exact div_le_div_of_nonneg_right (by linarith) (by linarith)

/-- The default cross section of 6.4 fm² and a nucleon width of 1/2 fm are within the range of the fit. -/
theorem default_in_range : inelasticCrossSection (1/2) (4 * Real.pi * (1/2)^2 * Real.exp (-10)) ≤ 6.4 ∧
    6.4 ≤ inelasticCrossSection (1/2) (4 * Real.pi * (1/2)^2 * Real.exp 20) := by
  have hp3 := Real.pi_gt_three
  have hp4 := Real.pi_le_four
  have hcont : ∀ x : ℝ, ContinuousOn substIntegrand (uIcc (Real.exp (x - 9)) (Real.exp x)) := by
    intro x
    refine substIntegrand_continuousOn.mono fun t ht => ?_
    rw [uIcc_of_le (Real.exp_le_exp.mpr (by linarith))] at ht
    exact lt_of_lt_of_le (Real.exp_pos _) ht.1
  rw [inelastic_eq _ (by norm_num), inelastic_eq _ (by norm_num)]
  constructor
  · have h1 : ∫ t in Real.exp (-10 - 9)..Real.exp (-10), substIntegrand t ≤ ∫ t in Real.exp (-10 - 9)..Real.exp (-10), (1:ℝ) :=
      intervalIntegral.integral_mono_on (Real.exp_le_exp.mpr (by norm_num)) (hcont (-10)).intervalIntegrable intervalIntegrable_const
        fun t ht => subst_le_one (lt_of_lt_of_le (Real.exp_pos _) ht.1)
    rw [intervalIntegral.integral_const, smul_eq_mul, mul_one] at h1
    have h2 : Real.exp (-10) ≤ 1 := Real.exp_le_one_iff.mpr (by norm_num)
    have h3 := Real.exp_pos (-10 - 9)
    have h4 := mul_le_mul_of_nonneg_left (h1.trans (by linarith : Real.exp (-10) - Real.exp (-10 - 9) ≤ 1)) Real.pi_pos.le
    norm_num at h4 ⊢
    linarith
  · have h1 : ∫ t in Real.exp (20 - 9)..Real.exp 20, 1/2 * (1/t) ≤ ∫ t in Real.exp (20 - 9)..Real.exp 20, substIntegrand t := by
      refine intervalIntegral.integral_mono_on (Real.exp_le_exp.mpr (by norm_num)) ?_ (hcont 20).intervalIntegrable fun t ht => subst_ge ?_
      · refine ContinuousOn.intervalIntegrable (ContinuousOn.mul continuousOn_const (ContinuousOn.div continuousOn_const continuousOn_id fun t ht => ?_))
        rw [uIcc_of_le (Real.exp_le_exp.mpr (by norm_num))] at ht
        exact (lt_of_lt_of_le (Real.exp_pos _) ht.1).ne'
      · exact le_trans (Real.one_le_exp (by norm_num)) ht.1
    rw [intervalIntegral.integral_const_mul, integral_one_div_of_pos (Real.exp_pos _) (Real.exp_pos _), ← Real.exp_sub, Real.log_exp] at h1
    nlinarith

/-- With a nucleon width of 1/2 fm and the default cross section of 6.4 fm² (64 mb) the fit works and the value is reproduced. -/
example : ∃ σ, @analyticCrossSection ℝ _ boostToms 6.4 (1/2) = .ok σ ∧ 0 < σ ∧
    6.4 * (1 - 1 / 2^33) ≤ inelasticCrossSection (1/2) σ ∧ inelasticCrossSection (1/2) σ ≤ 6.4 * (1 + 1 / 2^33) :=
  C103_reproduces (1/2) (by norm_num) 6.4 default_in_range.1 default_in_range.2

/-- The root finder on a linear function returns its root. -/
example : boostToms.solve (fun (x : ℝ) (s : Unit) => (.ok (x - 5), s)) (-10) 20 39 1000 () = (.ok (5, 5), ()) := by
  have e : (lit 2 : ℝ) = 2 := by simp
  show boostSolve _ _ _ _ _ _ = _
  unfold boostSolve
  rw [if_neg (by norm_num)]
  dsimp only
  unfold tomsSolve
  have ht := not_tol_around (bits := 39) (by norm_num) (a := (-10:ℝ)) (b := 20) (by norm_num) (by norm_num)
  rw [if_neg (by rw [tle_iff]; norm_num), if_neg (by simp only [Bool.or_eq_true, ht, Bool.false_eq_true, false_or, tzero_iff]; norm_num), if_neg (by rw [sameSign_iff]; norm_num)]
  have hc : secantStep (-10) 20 (-10 - 5) (20 - 5 : ℝ) = 5 := by
    unfold secantStep
    dsimp only
    rw [if_neg]
    · norm_num
    · simp only [Bool.or_eq_true, tle_iff, machEps_real, fabs_real', lit_real]
      norm_num
  have ha : adjustPoint (-10) 20 (5:ℝ) = 5 := by
    unfold adjustPoint
    dsimp only
    simp only [machEps_real, fabs_real', lit_real, lt_real]
    rw [if_neg (by norm_num), if_neg (by rw [tle_iff]; norm_num), if_neg (by rw [tle_iff]; norm_num)]
  rw [show (1000 - 2 : ℕ) = 997 + 1 from rfl, tomsLoop, if_neg (by simp only [Bool.or_eq_true, ht, Bool.false_eq_true, or_false, tzero_iff]; norm_num)]
  simp only [tomsChoose, hc, bracketStep, ha, updateBracket]
  rw [if_pos (by rw [tzero_iff]; norm_num)]
  rw [show 997 = 996 + 1 from rfl, tomsLoop, if_pos (by simp only [Bool.or_eq_true, tzero_iff, lit_real]; norm_num)]
  simp only [tomsResult]
  rw [if_pos (by rw [tzero_iff]; simp)]

/-- `trento p p` with these values. -/
example : ∃ σ, ENNReal.ofReal (6.4 * (1 - 1 / 2^33)) ≤ ENNReal.ofReal (Real.pi * (6 * (1/2))^2) * collisionMean (freshTape ()) 0
    (Collider.make { exampleOptions with nucleonWidth := 1/2, constitWidth := 1/2, bMax := -1 } σ) mkProton mkProton 1 (fun _ => 1) := by
  have hp : NucleusHistory Tape Unit (mkProton : Nucleus ℝ) := .create false (fun _ => .missing) "p" 0 mkProton rfl
  obtain ⟨σ, -, h⟩ := C103_proton_proton freshTape_fresh { exampleOptions with nucleonWidth := 1/2, constitWidth := 1/2, bMax := -1 } hp hp rfl rfl (by norm_num) rfl rfl rfl (by norm_num)
    default_in_range.1 default_in_range.2
  exact ⟨σ, (h 0 ()).1⟩

end Trento
