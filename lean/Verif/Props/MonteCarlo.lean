import Verif.Props.CyclicNormal
import Mathlib.Analysis.Real.Pi.Bounds

/-! # C54: the Monte Carlo cross section -/

namespace Trento
open Spec
set_option linter.unusedSectionVars false

/-- The sum of the first `j` numbers. -/
def Spec.partialSum (ps : List ℝ) (j : ℕ) : ℝ := (ps.take j).sum

/-- What the sampling loop computes after sample number `n` (counted from 0): `π bmax² (1 - (p₀ + … + pₙ)/n)`. -/
noncomputable def Spec.estimateAfter (bmax : ℝ) (ps : List ℝ) (n : ℕ) : ℝ := Real.pi * bmax^2 * (1 - partialSum ps (n+1) / n)

/-- `π bmax² (1 - mean)`: the Monte Carlo estimate of a cross section from miss probabilities sampled uniformly in the disc. -/
noncomputable def Spec.monteCarloMean (bmax : ℝ) (ps : List ℝ) : ℝ := Real.pi * bmax^2 * (1 - ps.sum / ps.length)

theorem mcEstimate_real (mc : MonteCarlo ℝ) (S : ℝ) (n : ℕ) : mcEstimate mc S n = Real.pi * mc.maxImpact^2 * (1 - S / n) := by
  unfold mcEstimate
  simp

section
variable {E D : Type} [Rng ℝ E D]

theorem mcOverlap_nonneg (v b : ℝ) (as bs : List (ℝ × ℝ)) : 0 ≤ mcOverlap v b as bs := by
  unfold mcOverlap
  have inner : ∀ (bs : List (ℝ × ℝ)) (qA : ℝ × ℝ) (acc : ℝ), (lit 0 : ℝ) ≤ acc → (lit 0 : ℝ) ≤ bs.foldl (init := acc) fun acc qB =>
      acc + exp (-(lit 0.25) * (sqr (qA.1 - qB.1 + b) + sqr (qA.2 - qB.2)) / v) := by
    intro bs qA
    induction bs with
    | nil => intro acc h; exact h
    | cons q bs ih =>
      intro acc h
      rw [List.foldl_cons]
      exact ih _ (h.trans (le_add_of_nonneg_right (Real.exp_pos _).le))
  have outer : ∀ (as : List (ℝ × ℝ)) (acc : ℝ), (lit 0 : ℝ) ≤ acc → (lit 0 : ℝ) ≤ as.foldl (init := acc) fun acc qA =>
      bs.foldl (init := acc) fun acc qB => acc + exp (-(lit 0.25) * (sqr (qA.1 - qB.1 + b) + sqr (qA.2 - qB.2)) / v) := by
    intro as
    induction as with
    | nil => intro acc h; exact h
    | cons q as ih =>
      intro acc h
      rw [List.foldl_cons]
      exact ih _ (inner bs q acc h)
  have := outer as (lit 0) le_rfl
  simpa using this

/-- A sampled miss probability lies in (0, 1]; for `sigma = 0` it is 1. -/
theorem mcSample_range (w v : ℝ) (m : ℕ) (sigma : ℝ) (hs : 0 ≤ sigma) (c : CyclicNormal ℝ) (r : Rand E D) (p : ℝ) (c' : CyclicNormal ℝ)
    (r' : Rand E D) (h : mcSample (MonteCarlo.make w v m) sigma c r = .ok (p, c', r')) : (0 < p ∧ p ≤ 1) ∧ (sigma = 0 → p = 1) := by
  unfold mcSample at h
  cases h1 : drawCyclicPositions (MonteCarlo.make w v m).constituentNumber c (canonical (F := ℝ) r).2 with
  | error e => simp only [h1] at h; cases h
  | ok y =>
    obtain ⟨as, c1, r1⟩ := y
    simp only [h1] at h
    cases h2 : drawCyclicPositions (MonteCarlo.make w v m).constituentNumber c1 r1 with
    | error e => simp only [h2] at h; cases h
    | ok z =>
      obtain ⟨bs, c2, r2⟩ := z
      simp only [h2, Except.ok.injEq, Prod.mk.injEq] at h
      obtain ⟨rfl, -, -⟩ := h
      refine ⟨⟨Real.exp_pos _, ?_⟩, ?_⟩
      · rw [exp_real, Real.exp_le_one_iff]
        have hov := mcOverlap_nonneg (MonteCarlo.make w v m).constituentWidthSq
          ((MonteCarlo.make w v m).maxImpact * sqrt (canonical (F := ℝ) r).1) as bs
        have hpre : 0 ≤ (MonteCarlo.make w v m).prefactor := by
          show 0 ≤ (oneDivTwoPi : ℝ) / sqr v / ofInt (m : ℤ)
          simp only [oneDivTwoPi_real, sqr_real, ofInt_real]
          have := Real.pi_pos
          positivity
        have hm : (0:ℝ) ≤ lit 2 * ofInt ((MonteCarlo.make w v m).constituentNumber : ℤ) := by
          simp only [lit_real, ofInt_real]; positivity
        have : 0 ≤ sigma * (MonteCarlo.make w v m).prefactor / (lit 2 * ofInt ((MonteCarlo.make w v m).constituentNumber : ℤ)) :=
          div_nonneg (mul_nonneg hs hpre) hm
        rw [neg_mul, neg_div, neg_mul, neg_nonpos]
        exact mul_nonneg this hov
      · intro h0
        rw [exp_real, h0]
        simp

/-- A pass within the tolerance has a finite reference and is not the first one. -/
theorem mcWithin_true (tol : ℝ) (n : ℕ) (cs : ℝ) (ref : Option ℝ) (h : mcWithin tol n cs ref = true) : n ≠ 0 ∧ ∃ x, ref = some x ∧ |cs - x| < tol := by
  cases ref with
  | none => cases h
  | some x =>
    simp only [mcWithin, Bool.and_eq_true, decide_eq_true_eq, lt_real, fabs_real] at h
    exact ⟨h.1, x, rfl, h.2⟩

/-- What a loop that returns has computed.  `S` is the sum of the samples before, `n` their number. -/
theorem mcLoop_ok (mc : MonteCarlo ℝ) (sigma : ℝ) (nPass : ℕ) (tol : ℝ) (k : ℕ) :
    ∀ (n : ℕ) (ref : Option ℝ) (S : ℝ) (pass : ℕ) (c : CyclicNormal ℝ) (r : Rand E D) (v : ℝ) (ps : List ℝ) (r' : Rand E D), pass ≤ nPass →
      mcLoop mc sigma nPass tol k n ref S pass c r = .ok (v, ps, r') →
      ps ≠ [] ∧ ps.length ≤ k ∧ (nPass + 1 ≤ pass + ps.length ∧ (ref = none → nPass + 2 ≤ ps.length) ∧ (n = 0 → nPass + 3 ≤ ps.length)) ∧
      v = mcEstimate mc (S + ps.sum) (n + ps.length - 1) ∧
      (∃ ref', (ps.length < nPass + 1 → ref = some ref') ∧
        ∀ j < ps.length, ps.length ≤ j + (nPass + 1) → |mcEstimate mc (S + partialSum ps (j+1)) (n + j) - ref'| < tol) ∧
      ∀ p ∈ ps, ∃ (c1 : CyclicNormal ℝ) (r1 : Rand E D) (c2 : CyclicNormal ℝ) (r2 : Rand E D), mcSample mc sigma c1 r1 = .ok (p, c2, r2) := by
  induction k with
  | zero => intro n ref S pass c r v ps r' _ h; simp [mcLoop] at h
  | succ k ih =>
    intro n ref S pass c r v ps r' hpass h
    rw [mcLoop] at h
    cases hsam : mcSample mc sigma c r with
    | error e => simp only [hsam] at h; cases h
    | ok y =>
      obtain ⟨p, c1, r1⟩ := y
      simp only [hsam] at h
      set cs := mcEstimate mc (S + p) n with hcs
      cases hwb : mcWithin tol n cs ref with
      | true =>
        obtain ⟨hn0, x, rfl, hw⟩ := mcWithin_true _ _ _ _ hwb
        simp only [hwb, if_true] at h
        by_cases hret : nPass < pass + 1
        · simp only [if_pos hret, Except.ok.injEq, Prod.mk.injEq] at h
          obtain ⟨rfl, rfl, -⟩ := h
          refine ⟨by simp, by simp, ⟨by simp; omega, by simp, fun h => absurd h hn0⟩, by simp [hcs], ⟨x, fun _ => rfl, ?_⟩, ?_⟩
          · intro j hj _
            simp at hj
            subst hj
            simpa [partialSum] using hw
          · intro q hq
            simp at hq
            subst hq
            exact ⟨c, r, c1, r1, hsam⟩
        · simp only [if_neg hret] at h
          cases hl : mcLoop mc sigma nPass tol k (n+1) (some x) (S + p) (pass + 1) c1 r1 with
          | error e => simp only [hl] at h; cases h
          | ok z =>
            obtain ⟨v', ps', r2⟩ := z
            simp only [hl, Except.ok.injEq, Prod.mk.injEq] at h
            obtain ⟨rfl, rfl, -⟩ := h
            obtain ⟨h1, h2, ⟨h3, -, -⟩, h4, ⟨ref', h5, h6⟩, h7⟩ := ih _ _ _ _ _ _ _ _ _ (by omega) hl
            have hpos : 0 < ps'.length := List.length_pos_iff.mpr h1
            refine ⟨by simp, by simp; omega, ⟨by simp; omega, by simp, fun h => absurd h hn0⟩, ?_, ⟨ref', ?_, ?_⟩, ?_⟩
            · rw [h4, List.sum_cons, List.length_cons, add_assoc]
              congr 1
              omega
            · intro hlt
              rw [List.length_cons] at hlt
              exact h5 (by omega)
            · intro j hj hge
              rw [List.length_cons] at hj hge
              cases j with
              | zero =>
                have := h5 (by omega)
                simp only [Option.some.injEq] at this
                rw [← this]
                simpa [partialSum] using hw
              | succ j =>
                have := h6 j (by omega) (by omega)
                rw [show n + (j + 1) = n + 1 + j by omega]
                simpa [partialSum, add_assoc] using this
            · intro q hq
              rcases List.mem_cons.mp hq with rfl | hq
              · exact ⟨c, r, c1, r1, hsam⟩
              · exact h7 q hq
      | false =>
        simp only [hwb, Bool.false_eq_true, if_false, Nat.not_lt_zero] at h
        cases hl : mcLoop mc sigma nPass tol k (n+1) (mcReference n cs) (S + p) 0 c1 r1 with
        | error e => simp only [hl] at h; cases h
        | ok z =>
          obtain ⟨v', ps', r2⟩ := z
          simp only [hl, Except.ok.injEq, Prod.mk.injEq] at h
          obtain ⟨rfl, rfl, -⟩ := h
          obtain ⟨h1, h2, ⟨h3, h3', -⟩, h4, ⟨ref', h5, h6⟩, h7⟩ := ih _ _ _ _ _ _ _ _ _ (by omega) hl
          have hpos : 0 < ps'.length := List.length_pos_iff.mpr h1
          refine ⟨by simp, by simp; omega, ⟨by simp; omega, fun _ => by simp; omega, fun h0 => ?_⟩, ?_, ⟨ref', ?_, ?_⟩, ?_⟩
          · have := h3' (by simp [mcReference, h0])
            simp; omega
          · rw [h4, List.sum_cons, List.length_cons, add_assoc]
            congr 1
            omega
          · intro hlt
            rw [List.length_cons] at hlt
            omega
          · intro j hj hge
            rw [List.length_cons] at hj hge
            cases j with
            | zero => omega
            | succ j =>
              have := h6 j (by omega) (by omega)
              rw [show n + (j + 1) = n + 1 + j by omega]
              simpa [partialSum, add_assoc] using this
          · intro q hq
            rcases List.mem_cons.mp hq with rfl | hq
            · exact ⟨c, r, c1, r1, hsam⟩
            · exact h7 q hq

/-- **C54.** If the Monte Carlo cross section returns `v`, then for the list `ps` of all sampled miss probabilities: each is in
(0, 1], there are more than 10002 and at most 10000000 of them, the value is the estimate after the last sample, and the
last 10001 estimates were all within 0.001 of one reference value.  The estimate after sample
number `n` (from 0) divides the sum of `n + 1` probabilities by `n` (`estimateAfter`), so it is not exactly `π bmax² (1 - mean)`
(`C54_biased`) and may be negative (`C54_negative`); but it is at most `π bmax²`, differs from `π bmax² (1 - mean)` by at most
`π bmax² / 10000`, and is not below `-π bmax² / 10000`. -/
theorem C54_estimate (w v : ℝ) (m : ℕ) (sigma : ℝ) (hs : 0 ≤ sigma) (r r' : Rand E D) (x : ℝ) (ps : List ℝ)
    (h : (MonteCarlo.make w v m).run mcConst sigma r = .ok (x, ps, r')) :
    10002 < ps.length ∧ ps.length ≤ 10000000 ∧ (∀ p ∈ ps, 0 < p ∧ p ≤ 1) ∧
    x = estimateAfter (6 * w) ps (ps.length - 1) ∧
    (∃ ref, ∀ j < ps.length, ps.length ≤ j + 10001 → |estimateAfter (6 * w) ps j - ref| < 0.001) ∧
    x ≤ Real.pi * (6 * w)^2 ∧ |x - monteCarloMean (6 * w) ps| ≤ Real.pi * (6 * w)^2 / 10000 ∧ -(Real.pi * (6 * w)^2 / 10000) ≤ x := by
  unfold MonteCarlo.run at h
  obtain ⟨h1, h2, ⟨-, -, h3⟩, h4, ⟨ref, -, h6⟩, h7⟩ := mcLoop_ok _ _ _ _ _ _ _ _ _ _ _ _ _ _ (Nat.zero_le _) h
  have hb : (MonteCarlo.make w v m).maxImpact = 6 * w := by
    show (maxImpactWidths : ℝ) * w = 6 * w
    simp [maxImpactWidths]
  have hl : 10002 < ps.length := by have := h3 rfl; simp only [mcConst] at this; omega
  have hp : ∀ p ∈ ps, 0 < p ∧ p ≤ 1 := by
    intro p hp
    obtain ⟨c1, r1, c2, r2, hsam⟩ := h7 p hp
    exact (mcSample_range w v m sigma hs c1 r1 p c2 r2 hsam).1
  have hx : x = estimateAfter (6 * w) ps (ps.length - 1) := by
    rw [h4, mcEstimate_real, hb]
    unfold estimateAfter partialSum
    rw [List.take_of_length_le (by omega)]
    simp
  have hsum0 : 0 ≤ ps.sum := List.sum_nonneg fun p hpm => (hp p hpm).1.le
  have hsum1 : ps.sum ≤ ps.length := by
    have := List.sum_le_card_nsmul ps 1 (fun p hpm => (hp p hpm).2)
    simpa using this
  have hK : 0 ≤ Real.pi * (6 * w)^2 := by have := Real.pi_pos; positivity
  have hn : (10000:ℝ) ≤ ((ps.length - 1 : ℕ) : ℝ) := by exact_mod_cast (show 10000 ≤ ps.length - 1 by omega)
  have hlen : (ps.length : ℝ) = ((ps.length - 1 : ℕ) : ℝ) + 1 := by
    rw [← Nat.cast_succ]; congr 1; omega
  have hx' : x = Real.pi * (6 * w)^2 * (1 - ps.sum / ((ps.length - 1 : ℕ) : ℝ)) := by
    rw [hx]; unfold estimateAfter partialSum
    rw [List.take_of_length_le (by omega)]
  set N : ℝ := ((ps.length - 1 : ℕ) : ℝ) with hN
  have hNpos : 0 < N := by linarith
  have hq0 : 0 ≤ ps.sum / N := by positivity
  -- the difference of the two means
  have hdiff : ps.sum / N - ps.sum / (N + 1) ≤ 1 / 10000 := by
    have e : ps.sum / N - ps.sum / (N + 1) = ps.sum / (N + 1) / N := by field_simp; ring
    have h1 : ps.sum / (N + 1) ≤ 1 := by rw [div_le_one (by linarith)]; linarith
    rw [e, div_le_div_iff₀ hNpos (by norm_num)]
    nlinarith
  have hdiff0 : 0 ≤ ps.sum / N - ps.sum / (N + 1) := by
    have e : ps.sum / N - ps.sum / (N + 1) = ps.sum / (N + 1) / N := by field_simp; ring
    rw [e]; positivity
  refine ⟨hl, h2, hp, hx, ⟨ref, ?_⟩, ?_, ?_, ?_⟩
  · intro j hj hge
    have := h6 j hj (by simpa [mcConst] using hge)
    rw [mcEstimate_real, hb] at this
    unfold estimateAfter
    have e : (lit 0.001 : ℝ) = 0.001 := by simp only [lit_real]; norm_num
    rw [e] at this
    simpa using this
  · rw [hx']; nlinarith
  · rw [hx']; unfold monteCarloMean
    rw [hlen, ← mul_sub, abs_mul, abs_of_nonneg hK, abs_sub_comm]
    have e : 1 - ps.sum / (N + 1) - (1 - ps.sum / N) = ps.sum / N - ps.sum / (N + 1) := by ring
    rw [e, abs_of_nonneg hdiff0]
    have := mul_le_mul_of_nonneg_left hdiff hK
    linarith
  · rw [hx']
    have h1 : ps.sum / N ≤ 1 + 1/10000 := by
      rw [div_le_iff₀ hNpos]; nlinarith
    have := mul_le_mul_of_nonneg_left h1 hK
    nlinarith

/-- The estimate is below `π bmax² (1 - mean)`, by the factor `n/(n-1)` on the mean miss probability. -/
theorem C54_biased (w v : ℝ) (hw : w ≠ 0) (m : ℕ) (sigma : ℝ) (hs : 0 ≤ sigma) (r r' : Rand E D) (x : ℝ) (ps : List ℝ)
    (h : (MonteCarlo.make w v m).run mcConst sigma r = .ok (x, ps, r')) : x < monteCarloMean (6 * w) ps := by
  obtain ⟨hl, -, hp, hx, -⟩ := C54_estimate w v m sigma hs r r' x ps h
  have hx' : x = Real.pi * (6 * w)^2 * (1 - ps.sum / ((ps.length - 1 : ℕ) : ℝ)) := by
    rw [hx]; unfold estimateAfter partialSum
    rw [List.take_of_length_le (by omega)]
  have hlen : (ps.length : ℝ) = ((ps.length - 1 : ℕ) : ℝ) + 1 := by
    rw [← Nat.cast_succ]; congr 1; omega
  have hn : (10000:ℝ) ≤ ((ps.length - 1 : ℕ) : ℝ) := by exact_mod_cast (show 10000 ≤ ps.length - 1 by omega)
  have hne : ps ≠ [] := by intro h0; rw [h0] at hl; simp at hl
  have hsum : 0 < ps.sum := List.sum_pos ps (fun p hpm => (hp p hpm).1) hne
  have hK : 0 < Real.pi * (6 * w)^2 := by have := Real.pi_pos; positivity
  rw [hx']
  unfold monteCarloMean
  rw [hlen]
  apply mul_lt_mul_of_pos_left _ hK
  have : ps.sum / (((ps.length - 1 : ℕ) : ℝ) + 1) < ps.sum / ((ps.length - 1 : ℕ) : ℝ) :=
    div_lt_div_of_pos_left hsum (by linarith) (by linarith)
  linarith

/-! ## Outcomes -/

/-- The sampler is usable: it has values and its position is inside. -/
def CyclicNormal.Usable (c : CyclicNormal ℝ) : Prop := c.cache ≠ [] ∧ c.pos ≤ c.cache.length

variable [LawfulRng E D]

theorem draw_usable (c : CyclicNormal ℝ) (h : c.Usable) (r : Rand E D) : ∃ x c' r', c.draw r = .ok (x, c', r') ∧ c'.Usable := by
  obtain ⟨h1, h2⟩ := h
  obtain ⟨c1, w1, e1, h1, h2⟩ : ∃ (c1 : CyclicNormal ℝ) (w1 : Rand E D),
      (if c.nLoops < c.loopCount then
        let (cache, e) := Rng.shuffle D c.cache r.eng
        (({ c with cache := cache, loopCount := 0 } : CyclicNormal ℝ), ({ r with eng := e } : Rand E D))
      else (c, r)) = (c1, w1) ∧ c1.cache ≠ [] ∧ c1.pos ≤ c1.cache.length := by
    by_cases h : c.nLoops < c.loopCount
    · rw [if_pos h]
      have hp1 := LawfulRng.shuffle_perm (D := D) c.cache r.eng
      exact ⟨_, _, rfl, fun h0 => h1 (List.length_eq_zero_iff.mp (hp1.length_eq.symm.trans (List.length_eq_zero_iff.mpr h0))),
        h2.trans hp1.length_eq.ge⟩
    · rw [if_neg h]; exact ⟨c, r, rfl, h1, h2⟩
  unfold CyclicNormal.draw
  rw [e1]
  have hpos := List.length_pos_iff.mpr h1
  dsimp only
  by_cases hpe : c1.pos = c1.cache.length
  · rw [if_pos hpe]
    dsimp only
    rw [List.getElem?_eq_getElem hpos]
    exact ⟨_, _, _, rfl, h1, by dsimp only; omega⟩
  · rw [if_neg hpe]
    have h0 : c1.pos < c1.cache.length := by omega
    rw [List.getElem?_eq_getElem h0]
    exact ⟨_, _, _, rfl, h1, by dsimp only; omega⟩

theorem drawCyclicPositions_usable (k : ℕ) (c : CyclicNormal ℝ) (h : c.Usable) (r : Rand E D) :
    ∃ xs c' r', drawCyclicPositions k c r = .ok (xs, c', r') ∧ c'.Usable := by
  induction k generalizing c r with
  | zero => exact ⟨[], c, r, rfl, h⟩
  | succ k ih =>
    obtain ⟨x, c1, r1, e1, h1⟩ := draw_usable c h r
    obtain ⟨y, c2, r2, e2, h2⟩ := draw_usable c1 h1 r1
    obtain ⟨xs, c3, r3, e3, h3⟩ := ih c2 h2 r2
    exact ⟨(x, y) :: xs, c3, r3, by rw [drawCyclicPositions, e1]; dsimp only; rw [e2]; dsimp only; rw [e3], h3⟩

theorem mcSample_usable (mc : MonteCarlo ℝ) (sigma : ℝ) (c : CyclicNormal ℝ) (h : c.Usable) (r : Rand E D) :
    ∃ p c' r', mcSample mc sigma c r = .ok (p, c', r') ∧ c'.Usable := by
  obtain ⟨as, c1, r1, e1, h1⟩ := drawCyclicPositions_usable mc.constituentNumber c h (canonical (F := ℝ) r).2
  obtain ⟨bs, c2, r2, e2, h2⟩ := drawCyclicPositions_usable mc.constituentNumber c1 h1 r1
  unfold mcSample
  dsimp only
  rw [e1]; dsimp only; rw [e2]
  exact ⟨_, _, _, rfl, h2⟩

theorem make_usable (m s : ℝ) (size n : ℕ) (hs : 1 ≤ size) (r : Rand E D) : (CyclicNormal.make m s size n r).1.Usable := by
  refine ⟨?_, Nat.zero_le _⟩
  have hp := LawfulRng.shuffle_perm (D := D) (CyclicNormal.quantiles m s size) r.eng
  intro h0
  have h1 := hp.length_eq
  rw [quantiles_length] at h1
  have : (Rng.shuffle D (CyclicNormal.quantiles m s size) r.eng).1 = [] := h0
  rw [this] at h1
  simp at h1
  omega

/-- The Monte Carlo cross section either returns or throws `std::out_of_range` after 10000000 samples; no undefined behaviour. -/
theorem C54_outcome (w v : ℝ) (m : ℕ) (sigma : ℝ) (r : Rand E D) :
    (∃ x ps r', (MonteCarlo.make w v m).run mcConst sigma r = .ok (x, ps, r')) ∨
    ∃ msg, (MonteCarlo.make w v m).run mcConst sigma r = .error (.throw .outOfRange msg) := by
  have key : ∀ (k : ℕ) (n : ℕ) (ref : Option ℝ) (S : ℝ) (pass : ℕ) (c : CyclicNormal ℝ) (r : Rand E D), c.Usable →
      (∃ x ps r', mcLoop (MonteCarlo.make w v m) sigma mcConst.nPass (lit 0.001) k n ref S pass c r = .ok (x, ps, r')) ∨
      ∃ msg, mcLoop (MonteCarlo.make w v m) sigma mcConst.nPass (lit 0.001) k n ref S pass c r = .error (.throw .outOfRange msg) := by
    intro k
    induction k with
    | zero => intro n ref S pass c r _; exact .inr ⟨_, rfl⟩
    | succ k ih =>
      intro n ref S pass c r hc
      obtain ⟨p, c1, r1, e1, h1⟩ := mcSample_usable (MonteCarlo.make w v m) sigma c hc r
      rw [mcLoop, e1]
      dsimp only
      by_cases hret : mcConst.nPass < (if mcWithin (lit 0.001) n (mcEstimate (MonteCarlo.make w v m) (S + p) n) ref then pass + 1 else 0)
      · rw [if_pos hret]; exact .inl ⟨_, _, _, rfl⟩
      · rw [if_neg hret]
        rcases ih (n+1) (if mcWithin (lit 0.001) n (mcEstimate (MonteCarlo.make w v m) (S + p) n) ref then ref
          else mcReference n (mcEstimate (MonteCarlo.make w v m) (S + p) n)) (S + p) _ c1 r1 h1 with ⟨x, ps, r', e⟩ | ⟨msg, e⟩
        · rw [e]; exact .inl ⟨_, _, _, rfl⟩
        · rw [e]; exact .inr ⟨_, rfl⟩
  exact key _ _ _ _ _ _ _ (make_usable _ _ _ _ (by simp [mcConst]) r)

/-- With `sigma = 0` all miss probabilities are 1.  Once the reference is the estimate after sample `q`, with `K/q ≤ tol`,
all later estimates are within the tolerance, so the loop ends. -/
theorem mcLoop_zero_settled (w v : ℝ) (hw : w ≠ 0) (m : ℕ) (nPass : ℕ) (tol : ℝ) (q : ℕ) (hq : 0 < q)
    (htol : Real.pi * (6 * w)^2 / q ≤ tol) (k : ℕ) :
    ∀ (n : ℕ) (pass : ℕ) (c : CyclicNormal ℝ) (r : Rand E D), c.Usable → q < n → pass ≤ nPass → nPass + 1 ≤ pass + k →
      ∃ x ps r', mcLoop (MonteCarlo.make w v m) 0 nPass tol k n (some (Real.pi * (6 * w)^2 * (-1 / q))) n pass c r = .ok (x, ps, r') := by
  have hb : (MonteCarlo.make w v m).maxImpact = 6 * w := by
    show (maxImpactWidths : ℝ) * w = 6 * w
    simp [maxImpactWidths]
  have hK : 0 < Real.pi * (6 * w)^2 := by have := Real.pi_pos; positivity
  induction k with
  | zero => intro n pass c r _ _ h1 h2; omega
  | succ k ih =>
    intro n pass c r hc hn h1 h2
    obtain ⟨p, c1, r1, e1, hc1⟩ := mcSample_usable (MonteCarlo.make w v m) 0 c hc r
    have hp := (mcSample_range w v m 0 le_rfl c r p c1 r1 e1).2 rfl
    subst hp
    have hqr : (0:ℝ) < q := by exact_mod_cast hq
    have hnr : (q:ℝ) < n := by exact_mod_cast hn
    have hest : mcEstimate (MonteCarlo.make w v m) ((n:ℝ) + 1) n = Real.pi * (6 * w)^2 * (-1 / n) := by
      rw [mcEstimate_real, hb]
      congr 1
      have : (n:ℝ) ≠ 0 := by linarith
      field_simp
      ring
    have hwithin : mcWithin tol n (Real.pi * (6 * w)^2 * (-1 / (n:ℝ))) (some (Real.pi * (6 * w)^2 * (-1 / q))) = true := by
      simp only [mcWithin, fabs_real, lt_real, decide_eq_true_eq, Bool.and_eq_true]
      refine ⟨by omega, ?_⟩
      have e : Real.pi * (6 * w)^2 * (-1 / (n:ℝ)) - Real.pi * (6 * w)^2 * (-1 / q) = Real.pi * (6 * w)^2 / q - Real.pi * (6 * w)^2 / n := by
        ring
      have h3 : Real.pi * (6 * w)^2 / n < Real.pi * (6 * w)^2 / q := div_lt_div_of_pos_left hK hqr hnr
      have h4 : 0 < Real.pi * (6 * w)^2 / n := div_pos hK (by linarith)
      rw [e, abs_of_pos (by linarith)]
      linarith
    rw [mcLoop, e1]
    dsimp only
    rw [hest, hwithin]
    simp only [if_true]
    by_cases hret : nPass < pass + 1
    · rw [if_pos hret]; exact ⟨_, _, _, rfl⟩
    · rw [if_neg hret]
      obtain ⟨x, ps, r', e⟩ := ih (n+1) (pass+1) c1 r1 hc1 (by omega) (by omega) (by omega)
      rw [show ((n:ℝ) + 1) = ((n+1 : ℕ) : ℝ) by push_cast; ring, e]
      exact ⟨_, _, _, rfl⟩

/-- With `sigma = 0` the loop ends if enough passes are left. -/
theorem mcLoop_zero (w v : ℝ) (hw : w ≠ 0) (m : ℕ) (nPass : ℕ) (tol : ℝ) (q : ℕ) (hq : 0 < q)
    (htol : Real.pi * (6 * w)^2 / q ≤ tol) (k : ℕ) :
    ∀ (n : ℕ) (ref : Option ℝ) (pass : ℕ) (c : CyclicNormal ℝ) (r : Rand E D), c.Usable → pass ≤ nPass →
      (n ≤ q → q + 2 * (nPass + 2) ≤ n + k) → (q < n → (2 * nPass + 3 ≤ pass + k)) →
      ∃ x ps r', mcLoop (MonteCarlo.make w v m) 0 nPass tol k n ref n pass c r = .ok (x, ps, r') := by
  have hb : (MonteCarlo.make w v m).maxImpact = 6 * w := by
    show (maxImpactWidths : ℝ) * w = 6 * w
    simp [maxImpactWidths]
  have hK : 0 < Real.pi * (6 * w)^2 := by have := Real.pi_pos; positivity
  induction k with
  | zero =>
    intro n ref pass c r _ h1 h2 h3
    rcases Nat.lt_or_ge q n with h | h
    · have := h3 h; omega
    · have := h2 h; omega
  | succ k ih =>
    intro n ref pass c r hc h1 h2 h3
    obtain ⟨p, c1, r1, e1, hc1⟩ := mcSample_usable (MonteCarlo.make w v m) 0 c hc r
    have hp := (mcSample_range w v m 0 le_rfl c r p c1 r1 e1).2 rfl
    subst hp
    rw [mcLoop, e1]
    dsimp only
    cases hwi : mcWithin tol n (mcEstimate (MonteCarlo.make w v m) ((n:ℝ) + 1) n) ref with
    | true =>
      simp only [if_true]
      by_cases hret : nPass < pass + 1
      · rw [if_pos hret]; exact ⟨_, _, _, rfl⟩
      · rw [if_neg hret]
        obtain ⟨x, ps, r', e⟩ := ih (n+1) ref (pass+1) c1 r1 hc1 (by omega) (by omega) (by
          intro h
          rcases Nat.lt_or_ge q n with h' | h'
          · have := h3 h'; omega
          · have := h2 h'; omega)
        rw [show ((n:ℝ) + 1) = ((n+1 : ℕ) : ℝ) by push_cast; ring, e]
        exact ⟨_, _, _, rfl⟩
    | false =>
      simp only [Bool.false_eq_true, if_false, Nat.not_lt_zero]
      rcases Nat.lt_or_ge q n with h | h
      · -- the reference is set for good
        have hqr : (0:ℝ) < q := by exact_mod_cast hq
        have hnr : (q:ℝ) < n := by exact_mod_cast h
        have hest : mcEstimate (MonteCarlo.make w v m) ((n:ℝ) + 1) n = Real.pi * (6 * w)^2 * (-1 / n) := by
          rw [mcEstimate_real, hb]
          congr 1
          have : (n:ℝ) ≠ 0 := by linarith
          field_simp
          ring
        have htol' : Real.pi * (6 * w)^2 / (n:ℝ) ≤ tol :=
          (div_le_div_of_nonneg_left hK.le hqr hnr.le).trans htol
        obtain ⟨x, ps, r', e⟩ := mcLoop_zero_settled w v hw m nPass tol n (by omega) htol' k (n+1) 0 c1 r1 hc1 (by omega) (by omega)
          (by have := h3 h; omega)
        rw [hest, show mcReference n (Real.pi * (6 * w)^2 * (-1 / (n:ℝ))) = some (Real.pi * (6 * w)^2 * (-1 / (n:ℝ))) from if_neg (by omega),
          show ((n:ℝ) + 1) = ((n+1 : ℕ) : ℝ) by push_cast; ring, e]
        exact ⟨_, _, _, rfl⟩
      · obtain ⟨x, ps, r', e⟩ := ih (n+1) (mcReference n (mcEstimate (MonteCarlo.make w v m) ((n:ℝ) + 1) n)) 0 c1 r1 hc1 (by omega)
          (by have := h2 h; omega) (by have := h2 h; omega)
        rw [show ((n:ℝ) + 1) = ((n+1 : ℕ) : ℝ) by push_cast; ring] at e ⊢
        rw [e]
        exact ⟨_, _, _, rfl⟩

/-- Negative values: for vanishing partonic cross section, widths up to 8 fm and every random source the
Monte Carlo cross section returns, and the value is negative (`-π bmax² / (n - 1)` after `n` samples). -/
theorem C54_negative (w v : ℝ) (hw : 0 < w) (hw8 : w ≤ 8) (m : ℕ) (r : Rand E D) :
    ∃ x ps r', (MonteCarlo.make w v m).run mcConst 0 r = .ok (x, ps, r') ∧ x < 0 := by
  have htol : Real.pi * (6 * w)^2 / ((9900000 : ℕ) : ℝ) ≤ lit 0.001 := by
    have e : (lit 0.001 : ℝ) = 0.001 := by simp only [lit_real]; norm_num
    rw [e]
    have h0 := Real.pi_pos
    rw [div_le_iff₀ (by norm_num)]
    have : (6 * w)^2 ≤ 48^2 := by nlinarith
    push_cast
    nlinarith [mul_le_mul Real.pi_lt_d2.le this (by positivity) (by norm_num)]
  obtain ⟨x, ps, r', h⟩ := mcLoop_zero (E := E) (D := D) w v hw.ne' m mcConst.nPass (lit 0.001) 9900000 (by norm_num) htol mcConst.nMax 0 (some (lit 0)) 0
    (CyclicNormal.make (lit 0) (MonteCarlo.make w v m).samplingWidth mcConst.cacheSize mcConst.nLoops r).1
    (CyclicNormal.make (lit 0) (MonteCarlo.make w v m).samplingWidth mcConst.cacheSize mcConst.nLoops r).2
    (make_usable _ _ _ _ (by simp [mcConst]) r) (Nat.zero_le _) (by simp [mcConst]) (by simp)
  have hrun : (MonteCarlo.make w v m).run mcConst 0 r = .ok (x, ps, r') := by
    unfold MonteCarlo.run
    dsimp only
    rw [← h]
    simp
  refine ⟨x, ps, r', hrun, ?_⟩
  have hbias := C54_biased w v hw.ne' m 0 le_rfl r r' x ps hrun
  refine lt_of_lt_of_le hbias ?_
  -- all samples are 1
  unfold MonteCarlo.run at hrun
  obtain ⟨h1, -, -, -, -, h7⟩ := mcLoop_ok _ _ _ _ _ _ _ _ _ _ _ _ _ _ (Nat.zero_le _) hrun
  have hall : ∀ p ∈ ps, p = 1 := by
    intro p hp
    obtain ⟨c1, r1, c2, r2, hsam⟩ := h7 p hp
    exact (mcSample_range w v m 0 le_rfl c1 r1 p c2 r2 hsam).2 rfl
  have hsum : ps.sum = ps.length := by
    rw [List.eq_replicate_of_mem hall]; simp
  unfold monteCarloMean
  rw [hsum, div_self (by exact_mod_cast (List.length_pos_iff.mpr h1).ne')]
  simp

end

end Trento
