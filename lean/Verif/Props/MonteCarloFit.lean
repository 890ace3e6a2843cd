import Verif.Props.MonteCarlo
import Verif.Props.CrossSectionFit
import Verif.Spec.Nucleon

/-! # C75: the Monte Carlo fit uses the collision probability of the simulation

For several constituents per nucleon the cross section parameter is fitted with a Monte Carlo estimate.  The miss probability sampled
there is that of C07 for two nucleons of `m` constituents, one of them shifted by an impact parameter `b = 6 w √u`, and the value
returned is the geometric middle of two parameter values whose Monte Carlo cross sections lie on different sides of the requested one. -/

namespace Trento
open Spec
set_option linter.unusedSectionVars false

/-- Constituents at the given points, shifted by `b` in x. -/
def Spec.atPoints (b : ℝ) (qs : List (ℝ × ℝ)) : List (Constituent ℝ) := qs.map fun q => ⟨q.1 + b, q.2, 1⟩

theorem foldl_add_map {α : Type} (f : α → ℝ) (l : List α) (acc : ℝ) :
    l.foldl (init := acc) (fun acc a => acc + f a) = acc + (l.map f).sum := by
  induction l generalizing acc with
  | nil => simp
  | cons a l ih => rw [List.foldl_cons, ih, List.map_cons, List.sum_cons, add_assoc]

theorem mcOverlap_eq (v b : ℝ) (m : ℕ) (as bs : List (ℝ × ℝ)) (σ : ℝ) :
    -σ * (1 / (2 * Real.pi) / v^2 / m) / (2 * m) * mcOverlap (v^2) b as bs = -σ * overlapTAB v m (atPoints b as) (atPoints 0 bs) := by
  have e : mcOverlap (v^2) b as bs = (as.map fun qA => (bs.map fun qB =>
      Real.exp (-((qA.1 + b - (qB.1 + 0))^2 + (qA.2 - qB.2)^2) / (4 * v^2))).sum).sum := by
    have h : mcOverlap (v^2) b as bs = as.foldl (init := (0:ℝ)) (fun acc qA => bs.foldl (init := acc) fun acc qB => acc +
        Real.exp (-((qA.1 + b - (qB.1 + 0))^2 + (qA.2 - qB.2)^2) / (4 * v^2))) := by
      unfold mcOverlap
      simp only [exp_real, sqr_real, lit_real, Rat.cast_zero]
      congr 1
      funext acc qA
      congr 1
      funext acc qB
      congr 2
      by_cases hv : v = 0
      · simp [hv]
      · push_cast
        field_simp
        ring
    rw [h]
    simp only [foldl_add_map]
    rw [zero_add]
  have hs : overlapTAB v m (atPoints b as) (atPoints 0 bs) = 1 / (m:ℝ)^2 * (1 / (4 * Real.pi * v^2) * mcOverlap (v^2) b as bs) := by
    rw [e]
    unfold overlapTAB atPoints
    simp only [List.map_map, Function.comp_def]
    congr 1
    rw [← List.sum_map_mul_left]
    congr 1
    apply List.map_congr_left
    intro qA _
    rw [← List.sum_map_mul_left]
    congr 1
    apply List.map_congr_left
    intro qB _
    ring
  rw [hs]
  by_cases hv : v = 0
  · simp [hv]
  by_cases hm : (m:ℝ) = 0
  · simp [hm]
  have := Real.pi_ne_zero
  field_simp
  ring

section
variable {E D : Type} [Rng ℝ E D]

theorem drawCyclicPositions_length (k : ℕ) : ∀ (c : CyclicNormal ℝ) (w : Rand E D) (qs : List (ℝ × ℝ)) (c' : CyclicNormal ℝ) (w' : Rand E D),
    drawCyclicPositions k c w = .ok (qs, c', w') → qs.length = k := by
  induction k with
  | zero => intro c w qs c' w' h; simp only [drawCyclicPositions, Except.ok.injEq, Prod.mk.injEq] at h; rw [← h.1]; rfl
  | succ k ih =>
    intro c w qs c' w' h
    rw [drawCyclicPositions] at h
    split at h
    · cases h
    · split at h
      · cases h
      · split at h
        · cases h
        · rename_i h3
          simp only [Except.ok.injEq, Prod.mk.injEq] at h
          rw [← h.1, List.length_cons, ih _ _ _ _ _ h3]

/-- **C75, samples.** Every miss probability sampled in a Monte Carlo run with parameter `σ` is `exp(-σ T_AB)` (the probability of
C07) for some `m` constituents in each of two nucleons whose centres are `b = 6 w √u` apart, with `u` in [0, 1). -/
theorem C75_samples [LawfulRng E D] (w v : ℝ) (m : ℕ) (σ : ℝ) (r r' : Rand E D) (x : ℝ) (ps : List ℝ)
    (h : (MonteCarlo.make w v m).run mcConst σ r = .ok (x, ps, r')) :
    ∀ p ∈ ps, ∃ (u : ℝ) (as bs : List (ℝ × ℝ)), 0 ≤ u ∧ u < 1 ∧ as.length = m ∧ bs.length = m ∧
      p = Real.exp (-σ * overlapTAB v m (atPoints (6 * w * Real.sqrt u) as) (atPoints 0 bs)) := by
  intro p hp
  unfold MonteCarlo.run at h
  obtain ⟨c1, r1, c2, r2, hs⟩ := (mcLoop_ok _ _ _ _ _ _ _ _ _ _ _ _ _ _ (Nat.zero_le _) h).2.2.2.2.2 p hp
  unfold mcSample at hs
  have hu := LawfulRng.canonical_mem (D := D) r1.eng
  cases h1 : drawCyclicPositions (MonteCarlo.make w v m).constituentNumber c1 (canonical (F := ℝ) r1).2 with
  | error e => simp only [h1] at hs; cases hs
  | ok y =>
    obtain ⟨as, c3, r3⟩ := y
    simp only [h1] at hs
    cases h2 : drawCyclicPositions (MonteCarlo.make w v m).constituentNumber c3 r3 with
    | error e => simp only [h2] at hs; cases hs
    | ok z =>
      obtain ⟨bs, c4, r4⟩ := z
      simp only [h2, Except.ok.injEq, Prod.mk.injEq] at hs
      refine ⟨(Rng.canonical (F := ℝ) (D := D) r1.eng).1, as, bs, hu.1, hu.2, drawCyclicPositions_length _ _ _ _ _ _ h1,
        drawCyclicPositions_length _ _ _ _ _ _ h2, ?_⟩
      rw [← hs.1, ← mcOverlap_eq]
      simp only [MonteCarlo.make, maxImpactWidths, canonical, exp_real, sqr_real, lit_real, ofInt_real, oneDivTwoPi_real, sqrt_real]
      push_cast
      ring_nf

end

/-- The contract of `toms748_solve` for a function that may change a state and throw, a search range around 0, a tolerance of at least one bit and at least
three evaluations: the bracket returned lies in the given one, and the function was evaluated at both its ends, with values of different sign (or zero).
The algorithm of Boost meets it (`boostToms_bracketing`). -/
class Spec.BracketingToms [Toms748 ℝ] : Prop where
  bracket : ∀ {S : Type} (f : ℝ → S → Res ℝ × S) (a b : ℝ) (bits n : ℕ) (s s' : S) (l r : ℝ), a < 0 → 0 < b → 1 ≤ bits → 3 ≤ n →
    Toms748.solve f a b bits n s = (.ok (l, r), s') → a ≤ l ∧ l ≤ r ∧ r ≤ b ∧
      ∃ s1 s2 y1 y2, (f l s1).1 = .ok y1 ∧ (f r s2).1 = .ok y2 ∧ y1 * y2 ≤ 0

theorem trivialToms_bracketing : @BracketingToms trivialToms := by
  refine @BracketingToms.mk trivialToms ?_
  intro S f a b bits n s s' l r ha0 hb0 _ _ h
  have hab : a < b := ha0.trans hb0
  change (match f a s with
    | (.error e, s) => ((.error e, s) : Res (ℝ × ℝ) × S)
    | (.ok fa, s) =>
      match f b s with
      | (.error e, s) => (.error e, s)
      | (.ok fb, s) => if lt (lit 0) (fa * fb) then (.error (.throw .domainError "no bracket"), s) else (.ok (a, b), s)) = _ at h
  cases h1 : f a s with
  | mk res s1 =>
  rw [h1] at h
  cases res with
  | error e' => cases h
  | ok fa =>
    dsimp only at h
    cases h2 : f b s1 with
    | mk res s2 =>
    rw [h2] at h
    cases res with
    | error e' => cases h
    | ok fb =>
      dsimp only at h
      split at h
      · cases h
      · rename_i hn
        simp only [Prod.mk.injEq, Except.ok.injEq] at h
        obtain ⟨⟨rfl, rfl⟩, -⟩ := h
        refine ⟨le_rfl, hab.le, le_rfl, s, s1, fa, fb, by rw [h1], by rw [h2], ?_⟩
        simpa using hn

/-- A Monte Carlo run with parameter `σ` can give the cross section `x`. -/
def Spec.MonteCarloGives (E D : Type) [Rng ℝ E D] (w v : ℝ) (m : ℕ) (σ x : ℝ) : Prop :=
  ∃ (r r' : Rand E D) (ps : List ℝ), (MonteCarlo.make w v m).run mcConst σ r = .ok (x, ps, r')

/-- **C75, the fit with substructure.** With at least two constituents a fit that returns `σ` has found two parameters `σ₁ ≤ σ₂` in the
search range for which Monte Carlo runs gave cross sections `x₁`, `x₂` on different sides of the requested one (or equal to it);
`σ` is their geometric mean. -/
theorem C75_fit [Toms748 ℝ] [BracketingToms] {E D : Type} [Rng ℝ E D] (key : CacheKey ℝ) (hm : 2 ≤ key.m) (r r' : Rand E D) (σ : ℝ)
    (h : crossSectionFit mcConst key r = (.ok σ, r')) :
    ∃ σ₁ σ₂ x₁ x₂, 4 * Real.pi * key.v^2 * Real.exp (-10) ≤ σ₁ ∧ σ₁ ≤ σ₂ ∧ σ₂ ≤ 4 * Real.pi * key.v^2 * Real.exp 20 ∧
      MonteCarloGives E D key.w key.v key.m.toNat σ₁ x₁ ∧ MonteCarloGives E D key.w key.v key.m.toNat σ₂ x₂ ∧
      (x₁ - key.s) * (x₂ - key.s) ≤ 0 ∧ σ^2 = σ₁ * σ₂ ∧ 0 ≤ σ := by
  have hpi := Real.pi_pos
  unfold crossSectionFit at h
  rw [if_pos (by omega)] at h
  unfold numericCrossSection at h
  dsimp only at h
  generalize hsol : Toms748.solve _ (lit (-10) : ℝ) (lit 20) 8 20 r = out at h
  obtain ⟨res, r2⟩ := out
  have hev : ∀ (x : ℝ) (r r2 : Rand E D) (cs : ℝ) (ps : List ℝ),
      (MonteCarlo.make key.w key.v key.m.toNat).run mcConst (exp x * (lit 4 * pi * sqr key.v)) r = .ok (cs, ps, r2) →
      MonteCarloGives E D key.w key.v key.m.toNat (4 * Real.pi * key.v^2 * Real.exp x) cs := by
    intro x r r2 cs ps hrun
    refine ⟨r, r2, ps, ?_⟩
    have e1 : (exp x * (lit 4 * pi * sqr key.v) : ℝ) = 4 * Real.pi * key.v^2 * Real.exp x := by
      simp only [exp_real, lit_real, pi_real, sqr_real]; push_cast; ring
    rw [← e1, hrun]
  simp only [Prod.mk.injEq] at h
  cases res with
  | error e =>
    rcases h with ⟨h, -⟩
    unfold fitResult at h
    split at h
    · rename_i he; cases he
    · cases h
    · cases h
  | ok lr =>
    obtain ⟨l, rr⟩ := lr
    obtain ⟨h1, h2, h3, s1, s2, y1, y2, e1, e2, hy⟩ := BracketingToms.bracket _ (lit (-10)) (lit 20) 8 20 r r2 l rr
      (by simp only [lit_real]; norm_num) (by simp only [lit_real]; norm_num) (by norm_num) (by norm_num) hsol
    have hl : (-10:ℝ) ≤ l := by simpa using h1
    have hr : rr ≤ 20 := by simpa using h3
    split at e1
    · cases e1
    rename_i x1 ps1 r3 hr1
    split at e2
    · cases e2
    rename_i x2 ps2 r4 hr2
    simp only [Except.ok.injEq] at e1 e2
    refine ⟨4 * Real.pi * key.v^2 * Real.exp l, 4 * Real.pi * key.v^2 * Real.exp rr, x1, x2, ?_, ?_, ?_, hev _ _ _ _ _ hr1,
      hev _ _ _ _ _ hr2, by rw [e1, e2]; exact hy, ?_, ?_⟩
    · exact mul_le_mul_of_nonneg_left (Real.exp_le_exp.mpr hl) (by positivity)
    · exact mul_le_mul_of_nonneg_left (Real.exp_le_exp.mpr h2) (by positivity)
    · exact mul_le_mul_of_nonneg_left (Real.exp_le_exp.mpr hr) (by positivity)
    · have : σ = Real.exp ((l + rr)/2) * (4 * Real.pi * key.v^2) := by
        have := h.1
        simp only [fitResult, Except.ok.injEq] at this
        rw [← this]
        simp only [exp_real, lit_real, pi_real, sqr_real]
        push_cast
        ring_nf
      rw [this, mul_pow, ← Real.exp_nat_mul, show ((2:ℕ):ℝ) * ((l + rr)/2) = l + rr by push_cast; ring, Real.exp_add]
      ring
    · have := h.1
      simp only [fitResult, Except.ok.injEq] at this
      rw [← this]
      simp only [exp_real, lit_real, pi_real, sqr_real]
      positivity

/-- **C75 (and C10), the fit without substructure.** With one constituent the fit is the one of C10 and draws no random numbers. -/
theorem C75_single [Toms748 ℝ] [LawfulToms] {E D : Type} [Rng ℝ E D] (key : CacheKey ℝ) (hm : key.m ≤ 1) (hw : 0 < key.w) (r : Rand E D) :
    (inelasticCrossSection key.w (4 * Real.pi * key.w^2 * Real.exp (-10)) ≤ key.s ∧
      key.s ≤ inelasticCrossSection key.w (4 * Real.pi * key.w^2 * Real.exp 20) →
      ∃ σ l u σ₀, crossSectionFit mcConst key r = (.ok σ, r) ∧ -10 ≤ l ∧ l ≤ u ∧ u ≤ 20 ∧
        inelasticCrossSection key.w σ₀ = key.s ∧ (∀ σ', 0 < σ' → inelasticCrossSection key.w σ' = key.s → σ' = σ₀) ∧
        4 * Real.pi * key.w^2 * Real.exp l ≤ σ₀ ∧ σ₀ ≤ 4 * Real.pi * key.w^2 * Real.exp u ∧
        σ₀ * Real.exp (-((u - l)/2)) ≤ σ ∧ σ ≤ σ₀ * Real.exp ((u - l)/2)) ∧
    (key.s < inelasticCrossSection key.w (4 * Real.pi * key.w^2 * Real.exp (-10)) ∨
      inelasticCrossSection key.w (4 * Real.pi * key.w^2 * Real.exp 20) < key.s →
      ∃ msg, crossSectionFit mcConst key r = (.error (.throw .domainError msg), r)) := by
  have hc : crossSectionFit mcConst key r = (analyticCrossSection key.s key.w, r) := by
    unfold crossSectionFit; rw [if_neg (by omega)]
  obtain ⟨h1, h2⟩ := C10_fit key.w hw key.s
  rw [hc]
  constructor
  · intro h
    obtain ⟨σ, l, u, σ₀, e1, e2, e3, e4, e5, e6, e7, e8⟩ := h1 h
    obtain ⟨l', u', f1, f2, f3, f4, -⟩ := LawfulToms.bracket (fun x => analyticEq analyticC (analyticRhs key.s key.w) x) (lit (-10)) (lit 20) 39 1000
      (by simp only [lit_real]; norm_num) (by simp only [lit_real]; norm_num) (by norm_num) (by norm_num) (by
        by_contra hcon
        obtain ⟨msg, hmsg⟩ := LawfulToms.no_bracket (fun x => analyticEq analyticC (analyticRhs key.s key.w) x) (lit (-10)) (lit 20) 39 1000
          (by simp only [lit_real]; norm_num) (by simp only [lit_real]; norm_num) (by norm_num) (by norm_num) (not_le.mp hcon)
        rw [e2] at hmsg; cases hmsg)
    rw [e2] at f1
    simp only [Except.ok.injEq, Prod.mk.injEq] at f1
    obtain ⟨rfl, rfl⟩ := f1
    exact ⟨σ, l, u, σ₀, by rw [e1], by simpa using f2, f3, by simpa using f4, e3, e4, e5, e6, e7, e8⟩
  · intro h
    obtain ⟨msg, e⟩ := h2 h
    exact ⟨msg, by rw [e]⟩

/-! ## Concrete cases

A source whose samples are all the same: the estimates converge, so the loop ends, and the fit brackets the requested value. -/

section
variable {E D : Type} [Rng ℝ E D]

theorem mcEstimate_const (mc : MonteCarlo ℝ) (p : ℝ) (n : ℕ) (hn : 0 < n) :
    mcEstimate mc (p * n + p) n = Real.pi * mc.maxImpact^2 * (1 - p) - Real.pi * mc.maxImpact^2 * p / n := by
  have : (n:ℝ) ≠ 0 := by exact_mod_cast hn.ne'
  rw [mcEstimate_real]
  field_simp
  ring

/-- If every sample is `p` the loop ends, if enough passes are left. -/
theorem mcLoop_const (mc : MonteCarlo ℝ) (sigma p : ℝ) (hp : 0 < p) (hK : 0 < Real.pi * mc.maxImpact^2)
    (I : CyclicNormal ℝ → Rand E D → Prop) (hI : ∀ c r, I c r → ∃ c' r', mcSample mc sigma c r = .ok (p, c', r') ∧ I c' r')
    (nPass : ℕ) (tol : ℝ) (q : ℕ) (hq : 0 < q) (htol : Real.pi * mc.maxImpact^2 * p / q ≤ tol) (k : ℕ) :
    ∀ (n : ℕ) (ref : Option ℝ) (pass : ℕ) (c : CyclicNormal ℝ) (r : Rand E D), I c r → pass ≤ nPass →
      ((n ≤ q ∧ q + 2 * (nPass + 2) ≤ n + k) ∨ (q < n ∧ 2 * nPass + 3 ≤ pass + k) ∨
        (q < n ∧ nPass + 1 ≤ pass + k ∧ ∃ j : ℕ, q < j ∧ j < n ∧ ref = some (mcEstimate mc (p * j + p) j))) →
      ∃ x ps r', mcLoop mc sigma nPass tol k n ref (p * n) pass c r = .ok (x, ps, r') ∧ (∀ p' ∈ ps, p' = p) ∧ ∃ c', I c' r' := by
  induction k with
  | zero => intro n ref pass c r _ h1 h2; omega
  | succ k ih =>
    intro n ref pass c r hc h1 h2
    obtain ⟨c1, r1, e1, hc1⟩ := hI c r hc
    have hS : p * (n:ℝ) + p = p * ((n+1 : ℕ) : ℝ) := by push_cast; ring
    rw [mcLoop, e1]
    dsimp only
    cases hwi : mcWithin tol n (mcEstimate mc (p * (n:ℝ) + p) n) ref with
    | true =>
      simp only [if_true]
      by_cases hret : nPass < pass + 1
      · rw [if_pos hret]; exact ⟨_, _, _, rfl, by simp, c1, hc1⟩
      · rw [if_neg hret]
        obtain ⟨x, ps, r', e, hps, hI'⟩ := ih (n+1) ref (pass+1) c1 r1 hc1 (by omega) (by
          rcases h2 with h2 | h2 | ⟨a1, a2, j, a3, a4, a5⟩
          · rcases Nat.lt_or_ge n q with h | h
            · exact .inl ⟨by omega, by omega⟩
            · exact .inr (.inl ⟨by omega, by omega⟩)
          · exact .inr (.inl ⟨by omega, by omega⟩)
          · exact .inr (.inr ⟨by omega, by omega, j, a3, by omega, a5⟩))
        rw [hS, e]
        exact ⟨_, _, _, rfl, by simpa using hps, hI'⟩
    | false =>
      simp only [Bool.false_eq_true, if_false, Nat.not_lt_zero]
      rcases h2 with h2 | h2 | ⟨a1, a2, j, a3, a4, a5⟩
      · obtain ⟨x, ps, r', e, hps, hI'⟩ := ih (n+1) (mcReference n (mcEstimate mc (p * (n:ℝ) + p) n)) 0 c1 r1 hc1 (by omega) (by omega)
        rw [← hS] at e
        rw [e]
        exact ⟨_, _, _, rfl, by simpa using hps, hI'⟩
      · obtain ⟨x, ps, r', e, hps, hI'⟩ := ih (n+1) (mcReference n (mcEstimate mc (p * (n:ℝ) + p) n)) 0 c1 r1 hc1 (by omega)
          (.inr (.inr ⟨by omega, by omega, n, h2.1, by omega, if_neg (by omega)⟩))
        rw [← hS] at e
        rw [e]
        exact ⟨_, _, _, rfl, by simpa using hps, hI'⟩
      · -- a settled reference is never left
        exfalso
        subst a5
        have hfalse : ¬ |mcEstimate mc (p * (n:ℝ) + p) n - mcEstimate mc (p * j + p) j| < tol := by
          have hn0 : n ≠ 0 := by omega
          simpa [mcWithin, hn0] using hwi
        apply hfalse
        rw [mcEstimate_const mc p n (by omega), mcEstimate_const mc p j (by omega)]
        have hqr : (0:ℝ) < q := by exact_mod_cast hq
        have hjr : (q:ℝ) < j := by exact_mod_cast a3
        have hnr : (j:ℝ) < n := by exact_mod_cast a4
        have hKp : 0 < Real.pi * mc.maxImpact^2 * p := mul_pos hK hp
        have b1 : Real.pi * mc.maxImpact^2 * p / n < Real.pi * mc.maxImpact^2 * p / j := div_lt_div_of_pos_left hKp (by linarith) hnr
        have b2 : Real.pi * mc.maxImpact^2 * p / j < Real.pi * mc.maxImpact^2 * p / q := div_lt_div_of_pos_left hKp hqr hjr
        have b3 : 0 < Real.pi * mc.maxImpact^2 * p / n := div_pos hKp (by linarith)
        rw [abs_lt]
        constructor <;> linarith

end

/-- A cache of zeros on the constant tape 0. -/
def Spec.ZeroSampler (c : CyclicNormal ℝ) (r : Rand Tape Unit) : Prop :=
  c.Usable ∧ (∀ x ∈ c.cache, x = 0) ∧ ∀ i, r.eng.val i = 0

theorem zeroSampler_draw (c : CyclicNormal ℝ) (r : Rand Tape Unit) (h : ZeroSampler c r) :
    ∃ c' r', c.draw r = .ok (0, c', r') ∧ ZeroSampler c' r' := by
  obtain ⟨hu, hz, ht⟩ := h
  obtain ⟨x, c', r', e, hu'⟩ := draw_usable c hu r
  have key : x ∈ c.cache ∧ (∀ y ∈ c'.cache, y ∈ c.cache) ∧ ∀ i, r'.eng.val i = 0 := by
    unfold CyclicNormal.draw at e
    by_cases hl : c.nLoops < c.loopCount
    · simp only [if_pos hl] at e
      split at e
      · cases e
      · rename_i y hy
        simp only [Except.ok.injEq, Prod.mk.injEq] at e
        obtain ⟨rfl, rfl, rfl⟩ := e
        have hmem := List.mem_of_getElem? hy
        refine ⟨?_, ?_, fun i => ht (i+1)⟩
        · split at hmem <;> exact List.mem_reverse.mp hmem
        · intro z hz'
          dsimp only at hz'
          split at hz' <;> exact List.mem_reverse.mp hz'
    · simp only [if_neg hl] at e
      split at e
      · cases e
      · rename_i y hy
        simp only [Except.ok.injEq, Prod.mk.injEq] at e
        obtain ⟨rfl, rfl, rfl⟩ := e
        have hmem := List.mem_of_getElem? hy
        refine ⟨?_, ?_, ht⟩
        · split at hmem <;> exact hmem
        · intro z hz'
          dsimp only at hz'
          split at hz' <;> exact hz'
  exact ⟨c', r', by rw [e, hz x key.1], hu', fun y hy => hz y (key.2.1 y hy), key.2.2⟩

theorem zeroSampler_positions (k : ℕ) : ∀ (c : CyclicNormal ℝ) (r : Rand Tape Unit), ZeroSampler c r →
    ∃ c' r', drawCyclicPositions k c r = .ok (List.replicate k (0, 0), c', r') ∧ ZeroSampler c' r' := by
  induction k with
  | zero => intro c r h; exact ⟨c, r, rfl, h⟩
  | succ k ih =>
    intro c r h
    obtain ⟨c1, r1, e1, h1⟩ := zeroSampler_draw c r h
    obtain ⟨c2, r2, e2, h2⟩ := zeroSampler_draw c1 r1 h1
    obtain ⟨c3, r3, e3, h3⟩ := ih c2 r2 h2
    exact ⟨c3, r3, by rw [drawCyclicPositions, e1]; dsimp only; rw [e2]; dsimp only; rw [e3]; rfl, h3⟩


theorem tape_cache (m s : ℝ) (size n : ℕ) (r : Rand Tape Unit) :
    (CyclicNormal.make m s size n r).1.cache = (CyclicNormal.quantiles m s size).reverse := rfl

theorem monteCarlo_run_eq (k : MCConst) (mc : MonteCarlo ℝ) (σ : ℝ) (r : Rand Tape Unit) : mc.run k σ r =
    mcLoop mc σ k.nPass (lit 0.001) k.nMax 0 (some (lit 0)) (lit 0) 0 (CyclicNormal.make (lit 0) mc.samplingWidth k.cacheSize k.nLoops r).1
      (CyclicNormal.make (lit 0) mc.samplingWidth k.cacheSize k.nLoops r).2 := rfl

theorem tape_cache_eng (m s : ℝ) (size n : ℕ) (r : Rand Tape Unit) : (CyclicNormal.make m s size n r).2.eng = r.eng.next := rfl

theorem zeroSampler_make (s : ℝ) (hs : s = 0) (size n : ℕ) (h1 : 1 ≤ size) (r : Rand Tape Unit) (hr : ∀ i, r.eng.val i = 0) :
    ZeroSampler (CyclicNormal.make (lit 0) s size n r).1 (CyclicNormal.make (lit 0) s size n r).2 := by
  refine ⟨make_usable _ _ _ _ h1 r, ?_, fun i => by rw [tape_cache_eng]; exact hr (i+1)⟩
  intro x hx
  rw [tape_cache, List.mem_reverse] at hx
  unfold CyclicNormal.quantiles at hx
  obtain ⟨i, -, rfl⟩ := List.mem_map.mp hx
  unfold CyclicNormal.quantile
  rw [hs]
  simp

theorem trivialToms_solve {S : Type} (f : ℝ → S → Res ℝ × S) (a b : ℝ) (bits n : ℕ) (s s1 s2 : S) (fa fb : ℝ) (ha : f a s = (.ok fa, s1))
    (hb : f b s1 = (.ok fb, s2)) (h : fa * fb ≤ 0) : trivialToms.solve f a b bits n s = (.ok (a, b), s2) := by
  show (match f a s with
    | (.error e, s) => ((.error e, s) : Res (ℝ × ℝ) × S)
    | (.ok fa, s) =>
      match f b s with
      | (.error e, s) => (.error e, s)
      | (.ok fb, s) => if lt (lit 0) (fa * fb) then (.error (.throw .domainError "no bracket"), s) else (.ok (a, b), s)) = _
  rw [ha]
  dsimp only
  rw [hb]
  dsimp only
  rw [if_neg (by simpa using h)]

/-- Two nucleons of two constituents of the width of the nucleon, always at `b = 0`: a run with parameter `π t` gives
`9 π (1 - e⁻ᵗ)` up to 0.01. -/
theorem monteCarlo_demo (t : ℝ) (ht : 0 ≤ t) (r : Rand Tape Unit) (hr : ∀ i, r.eng.val i = 0) :
    ∃ x ps r', (MonteCarlo.make (1/2:ℝ) (1/2) 2).run mcConst (Real.pi * t) r = .ok (x, ps, r') ∧
      |x - 9 * Real.pi * (1 - Real.exp (-t))| ≤ 0.01 ∧ ∀ i, r'.eng.val i = 0 := by
  have hpi := Real.pi_pos
  have hpi4 := Real.pi_lt_d2
  generalize hmc : MonteCarlo.make (1/2:ℝ) (1/2) 2 = mc
  have hmax : mc.maxImpact = 3 := by
    rw [← hmc]; show (maxImpactWidths : ℝ) * (1/2) = 3
    simp only [maxImpactWidths, lit_real]; norm_num
  have hsw : mc.samplingWidth = 0 := by
    rw [← hmc]
    show calcSamplingWidth (1/2:ℝ) (1/2) ((2:ℕ):ℤ) = 0
    unfold calcSamplingWidth
    simp
  have hm2 : mc.constituentNumber = 2 := by rw [← hmc]; rfl
  have hstep : ∀ c r, ZeroSampler c r → ∃ c' r', mcSample mc (Real.pi * t) c r = .ok (Real.exp (-t), c', r') ∧ ZeroSampler c' r' := by
    intro c r h
    have h0 : ZeroSampler c (canonical (F := ℝ) r).2 := ⟨h.1, h.2.1, fun i => h.2.2 (i+1)⟩
    obtain ⟨c1, r1, e1, h1⟩ := zeroSampler_positions mc.constituentNumber c _ h0
    obtain ⟨c2, r2, e2, h2⟩ := zeroSampler_positions mc.constituentNumber c1 r1 h1
    refine ⟨c2, r2, ?_, h2⟩
    unfold mcSample
    dsimp only
    rw [e1]; dsimp only; rw [e2]
    dsimp only
    have hu : (canonical (F := ℝ) r).1 = 0 := h.2.2 0
    have hov : mcOverlap mc.constituentWidthSq (mc.maxImpact * sqrt (canonical (F := ℝ) r).1) (List.replicate mc.constituentNumber (0, 0))
        (List.replicate mc.constituentNumber (0, 0)) = 4 := by
      rw [hm2, hu]
      unfold mcOverlap
      simp [List.replicate]
      norm_num
    rw [hov]
    have hpre : mc.prefactor = 1 / Real.pi := by
      rw [← hmc]
      show (oneDivTwoPi : ℝ) / sqr (1/2) / ofInt ((2:ℕ):ℤ) = _
      simp only [oneDivTwoPi_real, sqr_real, ofInt_real]
      push_cast
      field_simp
    rw [hpre, hm2]
    simp only [exp_real, lit_real, ofInt_real]
    congr 3
    push_cast
    field_simp
    norm_num
  have hK : Real.pi * mc.maxImpact^2 = 9 * Real.pi := by rw [hmax]; ring
  have hp1 : Real.exp (-t) ≤ 1 := Real.exp_le_one_iff.mpr (by linarith)
  have htol : Real.pi * mc.maxImpact^2 * Real.exp (-t) / ((9900000 : ℕ) : ℝ) ≤ lit 0.001 := by
    rw [hK, div_le_iff₀ (by norm_num)]
    simp only [lit_real]
    push_cast
    nlinarith [Real.exp_pos (-t)]
  have hz := zeroSampler_make mc.samplingWidth hsw mcConst.cacheSize mcConst.nLoops (by simp [mcConst]) r hr
  obtain ⟨x, ps, r', h, hps, c', hc'⟩ := mcLoop_const mc (Real.pi * t) (Real.exp (-t)) (Real.exp_pos _) (by rw [hK]; positivity) ZeroSampler hstep
    mcConst.nPass (lit 0.001) 9900000 (by norm_num) htol mcConst.nMax 0 (some (lit 0)) 0 _ _ hz (Nat.zero_le _) (.inl (by simp [mcConst]))
  have hrun : mc.run mcConst (Real.pi * t) r = .ok (x, ps, r') := by
    rw [show Real.exp (-t) * ((0:ℕ):ℝ) = lit 0 by simp] at h
    rw [monteCarlo_run_eq, h]
  refine ⟨x, ps, r', hrun, ?_, hc'.2.2⟩
  rw [← hmc] at hrun
  obtain ⟨hl, -, -, -, -, -, hmean, -⟩ := C54_estimate (1/2) (1/2) 2 (Real.pi * t) (by positivity) r r' x ps hrun
  have hsum : ps.sum = ps.length * Real.exp (-t) := by
    rw [List.eq_replicate_of_mem hps]; simp
  have hlen : (ps.length : ℝ) ≠ 0 := by
    have : 0 < ps.length := by omega
    exact_mod_cast this.ne'
  have hm : monteCarloMean (6 * (1/2)) ps = 9 * Real.pi * (1 - Real.exp (-t)) := by
    unfold monteCarloMean
    rw [hsum, mul_comm (ps.length : ℝ), mul_div_cancel_right₀ _ hlen]
    ring
  rw [hm] at hmean
  refine hmean.trans ?_
  norm_num
  linarith

theorem trivialToms_fit {E D : Type} [Rng ℝ E D] (k : MCConst) (key : CacheKey ℝ) (hm : 2 ≤ key.m) (r r1 r2 : Rand E D) (x1 x2 : ℝ) (ps1 ps2 : List ℝ)
    (e1 : (MonteCarlo.make key.w key.v key.m.toNat).run k (exp (lit (-10)) * (lit 4 * pi * sqr key.v)) r = .ok (x1, ps1, r1))
    (e2 : (MonteCarlo.make key.w key.v key.m.toNat).run k (exp (lit 20) * (lit 4 * pi * sqr key.v)) r1 = .ok (x2, ps2, r2))
    (h : (x1 - key.s) * (x2 - key.s) ≤ 0) : ∃ σ, (let _ := trivialToms; crossSectionFit k key r) = (.ok σ, r2) := by
  dsimp only
  unfold crossSectionFit
  rw [if_pos (by omega)]
  unfold numericCrossSection
  dsimp only
  rw [trivialToms_solve _ _ _ _ _ _ r1 r2 (x1 - key.s) (x2 - key.s)]
  · exact ⟨_, rfl⟩
  · rw [e1]
  · rw [e2]
  · exact h

/-- The hypothesis of `C75_fit` is met: for two constituents of the width of the nucleon, a requested cross section of 7 fm² and the
root finder that returns its bracket the fit returns. -/
example : ∃ σ r', (let _ := trivialToms; crossSectionFit mcConst (⟨2, 1/2, 1/2, 7⟩ : CacheKey ℝ)
    (⟨Tape.const 0 ⟨le_rfl, one_pos⟩, ()⟩ : Rand Tape Unit)) = (.ok σ, r') := by
  have hpi := Real.pi_pos
  have hsig : ∀ x : ℝ, (exp x * (lit 4 * pi * sqr (1/2:ℝ)) : ℝ) = Real.pi * Real.exp x := by
    intro x
    simp only [exp_real, lit_real, pi_real, sqr_real]
    push_cast; ring
  obtain ⟨x1, ps1, r1, e1, b1, hr1⟩ := monteCarlo_demo (Real.exp (-10)) (Real.exp_pos _).le ⟨Tape.const 0 ⟨le_rfl, one_pos⟩, ()⟩ (fun _ => rfl)
  obtain ⟨x2, ps2, r2, e2, b2, hr2⟩ := monteCarlo_demo (Real.exp 20) (Real.exp_pos _).le r1 hr1
  have hlo : x1 - 7 < 0 := by
    have h1 : 1 - Real.exp (-10) ≤ Real.exp (-Real.exp (-10)) := by have := Real.add_one_le_exp (-Real.exp (-10)); linarith
    have h2 : Real.exp (-10) ≤ 1/10 := by
      rw [Real.exp_neg, inv_le_comm₀ (Real.exp_pos _) (by norm_num)]
      have := Real.add_one_le_exp (10:ℝ); linarith
    have := (abs_le.mp b1).2
    have h4 := Real.pi_lt_d2
    nlinarith
  have hhi : 0 < x2 - 7 := by
    have h1 : (21:ℝ) ≤ Real.exp 20 := by have := Real.add_one_le_exp (20:ℝ); linarith
    have h2 : Real.exp (-Real.exp 20) ≤ 1/10 := by
      rw [Real.exp_neg, inv_le_comm₀ (Real.exp_pos _) (by norm_num)]
      have := Real.add_one_le_exp (Real.exp 20); linarith
    have := (abs_le.mp b2).1
    have h4 := Real.pi_gt_d2
    nlinarith
  have hl1 : (lit (-10) : ℝ) = -10 := by simp
  have hl2 : (lit 20 : ℝ) = 20 := by simp
  rw [← hl1, ← hsig] at e1
  rw [← hl2, ← hsig] at e2
  obtain ⟨σ, hσ⟩ := trivialToms_fit mcConst (⟨2, 1/2, 1/2, 7⟩ : CacheKey ℝ) (by norm_num) _ r1 r2 x1 x2 ps1 ps2 e1 e2 (by
    show (x1 - 7) * (x2 - 7) ≤ 0
    nlinarith)
  exact ⟨σ, r2, hσ⟩

end Trento
