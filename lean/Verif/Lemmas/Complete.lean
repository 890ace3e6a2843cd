import Verif.Lemmas.Attempt
import Verif.Props.AlmostSure

/-! # How probable it is that a program completes -/

namespace Trento
open MeasureTheory Set Spec Filter Topology
open scoped ENNReal

section
variable {α β Y W I : Type} [MeasurableSpace α] [MeasurableSpace β] [MeasurableSpace Y] [MeasurableSpace W] {μ : I → Measure W}

/-- the program completes with probability at least `p` -/
def OkAtLeast (μ : I → Measure W) (P : Y → W → Res (α × W)) (p : ℝ≥0∞) : Prop := ∀ y i, p ≤ ∫⁻ w, ifOk (P y w) (fun _ => 1) ∂(μ i)

variable [∀ i, IsProbabilityMeasure (μ i)]

theorem OkAtLeast.bind {P : Y → W → Res (α × W)} {S : Y × α → W → Res (β × W)} (rP : Renews μ P) (rS : Renews μ S) {p s : ℝ≥0∞}
    (hP : OkAtLeast μ P p) (hS : OkAtLeast μ S s) : OkAtLeast μ (fun y w => bindR (P y w) fun a w => S (y, a) w) (p * s) := by
  intro y i
  simp only [ifOk_bindR]
  have hm : Measurable fun t : α × W => ifOk (S (y, t.1) t.2) (fun _ => 1) :=
    measurable_ifOk (g := fun _ _ => 1) (rS.meas.comp ((measurable_const.prodMk measurable_fst).prodMk measurable_snd)) measurable_const
  have hi : Inv μ fun t : α × W => ifOk (S (y, t.1) t.2) (fun _ => 1) := fun a i j =>
    rS.const (y, a) (f := fun _ => 1) measurable_const i j
  rw [rP.law y _ hm hi i i i]
  have h1 : ∫⁻ w, ifOk (P y w) (fun _ => 1) * s ∂(μ i) ≤
      ∫⁻ w, ifOk (P y w) (fun t => ∫⁻ w', ifOk (S (y, t.1) w') (fun _ => 1) ∂(μ i)) ∂(μ i) := by
    refine lintegral_mono fun w => ?_
    dsimp only
    cases P y w with
    | error e => simp [ifOk]
    | ok t => simpa [ifOk] using hS (y, t.1) i
  refine le_trans ?_ h1
  have hmP : Measurable fun w => ifOk (P y w) (fun _ => 1) :=
    measurable_ifOk (r := fun w => P y w) (g := fun _ _ => 1) (rP.meas.comp (measurable_const.prodMk measurable_id)) measurable_const
  rw [lintegral_mul_const _ hmP]
  exact mul_le_mul_left (hP y i) s

omit [MeasurableSpace α] [MeasurableSpace Y] in
theorem OkAtLeast.total {T : Y → W → α × W} : OkAtLeast μ (fun y w => .ok (T y w)) 1 := fun y i => by simp [ifOk]

omit [∀ i, IsProbabilityMeasure (μ i)] [MeasurableSpace α] [MeasurableSpace Y] in
theorem OkAtLeast.congr {P Q : Y → W → Res (α × W)} {p : ℝ≥0∞} (hP : OkAtLeast μ P p) (h : ∀ y w, Q y w = P y w) : OkAtLeast μ Q p := by
  have : Q = P := funext fun y => funext fun w => h y w
  rwa [this]

omit [∀ i, IsProbabilityMeasure (μ i)] [MeasurableSpace α] [MeasurableSpace Y] in
theorem OkAtLeast.comp {Z : Type} {P : Y → W → Res (α × W)} {p : ℝ≥0∞} (hP : OkAtLeast μ P p) (f : Z → Y) : OkAtLeast μ (fun z w => P (f z) w) p :=
  fun z i => hP (f z) i

omit [∀ i, IsProbabilityMeasure (μ i)] [MeasurableSpace α] [MeasurableSpace Y] in
theorem OkAtLeast.mono {P : Y → W → Res (α × W)} {p q : ℝ≥0∞} (hP : OkAtLeast μ P p) (h : q ≤ p) : OkAtLeast μ P q := fun y i => h.trans (hP y i)

/-- a loop of attempts that always complete -/
theorem OkAtLeast.retry {P : W → (α × Bool) × W} (rP : Renews μ fun (_ : Unit) w => .ok (P w)) {q : ℝ≥0∞}
    (hm : ∀ i, missProb μ (fun w => .ok (P w)) i ≤ q) (n : ℕ) :
    OkAtLeast μ (fun (_ : Y) w => Trento.retry (fun w => .ok (P w)) n w) (1 - q ^ n) := by
  intro y i
  show _ ≤ retryMean μ (fun w => .ok (P w)) n (fun _ => 1) i
  set p := missProb μ (fun w => .ok (P w)) i with hp
  have hsum : p + retryMean μ (fun w => .ok (P w)) 1 (fun _ => 1) i = 1 := by
    rw [hp, miss_add_hit rP i]; simp [ifOk]
  have hind : p ^ n + retryMean μ (fun w => .ok (P w)) n (fun _ => 1) i = 1 := by
    induction n with
    | zero => simp [retryMean, Trento.retry, ifOk]
    | succ n ih =>
      rw [retryMean_succ rP n measurable_const i, ← hp]
      calc _ = p * (p ^ n + retryMean μ (fun w => .ok (P w)) n (fun _ => 1) i) + retryMean μ (fun w => .ok (P w)) 1 (fun _ => 1) i := by
            rw [pow_succ]; ring
        _ = 1 := by rw [ih, mul_one, hsum]
  rw [tsub_le_iff_right]
  refine hind.symm.le.trans ?_
  rw [add_comm]
  exact add_le_add_right (pow_le_pow_left' (hm i) n) _
end

variable {E D : Type} [Rng ℝ E D] [MeasurableSpace E] [MeasurableSpace D] {I : Type} {μ : I → Measure (Rand E D)} {Y : Type} [MeasurableSpace Y]

/-- one proposal of the deuteron -/
noncomputable def deuteronTry (a b : ℝ) (w : Rand E D) : (ℝ × Bool) × Rand E D :=
  ((deuteronRadius a (canonical (F := ℝ) w).1,
    !lt (deuteronProb a b (canonical (F := ℝ) w).1 (deuteronRadius a (canonical (F := ℝ) w).1)) (canonical (F := ℝ) (canonical (F := ℝ) w).2).1),
    (canonical (F := ℝ) (canonical (F := ℝ) w).2).2)

theorem deuteronLoop_retry (a b : ℝ) (fuel : ℕ) (w : Rand E D) : deuteronLoop a b fuel w = retry (fun w => .ok (deuteronTry a b w)) fuel w := by
  induction fuel generalizing w with
  | zero => rfl
  | succ fuel ih =>
    rw [deuteronLoop, retry]
    simp only [ih]
    by_cases hb : lt (deuteronProb a b (canonical (F := ℝ) w).1 (deuteronRadius a (canonical (F := ℝ) w).1)) (canonical (F := ℝ) (canonical (F := ℝ) w).2).1 = true
    · rw [if_pos hb]
      have : (deuteronTry a b w).1.2 = false := by simp only [deuteronTry, hb, Bool.not_true]
      simp only [bindR, this, Bool.false_eq_true, if_false]
      rfl
    · rw [if_neg hb]
      have : (deuteronTry a b w).1.2 = true := by simp only [deuteronTry, hb, Bool.not_false]
      simp only [bindR, this, if_true]
      rfl

/-- one proposal of the deformed nucleus -/
noncomputable def deformedTry (R a b2 b4 rmax : ℝ) (w : Rand E D) : ((ℝ × ℝ) × Bool) × Rand E D :=
  (((rmax * cbrt (canonical (F := ℝ) w).1, (cosTheta (F := ℝ) (canonical (F := ℝ) w).2).1),
    !lt (deformedDist R a b2 b4 (rmax * cbrt (canonical (F := ℝ) w).1) (cosTheta (F := ℝ) (canonical (F := ℝ) w).2).1)
      (canonical (F := ℝ) (cosTheta (F := ℝ) (canonical (F := ℝ) w).2).2).1),
    (canonical (F := ℝ) (cosTheta (F := ℝ) (canonical (F := ℝ) w).2).2).2)

theorem deformedReject_retry (R a b2 b4 rmax : ℝ) (fuel : ℕ) (w : Rand E D) :
    deformedReject R a b2 b4 rmax fuel w = retry (fun w => .ok (deformedTry R a b2 b4 rmax w)) fuel w := by
  induction fuel generalizing w with
  | zero => rfl
  | succ fuel ih =>
    rw [deformedReject, retry]
    simp only [ih]
    by_cases hb : lt (deformedDist R a b2 b4 (rmax * cbrt (canonical (F := ℝ) w).1) (cosTheta (F := ℝ) (canonical (F := ℝ) w).2).1)
      (canonical (F := ℝ) (cosTheta (F := ℝ) (canonical (F := ℝ) w).2).2).1 = true
    · rw [if_pos hb]
      have : (deformedTry R a b2 b4 rmax w).1.2 = false := by simp only [deformedTry, hb, Bool.not_true]
      simp only [bindR, this, Bool.false_eq_true, if_false]
      rfl
    · rw [if_neg hb]
      have : (deformedTry R a b2 b4 rmax w).1.2 = true := by simp only [deformedTry, hb, Bool.not_false]
      simp only [bindR, this, if_true]
      rfl

section
variable (h : FreshSource E D μ)
include h

theorem fresh_canonical {g : ℝ × Rand E D → ℝ≥0∞} (hg : Measurable g) (hi : Inv μ g) (i k : I) :
    ∫⁻ w, g (canonical (F := ℝ) w) ∂(μ i) = ∫⁻ u, ∫⁻ w, g (u, w) ∂(μ k) ∂unif := by
  have := h.prob
  obtain ⟨j, hj⟩ := h.canonical_law i
  rw [← lintegral_map hg h.canonical_meas, hj, lintegral_prod _ hg.aemeasurable]
  exact lintegral_congr fun a => hi a j k

theorem fresh_canonical2 {g : ℝ × ℝ → ℝ≥0∞} (hg : Measurable g) (i : I) :
    ∫⁻ w, g ((canonical (F := ℝ) w).1, (canonical (F := ℝ) (canonical (F := ℝ) w).2).1) ∂(μ i) = ∫⁻ u, ∫⁻ v, g (u, v) ∂unif ∂unif := by
  have := h.prob
  have h1 : Measurable fun t : ℝ × Rand E D => g (t.1, (canonical (F := ℝ) t.2).1) :=
    hg.comp (measurable_fst.prodMk (measurable_fst.comp (h.canonical_meas.comp measurable_snd)))
  have e1 : ∀ u i, ∫⁻ w, g (u, (canonical (F := ℝ) w).1) ∂(μ i) = ∫⁻ v, g (u, v) ∂unif := by
    intro u i
    have := fresh_canonical h (g := fun t => g (u, t.1)) (hg.comp (measurable_const.prodMk measurable_fst)) (fun a i j => by simp) i i
    simpa using this
  rw [fresh_canonical h (g := fun t => g (t.1, (canonical (F := ℝ) t.2).1)) h1 (fun a i j => by dsimp only; rw [e1, e1]) i i]
  exact lintegral_congr fun u => e1 u i

theorem fresh_canonical3 {g : ℝ × ℝ × ℝ → ℝ≥0∞} (hg : Measurable g) (i : I) :
    ∫⁻ w, g ((canonical (F := ℝ) w).1, (canonical (F := ℝ) (canonical (F := ℝ) w).2).1, (canonical (F := ℝ) (canonical (F := ℝ) (canonical (F := ℝ) w).2).2).1) ∂(μ i) =
      ∫⁻ u, ∫⁻ v, ∫⁻ x, g (u, v, x) ∂unif ∂unif ∂unif := by
  have := h.prob
  have hc := h.canonical_meas
  have h1 : Measurable fun t : ℝ × Rand E D => g (t.1, (canonical (F := ℝ) t.2).1, (canonical (F := ℝ) (canonical (F := ℝ) t.2).2).1) :=
    hg.comp (measurable_fst.prodMk ((measurable_fst.comp (hc.comp measurable_snd)).prodMk
      (measurable_fst.comp (hc.comp (measurable_snd.comp (hc.comp measurable_snd))))))
  have e1 : ∀ u i, ∫⁻ w, g (u, (canonical (F := ℝ) w).1, (canonical (F := ℝ) (canonical (F := ℝ) w).2).1) ∂(μ i) = ∫⁻ v, ∫⁻ x, g (u, v, x) ∂unif ∂unif :=
    fun u i => fresh_canonical2 h (g := fun t => g (u, t)) (hg.comp (measurable_const.prodMk measurable_id)) i
  rw [fresh_canonical h (g := fun t => g (t.1, (canonical (F := ℝ) t.2).1, (canonical (F := ℝ) (canonical (F := ℝ) t.2).2).1)) h1
    (fun a i j => by dsimp only; rw [e1, e1]) i i]
  exact lintegral_congr fun u => e1 u i

theorem miss_deuteron (a b : ℝ) (i : I) : missProb μ (fun w : Rand E D => .ok (deuteronTry a b w)) i = deuteronQ a b := by
  unfold missProb
  simp only [ifOk, deuteronTry, lt_real, Bool.not_eq_true', decide_eq_false_iff_not]
  have hm := (deuteronAcc_meas a b).compl
  have hmi : Measurable fun t : ℝ × ℝ => (deuteronAcc a b)ᶜ.indicator (fun _ => (1:ℝ≥0∞)) t := measurable_const.indicator hm
  have := fresh_canonical2 h hmi i
  rw [deuteronQ, ← lintegral_indicator_one hm, lintegral_prod _ (measurable_one.indicator hm).aemeasurable]
  refine Eq.trans (lintegral_congr fun w => ?_) this
  simp only [indicator, mem_compl_iff, deuteronAcc, mem_ofPred_eq, ite_not]

theorem miss_deformed (R a b2 b4 rmax : ℝ) (i : I) :
    missProb μ (fun w : Rand E D => .ok (deformedTry R a b2 b4 rmax w)) i = deformedQ R a b2 b4 rmax := by
  unfold missProb
  simp only [ifOk, deformedTry, lt_real, Bool.not_eq_true', decide_eq_false_iff_not]
  have hm := (deformedAcc_meas R a b2 b4 rmax).compl
  have hmi : Measurable fun t : ℝ × ℝ × ℝ => (deformedAcc R a b2 b4 rmax)ᶜ.indicator (fun _ => (1:ℝ≥0∞)) t := measurable_const.indicator hm
  have := fresh_canonical3 h hmi i
  rw [deformedQ, ← lintegral_indicator_one hm, lintegral_prod _ (measurable_one.indicator hm).aemeasurable]
  refine Eq.trans (lintegral_congr fun w => ?_) (this.trans (lintegral_congr fun u => ?_))
  · have e : ∀ x : ℝ, (lit 2 : ℝ) * x - lit 1 = 2 * x - 1 := fun x => by simp only [lit_real]; norm_num
    simp only [indicator, mem_compl_iff, deformedAcc, defSample, mem_ofPred_eq, ite_not, cosTheta, e]
  · have hmu : Measurable fun t : ℝ × ℝ => (deformedAcc R a b2 b4 rmax)ᶜ.indicator (1 : ℝ × ℝ × ℝ → ℝ≥0∞) (u, t) :=
      (measurable_one.indicator hm).comp (measurable_const.prodMk measurable_id)
    rw [lintegral_prod _ hmu.aemeasurable]
    rfl

theorem renews_deuteronTry (a b : ℝ) : Renews μ fun (_ : Unit) (w : Rand E D) => .ok (deuteronTry a b w) := by
  have := h.prob
  have h1 : Measurable fun u : ℝ => deuteronRadius a u := by
    simp only [deuteronRadius, log_real, lit_real]
    fun_prop
  have h2 : Measurable fun u : ℝ => deuteronProb a b u (deuteronRadius a u) := by
    simp only [deuteronProb, deuteronRadius, log_real, exp_real, lit_real, pow_real]
    fun_prop
  have hf : Measurable fun p : (Unit × ℝ) × ℝ => (deuteronRadius a p.1.2, !lt (deuteronProb a b p.1.2 (deuteronRadius a p.1.2)) p.2) := by
    refine (h1.comp (measurable_snd.comp measurable_fst)).prodMk ((measurable_of_countable fun b : Bool => !b).comp ?_)
    simp only [lt_real]
    exact measurable_decide' (measurableSet_lt (h2.comp (measurable_snd.comp measurable_fst)) measurable_snd)
  exact ((renews_canonical h).bind ((renews_canonical h).map hf)).congr fun y w => rfl

theorem renews_deformedTry (R a b2 b4 rmax : ℝ) : Renews μ fun (_ : Unit) (w : Rand E D) => .ok (deformedTry R a b2 b4 rmax w) := by
  have := h.prob
  have hd : Measurable fun p : ℝ × ℝ => deformedDist R a b2 b4 p.1 p.2 := by
    simp only [deformedDist, exp_real, lit_real, sqrt_real]
    fun_prop
  have hr : Measurable fun p : ((Unit × ℝ) × ℝ) × ℝ => rmax * cbrt p.1.1.2 :=
    (cbrt_meas.comp (measurable_snd.comp (measurable_fst.comp measurable_fst))).const_mul _
  have hc : Measurable fun p : ((Unit × ℝ) × ℝ) × ℝ => p.1.2 := by fun_prop
  have hf : Measurable fun p : ((Unit × ℝ) × ℝ) × ℝ => ((rmax * cbrt p.1.1.2, p.1.2), !lt (deformedDist R a b2 b4 (rmax * cbrt p.1.1.2) p.1.2) p.2) := by
    refine (hr.prodMk hc).prodMk ((measurable_of_countable fun b : Bool => !b).comp ?_)
    simp only [lt_real]
    exact measurable_decide' (measurableSet_lt (hd.comp (hr.prodMk hc)) measurable_snd)
  exact ((renews_canonical h).bind ((renews_cosTheta h).bind ((renews_canonical h).map hf))).congr fun y w => rfl

theorem drawDeformed_complete (R a b2 b4 rmax : ℝ) (fuel k : ℕ) :
    OkAtLeast μ (fun (_ : Y) (w : Rand E D) => drawDeformed fuel R a b2 b4 rmax k w) ((1 - deformedQ R a b2 b4 rmax ^ fuel) ^ k) := by
  have := h.prob
  induction k generalizing Y with
  | zero => exact fun y i => by simp [drawDeformed, ifOk]
  | succ k ih =>
    have h1 : OkAtLeast μ (fun (_ : Y) (w : Rand E D) => deformedReject R a b2 b4 rmax fuel w) (1 - deformedQ R a b2 b4 rmax ^ fuel) :=
      (OkAtLeast.retry (renews_deformedTry h R a b2 b4 rmax) (fun i => (miss_deformed h R a b2 b4 rmax i).le) fuel).congr fun y w => deformedReject_retry ..
    have h2 := (ih (Y := Y × (ℝ × ℝ))).bind (renews_drawDeformed h fuel R a b2 b4 rmax k) (Renews.pure
      (q := fun p : (Y × (ℝ × ℝ)) × List (ℝ × ℝ) => p.1.2 :: p.2) ((measurable_snd.comp measurable_fst).cons measurable_snd)) (OkAtLeast.total (T := fun p w => (p.1.2 :: p.2, w)))
    have h3 := h1.bind (renews_deformedReject h R a b2 b4 rmax fuel) ((renews_drawDeformed h fuel R a b2 b4 rmax k).map
      (f := fun p : (Y × (ℝ × ℝ)) × List (ℝ × ℝ) => p.1.2 :: p.2) ((measurable_snd.comp measurable_fst).cons measurable_snd)) h2
    rw [mul_one, ← pow_succ'] at h3
    refine h3.congr fun y w => ?_
    rw [drawDeformed]
    cases deformedReject R a b2 b4 rmax fuel w with
    | error e => rfl
    | ok t =>
      simp only [bindR]
      cases drawDeformed fuel R a b2 b4 rmax k t.2 <;> rfl

/-- a nucleus is sampled with a probability that tends to one -/
theorem sample_complete [LawfulRng E D] (nuc : Nucleus ℝ) (hh : NucleusHistory E D nuc) (hs : Samplable nuc.kind) :
    ∃ q : ℝ≥0∞, q < 1 ∧ ∀ fuel : ℕ, OkAtLeast μ (fun (o : ℝ) (w : Rand E D) => (nuc.sampleNucleons fuel o w).map fun t => (t.1.nucleons, t.2))
      ((1 - q ^ fuel) ^ nuc.nucleons.length) := by
  have := h.prob
  have hle : ∀ (q : ℝ≥0∞) (fuel k : ℕ), (1 - q ^ fuel) ^ k ≤ 1 := fun q fuel k => pow_le_one' tsub_le_self k
  have htot : ∀ fuel : ℕ, (∀ (o : ℝ) (w : Rand E D), ∃ r, nuc.sampleNucleons fuel o w = .ok r) →
      OkAtLeast μ (fun (o : ℝ) (w : Rand E D) => (nuc.sampleNucleons fuel o w).map fun t => (t.1.nucleons, t.2)) ((1 - 0 ^ fuel) ^ nuc.nucleons.length) := by
    intro fuel ht o i
    refine (hle 0 fuel _).trans ?_
    have : ∀ w : Rand E D, ifOk ((nuc.sampleNucleons fuel o w).map fun t => (t.1.nucleons, t.2)) (fun _ => 1) = 1 := by
      intro w
      obtain ⟨r, hr⟩ := ht o w
      rw [hr]; rfl
    simp [this]
  have hw := hh.wf
  unfold Nucleus.WF at hw
  cases hk : nuc.kind with
  | proton => exact ⟨0, by simp, fun fuel => htot fuel fun o w => ⟨_, by simp only [Nucleus.sampleNucleons, hk]; rfl⟩⟩
  | woodsSaxon R a dm => exact ⟨0, by simp, fun fuel => htot fuel fun o w => ⟨_, by simp only [Nucleus.sampleNucleons, hk]; rfl⟩⟩
  | manual configs rmax =>
    rw [hk] at hs
    exact ⟨0, by simp, fun fuel => htot fuel fun o w => C16_manual_total configs hs rmax nuc hh hk fuel o w⟩
  | deuteron a b =>
    rw [hk] at hw hs
    have hl : nuc.nucleons.length = 2 := hw
    refine ⟨deuteronQ a b, deuteronQ_lt hs.1 hs.2, fun fuel o i => ?_⟩
    have h1 : OkAtLeast μ (fun (_ : ℝ) (w : Rand E D) => deuteronLoop a b fuel w) (1 - deuteronQ a b ^ fuel) :=
      (OkAtLeast.retry (renews_deuteronTry h a b) (fun i => (miss_deuteron h a b i).le) fuel).congr fun y w => deuteronLoop_retry ..
    have h2 := h1 o i
    have h3 : (1 - deuteronQ a b ^ fuel) ^ nuc.nucleons.length ≤ 1 - deuteronQ a b ^ fuel := by
      rw [hl]
      rw [pow_two]
      exact mul_le_of_le_one_left' tsub_le_self
    refine h3.trans (h2.trans_eq (lintegral_congr fun w => ?_))
    simp only [Nucleus.sampleNucleons, hk, sampleDeuteron]
    match hm : nuc.nucleons, hl with
    | [n1, n2], _ => cases deuteronLoop a b fuel w <;> rfl
  | deformed R a b2 b4 rmax dm =>
    refine ⟨deformedQ R a b2 b4 rmax, deformedQ_lt R a b2 b4 rmax, fun fuel o i => ?_⟩
    have h1 := (OkAtLeast.total (μ := μ) (Y := Unit) (T := fun _ w => drawTiltSpin (F := ℝ) w)).bind (renews_drawTiltSpin h)
      (renews_drawDeformed h fuel R a b2 b4 rmax nuc.nucleons.length) (drawDeformed_complete h R a b2 b4 rmax fuel nuc.nucleons.length)
    rw [one_mul] at h1
    refine (h1 () i).trans_eq (lintegral_congr fun w => ?_)
    simp only [Nucleus.sampleNucleons, hk, sampleDeformed, bindR]
    cases drawDeformed fuel R a b2 b4 rmax nuc.nucleons.length (drawTiltSpin (F := ℝ) w).2 <;> rfl

/-- an attempt completes with a probability that tends to one -/
theorem attempt_complete [LawfulRng E D] (c : Collider ℝ) (A B : Nucleus ℝ) (hA : NucleusHistory E D A) (hB : NucleusHistory E D B)
    (sA : Samplable A.kind) (sB : Samplable B.kind) :
    ∃ p : ℕ → ℝ≥0∞, Tendsto p atTop (𝓝 1) ∧ ∀ rfuel, OkAtLeast μ (fun (_ : Unit) (w : Rand E D) => attempt rfuel c A B w) (p rfuel) := by
  have := h.prob
  obtain ⟨qA, hqA, hA'⟩ := sample_complete h A hA sA
  obtain ⟨qB, hqB, hB'⟩ := sample_complete h B hB sB
  refine ⟨fun r => (1 - qA ^ r) ^ A.nucleons.length * (1 - qB ^ r) ^ B.nucleons.length, ?_, fun rfuel => ?_⟩
  · have ht : ∀ q : ℝ≥0∞, q < 1 → ∀ k : ℕ, Tendsto (fun r : ℕ => (1 - q ^ r) ^ k) atTop (𝓝 1) := by
      intro q hq k
      have h1 : Tendsto (fun r : ℕ => q ^ r) atTop (𝓝 0) := ENNReal.tendsto_pow_atTop_nhds_zero_of_lt_one hq
      have h2 := ENNReal.Tendsto.pow (n := k) (ENNReal.Tendsto.sub (tendsto_const_nhds (x := (1:ℝ≥0∞))) h1 (Or.inl ENNReal.one_ne_top))
      simpa using h2
    have h3 := ENNReal.Tendsto.mul (ht qA hqA A.nucleons.length) (Or.inl one_ne_zero) (ht qB hqB B.nucleons.length) (Or.inl one_ne_zero)
    simpa using h3
  · intro y i
    have h1 := (renews_sampleNucleons h rfuel A).comp (f := fun p : Unit × ℝ => c.asymmetry * impactFormula c.bmin c.bmax p.2)
      (((impact_meas c.bmin c.bmax).comp measurable_snd).const_mul _)
    have h2 := (renews_sampleNucleons h rfuel B).comp (f := fun p : (Unit × ℝ) × List (NucleonData ℝ) => (c.asymmetry - lit 1) * impactFormula c.bmin c.bmax p.1.2)
      (((impact_meas c.bmin c.bmax).comp (measurable_snd.comp measurable_fst)).const_mul _)
    have k1 := (hA' rfuel).comp (fun p : Unit × ℝ => c.asymmetry * impactFormula c.bmin c.bmax p.2)
    have k2 := (hB' rfuel).comp (fun p : (Unit × ℝ) × List (NucleonData ℝ) => (c.asymmetry - lit 1) * impactFormula c.bmin c.bmax p.1.2)
    have k3 := (OkAtLeast.total (μ := μ) (Y := Unit) (T := fun _ w => canonical (F := ℝ) w)).bind (renews_canonical h) (h1.bind h2) (k1.bind h1 h2 k2)
    rw [one_mul] at k3
    refine (k3 () i).trans_eq (lintegral_congr fun w => ?_)
    simp only [attempt, bindR]
    cases A.sampleNucleons rfuel (c.asymmetry * impactFormula c.bmin c.bmax (canonical (F := ℝ) w).1) (canonical (F := ℝ) w).2 with
    | error e => rfl
    | ok t =>
      simp only [Except.map]
      cases B.sampleNucleons rfuel ((c.asymmetry - lit 1) * impactFormula c.bmin c.bmax (canonical (F := ℝ) w).1) t.2 <;> rfl
end

end Trento
