import Verif.Lemmas.ExchangeOps
import Verif.Props.Nucleon

/-! # The double loop with the nuclei exchanged -/

namespace Trento
open MeasureTheory Set Spec
open scoped ENNReal

variable {E D : Type} [Rng ℝ E D] {ι : Type} [DecidableEq ι]

/-- participants have constituents, and there is none before the first collision -/
def FitSlots (x : Slots ι) : Prop := ∀ m, (x.1 m).isParticipant = true → (x.1 m).constituentsExist = true ∧ x.2.2 = true

omit [DecidableEq ι] in
theorem participate_near {nc : NucleonCommon ℝ} {a b : NucleonData ℝ} (h1 : (a.isParticipant && b.isParticipant && !nc.calcNcoll) = false)
    (h2 : lt nc.maxImpactSq (sqr (a.x - b.x) + sqr (a.y - b.y)) = false) (w : Rand E D) :
    nc.participate a b w =
      (if lt (nc.oneMinusProb (overlapSum nc.constituentWidthSq (nc.sampleConstituents a w).1.constituents
          (nc.sampleConstituents b (nc.sampleConstituents a w).2).1.constituents)) (canonical (F := ℝ) (nc.sampleConstituents b (nc.sampleConstituents a w).2).2).1
        then (true, (nc.sampleConstituents a w).1.setParticipant, (nc.sampleConstituents b (nc.sampleConstituents a w).2).1.setParticipant)
        else (false, (nc.sampleConstituents a w).1, (nc.sampleConstituents b (nc.sampleConstituents a w).2).1),
        (canonical (F := ℝ) (nc.sampleConstituents b (nc.sampleConstituents a w).2).2).2) := by
  unfold NucleonCommon.participate
  simp only [h1, h2, Bool.false_eq_true, if_false]
  split <;> rfl

theorem update_pair (x : Slots ι) {k l : ι} (hkl : k ≠ l) (a b : NucleonData ℝ) :
    (fun m => if m = k ∨ m = l then ((Function.update (Function.update x.1 k a) l b) m).setParticipant else (Function.update (Function.update x.1 k a) l b) m) =
      Function.update (Function.update x.1 k a.setParticipant) l b.setParticipant := by
  funext m
  by_cases e2 : m = l
  · subst e2; simp
  · by_cases e1 : m = k
    · subst e1; simp [Function.update_of_ne e2]
    · simp [e1, e2]

theorem step_near {nc : NucleonCommon ℝ} {cn : Bool} {p : ι × ι} (hp : p.1 ≠ p.2) {x : Slots ι}
    (h1 : ((x.1 p.1).isParticipant && (x.1 p.2).isParticipant && !nc.calcNcoll) = false) (h2 : farSlots nc p x = false) (w : Rand E D) :
    (stepS nc cn p x w).1 = decideSlots nc cn p (Function.update (Function.update x.1 p.1 (nc.sampleConstituents (x.1 p.1) w).1) p.2
        (nc.sampleConstituents (x.1 p.2) (nc.sampleConstituents (x.1 p.1) w).2).1, x.2)
      (canonical (F := ℝ) (nc.sampleConstituents (x.1 p.2) (nc.sampleConstituents (x.1 p.1) w).2).2).1 := by
  unfold stepS decideSlots
  rw [participate_near h1 h2]
  simp only [Function.update_self, Function.update_of_ne hp]
  split
  · simp only [update_pair x hp]
    cases cn <;> rfl
  · simp

theorem step_far {nc : NucleonCommon ℝ} {cn : Bool} {p : ι × ι} {x : Slots ι}
    (h1 : ((x.1 p.1).isParticipant && (x.1 p.2).isParticipant && !nc.calcNcoll) = false) (h2 : farSlots nc p x = true) (w : Rand E D) :
    (stepS nc cn p x w).1 = x := by
  have e : nc.participate (x.1 p.1) (x.1 p.2) w = ((false, x.1 p.1, x.1 p.2), w) := by
    unfold NucleonCommon.participate
    have h2' : lt nc.maxImpactSq (sqr ((x.1 p.1).x - (x.1 p.2).x) + sqr ((x.1 p.1).y - (x.1 p.2).y)) = true := h2
    simp only [h1, h2', Bool.false_eq_true, if_false, if_true]
  unfold stepS
  rw [e]
  simp

theorem step_short {nc : NucleonCommon ℝ} {p : ι × ι} {x : Slots ι} (hx : FitSlots x)
    (h1 : ((x.1 p.1).isParticipant && (x.1 p.2).isParticipant && !nc.calcNcoll) = true) (w : Rand E D) :
    (stepS nc nc.calcNcoll p x w).1 = x := by
  have e : nc.participate (x.1 p.1) (x.1 p.2) w = ((true, x.1 p.1, x.1 p.2), w) := by
    unfold NucleonCommon.participate
    simp only [h1, if_true]
  simp only [Bool.and_eq_true, Bool.not_eq_true'] at h1
  have hc := (hx p.1 h1.1.1).2
  unfold stepS
  rw [e]
  obtain ⟨s, n, c⟩ := x
  dsimp only at hc
  subst hc
  simp [h1.2]

theorem fit_draw (nc : NucleonCommon ℝ) (m : ι) {x : Slots ι} (hx : FitSlots x) (w : Rand E D) : FitSlots (drawSlot nc m x w) := by
  intro k hk
  by_cases e : k = m
  · subst e
    refine ⟨drawSlot_at nc k x w, (hx k ?_).2⟩
    simpa [drawSlot, sampleConstituents_part] using hk
  · simpa [drawSlot, Function.update_of_ne e] using hx k (by simpa [drawSlot, Function.update_of_ne e] using hk)

theorem fit_decide (nc : NucleonCommon ℝ) (cn : Bool) (p : ι × ι) {x : Slots ι} (hx : FitSlots x) (hb : BothExist p x) (u : ℝ) : FitSlots (decideSlots nc cn p x u) := by
  unfold decideSlots
  split
  · intro m hm
    refine ⟨?_, rfl⟩
    dsimp only at hm ⊢
    by_cases e : m = p.1 ∨ m = p.2
    · rw [if_pos e, setParticipant_exist]
      rcases e with rfl | rfl
      · exact hb.1
      · exact hb.2
    · rw [if_neg e] at hm ⊢
      exact (hx m hm).1
  · exact hx

theorem fit_step {nc : NucleonCommon ℝ} {p : ι × ι} (hp : p.1 ≠ p.2) {x : Slots ι} (hx : FitSlots x) (w : Rand E D) : FitSlots (stepS nc nc.calcNcoll p x w).1 := by
  cases h1 : ((x.1 p.1).isParticipant && (x.1 p.2).isParticipant && !nc.calcNcoll)
  · cases h2 : farSlots nc p x
    · rw [step_near hp h1 h2]
      have e : ((Function.update (Function.update x.1 p.1 (nc.sampleConstituents (x.1 p.1) w).1) p.2
          (nc.sampleConstituents (x.1 p.2) (nc.sampleConstituents (x.1 p.1) w).2).1, x.2) : Slots ι) =
          drawSlot nc p.2 (drawSlot nc p.1 x w) (nc.sampleConstituents (x.1 p.1) w).2 := by
        simp [drawSlot, Function.update_of_ne hp.symm]
      rw [e]
      exact fit_decide nc _ p (fit_draw nc _ (fit_draw nc _ hx _) _) ⟨drawSlot_keep nc p.2 p.1 _ _ (drawSlot_at nc p.1 x w), drawSlot_at nc p.2 _ _⟩ _
    · rw [step_far h1 h2]; exact hx
  · rw [step_short hx h1]; exact hx

theorem decide_short (nc : NucleonCommon ℝ) {p : ι × ι} {x : Slots ι} (hx : FitSlots x)
    (h1 : ((x.1 p.1).isParticipant && (x.1 p.2).isParticipant && !nc.calcNcoll) = true) (u : ℝ) : decideSlots nc nc.calcNcoll p x u = x := by
  simp only [Bool.and_eq_true, Bool.not_eq_true'] at h1
  have hc := (hx p.1 h1.1.1).2
  unfold decideSlots
  split
  · obtain ⟨s, n, c⟩ := x
    simp only [h1.2, Bool.false_eq_true, if_false, Prod.mk.injEq, true_and]
    refine ⟨funext fun m => ?_, hc.symm⟩
    split
    · rename_i e
      rcases e with rfl | rfl
      · simp only [NucleonData.setParticipant]; rw [if_pos h1.1.1]
      · simp only [NucleonData.setParticipant]; rw [if_pos h1.1.2]
    · rfl
  · rfl

omit [Rng ℝ E D] [DecidableEq ι] in
theorem overlapSum_comm (v : ℝ) (as bs : List (Constituent ℝ)) : overlapSum v as bs = overlapSum v bs as := by
  rw [overlapSum_eq, overlapSum_eq]
  induction as with
  | nil => induction bs <;> simp_all
  | cons a as ih =>
    simp only [List.map_cons, List.sum_cons, ih]
    clear ih
    induction bs with
    | nil => simp
    | cons b bs ih2 => simp only [List.map_cons, List.sum_cons]; rw [← ih2]; ring_nf

omit [Rng ℝ E D] [DecidableEq ι] in
theorem far_swap (nc : NucleonCommon ℝ) (p : ι × ι) (x : Slots ι) : farSlots nc p.swap x = farSlots nc p x := by
  simp only [farSlots, sqr_real, Prod.fst_swap, Prod.snd_swap]
  congr 2 <;> ring

omit [Rng ℝ E D] in
theorem decide_swap (nc : NucleonCommon ℝ) (cn : Bool) (p : ι × ι) (x : Slots ι) (u : ℝ) : decideSlots nc cn p.swap x u = decideSlots nc cn p x u := by
  simp only [decideSlots, Prod.fst_swap, Prod.snd_swap]
  rw [overlapSum_comm]
  simp only [or_comm]

variable [MeasurableSpace E] [MeasurableSpace D] {I : Type} {μ : I → Measure (Rand E D)}

section
variable (h : FreshSource E D μ)
include h

/-- two nucleons and a uniform random number, drawn one after the other -/
theorem mean_three (nc : NucleonCommon ℝ) {a b : NucleonData ℝ} {f : NucleonData ℝ → NucleonData ℝ → ℝ → ℝ≥0∞}
    (hf : Measurable fun t : NucleonData ℝ × NucleonData ℝ × ℝ => f t.1 t.2.1 t.2.2) (i : I) :
    ∫⁻ w, f (nc.sampleConstituents a w).1 (nc.sampleConstituents b (nc.sampleConstituents a w).2).1
        (canonical (F := ℝ) (nc.sampleConstituents b (nc.sampleConstituents a w).2).2).1 ∂(μ i) =
      ∫⁻ w, (∫⁻ w', (∫⁻ w'', f (nc.sampleConstituents a w).1 (nc.sampleConstituents b w').1 (canonical (F := ℝ) w'').1 ∂(μ i)) ∂(μ i)) ∂(μ i) := by
  have := h.prob
  have hS := renews_sampleConstituents h nc
  have hSm : Measurable fun t : NucleonData ℝ × Rand E D => nc.sampleConstituents t.1 t.2 := embedding_ok.measurable_comp_iff.mp hS.meas
  have hu : Measurable fun w : Rand E D => (canonical (F := ℝ) w).1 := measurable_fst.comp h.canonical_meas
  have hG2 : ∀ a', Measurable fun t : NucleonData ℝ × Rand E D => f a' t.1 (canonical (F := ℝ) t.2).1 := fun a' =>
    hf.comp (measurable_const.prodMk (measurable_fst.prodMk (hu.comp measurable_snd)))
  have hI2 : ∀ a', Inv μ fun t : NucleonData ℝ × Rand E D => f a' t.1 (canonical (F := ℝ) t.2).1 := fun a' b' i j =>
    (renews_canonical (Y := Unit) h).const () (f := fun u => f a' b' u) (hf.comp (measurable_const.prodMk (measurable_const.prodMk measurable_id))) i j
  have l2 : ∀ a' i j, ∫⁻ w, f a' (nc.sampleConstituents b w).1 (canonical (F := ℝ) (nc.sampleConstituents b w).2).1 ∂(μ i) =
      ∫⁻ w, (∫⁻ w', f a' (nc.sampleConstituents b w).1 (canonical (F := ℝ) w').1 ∂(μ j)) ∂(μ j) := fun a' i j => hS.law b _ (hG2 a') (hI2 a') i j j
  have hG1 : Measurable fun t : NucleonData ℝ × Rand E D => f t.1 (nc.sampleConstituents b t.2).1 (canonical (F := ℝ) (nc.sampleConstituents b t.2).2).1 := by
    have k : Measurable fun t : NucleonData ℝ × Rand E D => nc.sampleConstituents b t.2 := hSm.comp (measurable_const.prodMk measurable_snd)
    exact hf.comp (measurable_fst.prodMk ((measurable_fst.comp k).prodMk (hu.comp (measurable_snd.comp k))))
  have l1 := hS.law a _ hG1 (fun a' i j => (l2 a' i i).trans (l2 a' j i).symm) i i i
  refine Eq.trans l1 ?_
  exact lintegral_congr fun w => l2 (nc.sampleConstituents a w).1 i i

omit h in
/-- put two nucleons into slots -/
def putSlots (x : Slots ι) (p : ι × ι) (a b : NucleonData ℝ) : Slots ι := (Function.update (Function.update x.1 p.1 a) p.2 b, x.2)

omit h in
theorem putSlots_meas (x : Slots ι) (p : ι × ι) : Measurable fun q : NucleonData ℝ × NucleonData ℝ => putSlots x p q.1 q.2 := by
  have k1 : Measurable fun q : NucleonData ℝ × NucleonData ℝ => Function.update x.1 p.1 q.1 := measurable_update'.comp (measurable_const.prodMk measurable_fst)
  exact (measurable_update'.comp (k1.prodMk measurable_snd)).prodMk measurable_const

theorem mean_step (nc : NucleonCommon ℝ) {p : ι × ι} (hp : p.1 ≠ p.2) {x : Slots ι} (hx : FitSlots x) {g : Slots ι → ℝ≥0∞} (hg : Measurable g) (i : I) :
    ∫⁻ w, g (stepS nc nc.calcNcoll p x w).1 ∂(μ i) = meanPair (μ i) nc nc.calcNcoll p g x := by
  have := h.prob
  cases h1 : ((x.1 p.1).isParticipant && (x.1 p.2).isParticipant && !nc.calcNcoll)
  · cases h2 : farSlots nc p x
    · simp only [step_near hp h1 h2, meanPair, h2, Bool.false_eq_true, if_false]
      refine (mean_three h nc (a := x.1 p.1) (b := x.1 p.2) (f := fun a b u => g (decideSlots nc nc.calcNcoll p (putSlots x p a b) u)) ?_ i).trans ?_
      · exact hg.comp ((decideSlots_meas nc _ p).comp (((putSlots_meas x p).comp (measurable_fst.prodMk (measurable_fst.comp measurable_snd))).prodMk (measurable_snd.comp measurable_snd)))
      · refine lintegral_congr fun w => lintegral_congr fun w' => lintegral_congr fun w'' => ?_
        simp only [drawSlot, putSlots, Function.update_of_ne hp.symm]
    · simp only [step_far h1 h2, meanPair, h2, if_true, lintegral_const, measure_univ, mul_one]
  · simp only [step_short hx h1, lintegral_const, measure_univ, mul_one, meanPair]
    split
    · rfl
    · have h1' := h1
      simp only [Bool.and_eq_true, Bool.not_eq_true'] at h1
      have e1 := (hx p.1 h1.1.1).1
      have e2 := (hx p.2 h1.1.2).1
      simp only [meanDraw, meanDecide, drawSlot_id nc e1, drawSlot_id nc e2, decide_short nc hx h1', lintegral_const, measure_univ, mul_one]

omit h in
theorem meanPair_swap' (ν : Measure (Rand E D)) (nc : NucleonCommon ℝ) (cn : Bool) (p : ι × ι) (g : Slots ι → ℝ≥0∞) (x : Slots ι) :
    meanPair ν nc cn p.swap g x = if farSlots nc p x then g x else meanDraw ν nc p.2 (meanDraw ν nc p.1 (meanDecide ν nc cn p g)) x := by
  have e : meanDecide ν nc cn p.swap g = meanDecide ν nc cn p g := by
    funext y
    simp only [meanDecide, decide_swap]
  simp only [meanPair, far_swap, e, Prod.fst_swap, Prod.snd_swap]

theorem meanPair_swap (nc : NucleonCommon ℝ) (cn : Bool) (p : ι × ι) {g : Slots ι → ℝ≥0∞} (hg : Measurable g) (x : Slots ι) (i : I) :
    meanPair (μ i) nc cn p.swap g x = meanPair (μ i) nc cn p g x := by
  rw [meanPair_swap', meanPair, meanDraw_comm h nc p.2 p.1 (meanDecide_meas h nc cn p hg i)]

/-- the order of the pairs does not matter -/
theorem mean_perm (nc : NucleonCommon ℝ) {L L' : List (ι × ι)} (hL : L.Perm L') (hne : ∀ p ∈ L, p.1 ≠ p.2) {g : Slots ι → ℝ≥0∞} (hg : Measurable g)
    {x : Slots ι} (hx : FitSlots x) (i : I) :
    ∫⁻ w, g (loopS nc nc.calcNcoll L x w).1 ∂(μ i) = ∫⁻ w, g (loopS nc nc.calcNcoll L' x w).1 ∂(μ i) := by
  induction hL generalizing x with
  | nil => rfl
  | cons p hL ih =>
    rw [mean_loopS_cons h nc _ p _ hg, mean_loopS_cons h nc _ p _ hg]
    exact lintegral_congr fun w => ih (fun q hq => hne q (List.mem_cons_of_mem _ hq)) (fit_step (hne p (by simp)) hx w)
  | swap p q L =>
    have hp : p.1 ≠ p.2 := hne p (by simp)
    have hq : q.1 ≠ q.2 := hne q (by simp)
    have M := mean_meas h nc nc.calcNcoll L hg i
    have key : ∀ p q : ι × ι, p.1 ≠ p.2 → q.1 ≠ q.2 → ∫⁻ w, g (loopS nc nc.calcNcoll (q :: p :: L) x w).1 ∂(μ i) =
        meanPair (μ i) nc nc.calcNcoll q (meanPair (μ i) nc nc.calcNcoll p fun y => ∫⁻ w, g (loopS nc nc.calcNcoll L y w).1 ∂(μ i)) x := by
      intro p q hp hq
      rw [mean_loopS_cons h nc _ q _ hg, ← mean_step h nc hq hx (meanPair_meas h nc _ p M i)]
      refine lintegral_congr fun w => ?_
      rw [mean_loopS_cons h nc _ p _ hg]
      exact mean_step h nc hp (fit_step hq hx w) M i
    rw [key p q hp hq, key q p hq hp]
    exact meanPair_comm h nc _ q p M x i
  | trans h1 h2 ih1 ih2 => exact (ih1 hne hx).trans (ih2 (fun p hp => hne p (h1.mem_iff.mpr hp)) hx)

/-- nor does the order in a pair -/
theorem mean_swaps (nc : NucleonCommon ℝ) (L : List (ι × ι)) (hne : ∀ p ∈ L, p.1 ≠ p.2) {g : Slots ι → ℝ≥0∞} (hg : Measurable g)
    {x : Slots ι} (hx : FitSlots x) (i : I) :
    ∫⁻ w, g (loopS nc nc.calcNcoll (L.map Prod.swap) x w).1 ∂(μ i) = ∫⁻ w, g (loopS nc nc.calcNcoll L x w).1 ∂(μ i) := by
  induction L generalizing x with
  | nil => rfl
  | cons p L ih =>
    have hp : p.1 ≠ p.2 := hne p (by simp)
    have hne' : ∀ q ∈ L, q.1 ≠ q.2 := fun q hq => hne q (List.mem_cons_of_mem _ hq)
    have M := mean_meas h nc nc.calcNcoll L hg i
    rw [List.map_cons, mean_loopS_cons h nc _ _ _ hg, mean_loopS_cons h nc _ p _ hg, mean_step h nc hp hx M, ← meanPair_swap h nc _ p M x i,
      ← mean_step h nc (p := p.swap) hp.symm hx M]
    exact lintegral_congr fun w => ih hne' (fit_step (p := p.swap) hp.symm hx w)

/-- The double loop with the nuclei exchanged has the law of the double loop. -/
theorem pairLoop_exchange (nc : NucleonCommon ℝ) (As Bs : List (NucleonData ℝ)) (hA : ∀ a ∈ As, a.isParticipant = false) (hB : ∀ b ∈ Bs, b.isParticipant = false)
    (n : ℕ) (c : Bool) {g : List (NucleonData ℝ) × List (NucleonData ℝ) × ℕ × Bool → ℝ≥0∞} (hg : Measurable g) (i : I) :
    ∫⁻ w, g (pairLoop nc nc.calcNcoll Bs As n c w).1 ∂(μ i) =
      ∫⁻ w, (fun r => g (r.2.1, r.1, r.2.2)) (pairLoop nc nc.calcNcoll As Bs n c w).1 ∂(μ i) := by
  let s : Fin As.length ⊕ Fin Bs.length → NucleonData ℝ := Sum.elim As.get Bs.get
  let K : List (Fin As.length ⊕ Fin Bs.length) := (List.finRange As.length).map Sum.inl
  let J : List (Fin As.length ⊕ Fin Bs.length) := (List.finRange Bs.length).map Sum.inr
  have hK : K.Nodup := (List.nodup_finRange _).map Sum.inl_injective
  have hJ : J.Nodup := (List.nodup_finRange _).map Sum.inr_injective
  have hd : ∀ k ∈ K, k ∉ J := by
    intro k hk hk'
    obtain ⟨a, -, rfl⟩ := List.mem_map.mp hk
    obtain ⟨b, -, hb⟩ := List.mem_map.mp hk'
    cases hb
  have hd' : ∀ k ∈ J, k ∉ K := fun k hk hk' => hd k hk' hk
  have eA : K.map s = As := by
    simp only [K, List.map_map]
    show (List.finRange As.length).map As.get = As
    exact List.map_get_finRange As
  have eB : J.map s = Bs := by
    simp only [J, List.map_map]
    show (List.finRange Bs.length).map Bs.get = Bs
    exact List.map_get_finRange Bs
  let x : Slots (Fin As.length ⊕ Fin Bs.length) := (s, n, c)
  have hx : FitSlots x := by
    intro m hm
    exfalso
    rcases m with m | m
    · have := hA (As.get m) (List.get_mem _ _)
      simp [x, s] at hm this
      rw [hm] at this; cases this
    · have := hB (Bs.get m) (List.get_mem _ _)
      simp [x, s] at hm this
      rw [hm] at this; cases this
  have p1 : ∀ w : Rand E D, pairLoop nc nc.calcNcoll Bs As n c w = ((J.map (loopS nc nc.calcNcoll (J ×ˢ K) x w).1.1, K.map (loopS nc nc.calcNcoll (J ×ˢ K) x w).1.1,
      (loopS nc nc.calcNcoll (J ×ˢ K) x w).1.2), (loopS nc nc.calcNcoll (J ×ˢ K) x w).2) := by
    intro w
    have := pairLoop_slots nc nc.calcNcoll J K hJ hK hd' x w
    rw [show K.map x.1 = As from eA, show J.map x.1 = Bs from eB] at this
    exact this
  have p2 : ∀ w : Rand E D, pairLoop nc nc.calcNcoll As Bs n c w = ((K.map (loopS nc nc.calcNcoll (K ×ˢ J) x w).1.1, J.map (loopS nc nc.calcNcoll (K ×ˢ J) x w).1.1,
      (loopS nc nc.calcNcoll (K ×ˢ J) x w).1.2), (loopS nc nc.calcNcoll (K ×ˢ J) x w).2) := by
    intro w
    have := pairLoop_slots nc nc.calcNcoll K J hK hJ hd x w
    rw [show K.map x.1 = As from eA, show J.map x.1 = Bs from eB] at this
    exact this
  simp only [p1, p2]
  have hml : ∀ L : List (Fin As.length ⊕ Fin Bs.length), Measurable fun y : Slots (Fin As.length ⊕ Fin Bs.length) => L.map y.1 := by
    intro L
    induction L with
    | nil => exact measurable_const
    | cons l L ih => exact Measurable.cons ((measurable_pi_apply l).comp measurable_fst) ih
  have hG : Measurable fun y : Slots (Fin As.length ⊕ Fin Bs.length) => g (J.map y.1, K.map y.1, y.2) :=
    hg.comp ((hml J).prodMk ((hml K).prodMk measurable_snd))
  have hne : ∀ p ∈ (K ×ˢ J : List (_ × _)), p.1 ≠ p.2 := by
    intro p hp e
    obtain ⟨h1, h2⟩ := List.mem_product.mp hp
    exact hd _ h1 (e ▸ h2)
  have hperm : ((J ×ˢ K : List (_ × _))).Perm ((K ×ˢ J : List (_ × _)).map Prod.swap) := by
    refine (List.perm_ext_iff_of_nodup (hJ.product hK) ((hK.product hJ).map Prod.swap_injective)).mpr fun p => ?_
    constructor
    · intro hp
      obtain ⟨h1, h2⟩ := List.mem_product.mp hp
      exact List.mem_map.mpr ⟨p.swap, List.mem_product.mpr ⟨h2, h1⟩, Prod.swap_swap p⟩
    · intro hp
      obtain ⟨q, hq, rfl⟩ := List.mem_map.mp hp
      obtain ⟨h1, h2⟩ := List.mem_product.mp hq
      exact List.mem_product.mpr ⟨h2, h1⟩
  have hne2 : ∀ p ∈ (J ×ˢ K : List (_ × _)), p.1 ≠ p.2 := by
    intro p hp e
    obtain ⟨h1, h2⟩ := List.mem_product.mp hp
    exact hd _ (e ▸ h2) h1
  exact (mean_perm h nc hperm hne2 hG hx i).trans (mean_swaps h nc _ hne hG hx i)

end
end Trento
