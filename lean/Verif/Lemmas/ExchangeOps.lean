import Verif.Lemmas.Exchange

/-! # Steps on pairs commute in law -/

namespace Trento
open MeasureTheory Set Spec
open scoped ENNReal

variable {E D : Type} [Rng ℝ E D] {ι : Type} [DecidableEq ι]

/-- draw the constituents of a slot -/
noncomputable def drawSlot (nc : NucleonCommon ℝ) (m : ι) (x : Slots ι) (w : Rand E D) : Slots ι := (Function.update x.1 m (nc.sampleConstituents (x.1 m) w).1, x.2)

/-- decide a pair with a uniform random number -/
noncomputable def decideSlots (nc : NucleonCommon ℝ) (cn : Bool) (p : ι × ι) (x : Slots ι) (u : ℝ) : Slots ι :=
  if lt (nc.oneMinusProb (overlapSum nc.constituentWidthSq (x.1 p.1).constituents (x.1 p.2).constituents)) u then
    (fun m => if m = p.1 ∨ m = p.2 then (x.1 m).setParticipant else x.1 m, (if cn then x.2.1 + 1 else x.2.1), true)
  else x

/-- the nucleons are too far apart -/
noncomputable def farSlots (nc : NucleonCommon ℝ) (p : ι × ι) (x : Slots ι) : Bool :=
  lt nc.maxImpactSq (sqr ((x.1 p.1).x - (x.1 p.2).x) + sqr ((x.1 p.1).y - (x.1 p.2).y))

/-- both have constituents -/
def BothExist (p : ι × ι) (x : Slots ι) : Prop := (x.1 p.1).constituentsExist = true ∧ (x.1 p.2).constituentsExist = true

omit [Rng ℝ E D] [DecidableEq ι] in
theorem setParticipant_x (n : NucleonData ℝ) : n.setParticipant.x = n.x := by unfold NucleonData.setParticipant; split <;> rfl
omit [Rng ℝ E D] [DecidableEq ι] in
theorem setParticipant_y (n : NucleonData ℝ) : n.setParticipant.y = n.y := by unfold NucleonData.setParticipant; split <;> rfl
omit [Rng ℝ E D] [DecidableEq ι] in
theorem setParticipant_cs (n : NucleonData ℝ) : n.setParticipant.constituents = n.constituents := by unfold NucleonData.setParticipant; split <;> rfl
omit [Rng ℝ E D] [DecidableEq ι] in
theorem setParticipant_exist (n : NucleonData ℝ) : n.setParticipant.constituentsExist = n.constituentsExist := by unfold NucleonData.setParticipant; split <;> rfl
omit [Rng ℝ E D] [DecidableEq ι] in
theorem setParticipant_part (n : NucleonData ℝ) : n.setParticipant.isParticipant = true := by
  unfold NucleonData.setParticipant; split <;> simp_all
omit [Rng ℝ E D] [DecidableEq ι] in
theorem setParticipant_idem (n : NucleonData ℝ) : n.setParticipant.setParticipant = n.setParticipant := by
  unfold NucleonData.setParticipant; split <;> simp_all
theorem sampleConstituents_x (nc : NucleonCommon ℝ) (n : NucleonData ℝ) (w : Rand E D) : (nc.sampleConstituents n w).1.x = n.x := by
  unfold NucleonCommon.sampleConstituents; split <;> rfl
theorem sampleConstituents_y (nc : NucleonCommon ℝ) (n : NucleonData ℝ) (w : Rand E D) : (nc.sampleConstituents n w).1.y = n.y := by
  unfold NucleonCommon.sampleConstituents; split <;> rfl
theorem sampleConstituents_part (nc : NucleonCommon ℝ) (n : NucleonData ℝ) (w : Rand E D) : (nc.sampleConstituents n w).1.isParticipant = n.isParticipant := by
  unfold NucleonCommon.sampleConstituents; split <;> rfl
theorem sampleConstituents_has (nc : NucleonCommon ℝ) (n : NucleonData ℝ) (w : Rand E D) : (nc.sampleConstituents n w).1.constituentsExist = true := by
  unfold NucleonCommon.sampleConstituents; split <;> simp_all
theorem sampleConstituents_id (nc : NucleonCommon ℝ) {n : NucleonData ℝ} (hn : n.constituentsExist = true) (w : Rand E D) : (nc.sampleConstituents n w).1 = n := by
  unfold NucleonCommon.sampleConstituents; simp [hn]

theorem drawSlot_id (nc : NucleonCommon ℝ) {m : ι} {x : Slots ι} (hm : (x.1 m).constituentsExist = true) (w : Rand E D) : drawSlot nc m x w = x := by
  simp [drawSlot, sampleConstituents_id nc hm]

theorem drawSlot_at (nc : NucleonCommon ℝ) (m : ι) (x : Slots ι) (w : Rand E D) : ((drawSlot nc m x w).1 m).constituentsExist = true := by
  simp [drawSlot, sampleConstituents_has]

theorem drawSlot_keep (nc : NucleonCommon ℝ) (m k : ι) (x : Slots ι) (w : Rand E D) (hk : (x.1 k).constituentsExist = true) :
    ((drawSlot nc m x w).1 k).constituentsExist = true := by
  by_cases e : k = m
  · subst e; exact drawSlot_at nc k x w
  · simpa [drawSlot, Function.update_of_ne e] using hk

theorem far_draw (nc : NucleonCommon ℝ) (p : ι × ι) (m : ι) (x : Slots ι) (w : Rand E D) : farSlots nc p (drawSlot nc m x w) = farSlots nc p x := by
  have hx : ∀ k, ((drawSlot nc m x w).1 k).x = (x.1 k).x := by
    intro k
    by_cases e : k = m
    · subst e; simp [drawSlot, sampleConstituents_x]
    · simp [drawSlot, Function.update_of_ne e]
  have hy : ∀ k, ((drawSlot nc m x w).1 k).y = (x.1 k).y := by
    intro k
    by_cases e : k = m
    · subst e; simp [drawSlot, sampleConstituents_y]
    · simp [drawSlot, Function.update_of_ne e]
  simp only [farSlots, hx, hy]

omit [Rng ℝ E D] in
theorem far_decide (nc : NucleonCommon ℝ) (cn : Bool) (p q : ι × ι) (x : Slots ι) (u : ℝ) : farSlots nc p (decideSlots nc cn q x u) = farSlots nc p x := by
  unfold decideSlots
  split
  · have hx : ∀ k, (if k = q.1 ∨ k = q.2 then (x.1 k).setParticipant else x.1 k).x = (x.1 k).x := by
      intro k; split <;> simp [setParticipant_x]
    have hy : ∀ k, (if k = q.1 ∨ k = q.2 then (x.1 k).setParticipant else x.1 k).y = (x.1 k).y := by
      intro k; split <;> simp [setParticipant_y]
    simp only [farSlots, hx, hy]
  · rfl

theorem draw_comm (nc : NucleonCommon ℝ) {m k : ι} (hmk : m ≠ k) (x : Slots ι) (w w' : Rand E D) :
    drawSlot nc m (drawSlot nc k x w) w' = drawSlot nc k (drawSlot nc m x w') w := by
  simp only [drawSlot, Function.update_of_ne hmk, Function.update_of_ne hmk.symm]
  rw [Function.update_comm hmk]

omit [Rng ℝ E D] in
theorem decide_comm (nc : NucleonCommon ℝ) (cn : Bool) (p q : ι × ι) (x : Slots ι) (u v : ℝ) :
    decideSlots nc cn p (decideSlots nc cn q x u) v = decideSlots nc cn q (decideSlots nc cn p x v) u := by
  have hcs : ∀ (q : ι × ι) (u : ℝ) (k : ι), ((decideSlots nc cn q x u).1 k).constituents = (x.1 k).constituents := by
    intro q u k
    unfold decideSlots
    split
    · dsimp only; split <;> simp [setParticipant_cs]
    · rfl
  have hc : ∀ (p q : ι × ι) (u v : ℝ), decideSlots nc cn p (decideSlots nc cn q x u) v =
      if lt (nc.oneMinusProb (overlapSum nc.constituentWidthSq (x.1 p.1).constituents (x.1 p.2).constituents)) v then
        (fun m => if m = p.1 ∨ m = p.2 then ((decideSlots nc cn q x u).1 m).setParticipant else (decideSlots nc cn q x u).1 m,
          (if cn then (decideSlots nc cn q x u).2.1 + 1 else (decideSlots nc cn q x u).2.1), true)
      else decideSlots nc cn q x u := by
    intro p q u v
    rw [decideSlots, hcs, hcs]
  rw [hc p q u v, hc q p v u]
  unfold decideSlots
  split <;> rename_i h1 <;> split <;> rename_i h2
  · simp only [Prod.mk.injEq, and_true]
    refine funext fun m => ?_
    split <;> rename_i h3 <;> split <;> rename_i h4 <;> simp [setParticipant_idem]
  all_goals rfl

theorem draw_decide (nc : NucleonCommon ℝ) (cn : Bool) (p : ι × ι) (m : ι) {x : Slots ι} (hx : BothExist p x) (w : Rand E D) (u : ℝ) :
    drawSlot nc m (decideSlots nc cn p x u) w = decideSlots nc cn p (drawSlot nc m x w) u := by
  by_cases e : m = p.1 ∨ m = p.2
  · have hm : (x.1 m).constituentsExist = true := by
      rcases e with rfl | rfl
      · exact hx.1
      · exact hx.2
    have hm' : ((decideSlots nc cn p x u).1 m).constituentsExist = true := by
      unfold decideSlots
      split
      · dsimp only; split <;> simpa [setParticipant_exist] using hm
      · exact hm
    rw [drawSlot_id nc hm, drawSlot_id nc hm']
  · have e1 : p.1 ≠ m := fun h => e (Or.inl h.symm)
    have e2 : p.2 ≠ m := fun h => e (Or.inr h.symm)
    have h1 : (drawSlot nc m x w).1 p.1 = x.1 p.1 := by simp [drawSlot, Function.update_of_ne e1]
    have h2 : (drawSlot nc m x w).1 p.2 = x.1 p.2 := by simp [drawSlot, Function.update_of_ne e2]
    unfold decideSlots
    rw [h1, h2]
    split
    · simp only [drawSlot, if_neg e, Prod.mk.injEq, and_true]
      refine funext fun k => ?_
      by_cases hk : k = m
      · subst hk; simp [e]
      · simp [Function.update_of_ne hk]
    · rfl

theorem both_draw (nc : NucleonCommon ℝ) (p : ι × ι) (m : ι) {x : Slots ι} (hx : BothExist p x) (w : Rand E D) : BothExist p (drawSlot nc m x w) :=
  ⟨drawSlot_keep nc m _ x w hx.1, drawSlot_keep nc m _ x w hx.2⟩

/-! ### Means -/

variable [MeasurableSpace E] [MeasurableSpace D] {I : Type} {μ : I → Measure (Rand E D)}

/-- mean over the constituents of a slot -/
noncomputable def meanDraw (ν : Measure (Rand E D)) (nc : NucleonCommon ℝ) (m : ι) (g : Slots ι → ℝ≥0∞) (x : Slots ι) : ℝ≥0∞ := ∫⁻ w, g (drawSlot nc m x w) ∂ν

/-- mean over the decision on a pair -/
noncomputable def meanDecide (ν : Measure (Rand E D)) (nc : NucleonCommon ℝ) (cn : Bool) (p : ι × ι) (g : Slots ι → ℝ≥0∞) (x : Slots ι) : ℝ≥0∞ :=
  ∫⁻ w, g (decideSlots nc cn p x (canonical (F := ℝ) w).1) ∂ν

section
variable (h : FreshSource E D μ)
include h

theorem drawSlot_meas (nc : NucleonCommon ℝ) (m : ι) : Measurable fun t : Slots ι × Rand E D => drawSlot nc m t.1 t.2 := by
  have h1 : Measurable fun p : NucleonData ℝ × Rand E D => nc.sampleConstituents p.1 p.2 := embedding_ok.measurable_comp_iff.mp (renews_sampleConstituents h nc).meas
  have hap : Measurable fun t : Slots ι × Rand E D => t.1.1 m := (measurable_pi_apply m).comp (measurable_fst.comp measurable_fst)
  have h2 : Measurable fun t : Slots ι × Rand E D => (nc.sampleConstituents (t.1.1 m) t.2).1 := measurable_fst.comp (h1.comp (hap.prodMk measurable_snd))
  exact (measurable_update'.comp ((measurable_fst.comp measurable_fst).prodMk h2)).prodMk (measurable_snd.comp measurable_fst)

omit h in
theorem decideSlots_meas (nc : NucleonCommon ℝ) (cn : Bool) (p : ι × ι) : Measurable fun t : Slots ι × ℝ => decideSlots nc cn p t.1 t.2 := by
  have hap : ∀ k : ι, Measurable fun t : Slots ι × ℝ => t.1.1 k := fun k => (measurable_pi_apply k).comp (measurable_fst.comp measurable_fst)
  have h1 : Measurable fun t : Slots ι × ℝ => overlapSum nc.constituentWidthSq (t.1.1 p.1).constituents (t.1.1 p.2).constituents :=
    overlapSum_meas _ (nucleon_cs.comp (hap p.1)) (nucleon_cs.comp (hap p.2))
  have ho : Measurable fun t : Slots ι × ℝ => nc.oneMinusProb (overlapSum nc.constituentWidthSq (t.1.1 p.1).constituents (t.1.1 p.2).constituents) :=
    Real.measurable_exp.comp (h1.const_mul _)
  have hd : Measurable fun t : Slots ι × ℝ => lt (nc.oneMinusProb (overlapSum nc.constituentWidthSq (t.1.1 p.1).constituents (t.1.1 p.2).constituents)) t.2 := by
    simp only [lt_real]
    exact measurable_decide' (measurableSet_lt ho measurable_snd)
  unfold decideSlots
  refine Measurable.ite (hd (measurableSet_singleton true)) ?_ measurable_fst
  refine Measurable.prodMk ?_ (Measurable.prodMk ((measurable_of_countable fun n : ℕ => if cn then n + 1 else n).comp (by fun_prop)) measurable_const)
  refine measurable_pi_iff.2 fun m => ?_
  by_cases e : m = p.1 ∨ m = p.2
  · simp only [if_pos e]; exact setParticipant_meas (hap m)
  · simp only [if_neg e]; exact hap m

theorem decideW_meas (nc : NucleonCommon ℝ) (cn : Bool) (p : ι × ι) : Measurable fun t : Slots ι × Rand E D => decideSlots nc cn p t.1 (canonical (F := ℝ) t.2).1 :=
  (decideSlots_meas nc cn p).comp (measurable_fst.prodMk (measurable_fst.comp (h.canonical_meas.comp measurable_snd)))

theorem meanDraw_meas (nc : NucleonCommon ℝ) (m : ι) {g : Slots ι → ℝ≥0∞} (hg : Measurable g) (i : I) : Measurable (meanDraw (μ i) nc m g) := by
  have := h.prob
  exact (hg.comp (drawSlot_meas h nc m)).lintegral_prod_right'

theorem meanDecide_meas (nc : NucleonCommon ℝ) (cn : Bool) (p : ι × ι) {g : Slots ι → ℝ≥0∞} (hg : Measurable g) (i : I) : Measurable (meanDecide (μ i) nc cn p g) := by
  have := h.prob
  exact (hg.comp (decideW_meas h nc cn p)).lintegral_prod_right'

omit h [Rng ℝ E D] [DecidableEq ι] in
/-- two independent random transformations that commute -/
theorem mean_comm (ν : Measure (Rand E D)) [SFinite ν] {a b : Slots ι → Rand E D → Slots ι} (ha : Measurable fun t : Slots ι × Rand E D => a t.1 t.2)
    (hb : Measurable fun t : Slots ι × Rand E D => b t.1 t.2) (x : Slots ι) (hc : ∀ w w', a (b x w) w' = b (a x w') w) {g : Slots ι → ℝ≥0∞} (hg : Measurable g) :
    ∫⁻ w, (∫⁻ w', g (a (b x w) w') ∂ν) ∂ν = ∫⁻ w, (∫⁻ w', g (b (a x w) w') ∂ν) ∂ν := by
  rw [lintegral_lintegral_swap]
  · refine lintegral_congr fun w => lintegral_congr fun w' => ?_
    rw [hc]
  · have hbx : Measurable fun w => b x w := hb.comp (measurable_const.prodMk measurable_id)
    exact ((hg.comp ha).comp ((hbx.comp measurable_fst).prodMk measurable_snd)).aemeasurable

theorem meanDraw_comm (nc : NucleonCommon ℝ) (m k : ι) {g : Slots ι → ℝ≥0∞} (hg : Measurable g) (x : Slots ι) (i : I) :
    meanDraw (μ i) nc m (meanDraw (μ i) nc k g) x = meanDraw (μ i) nc k (meanDraw (μ i) nc m g) x := by
  have := h.prob
  by_cases e : m = k
  · rw [e]
  · exact mean_comm (μ i) (drawSlot_meas h nc k) (drawSlot_meas h nc m) x (fun w w' => draw_comm nc (Ne.symm e) x w w') hg

theorem meanDecide_comm (nc : NucleonCommon ℝ) (cn : Bool) (p q : ι × ι) {g : Slots ι → ℝ≥0∞} (hg : Measurable g) (x : Slots ι) (i : I) :
    meanDecide (μ i) nc cn p (meanDecide (μ i) nc cn q g) x = meanDecide (μ i) nc cn q (meanDecide (μ i) nc cn p g) x := by
  have := h.prob
  exact mean_comm (μ i) (a := fun x w => decideSlots nc cn q x (canonical (F := ℝ) w).1) (b := fun x w => decideSlots nc cn p x (canonical (F := ℝ) w).1)
    (decideW_meas h nc cn q) (decideW_meas h nc cn p) x (fun w w' => decide_comm nc cn q p x _ _) hg

theorem meanDraw_decide (nc : NucleonCommon ℝ) (cn : Bool) (p : ι × ι) (m : ι) {g : Slots ι → ℝ≥0∞} (hg : Measurable g) {x : Slots ι} (hx : BothExist p x) (i : I) :
    meanDecide (μ i) nc cn p (meanDraw (μ i) nc m g) x = meanDraw (μ i) nc m (meanDecide (μ i) nc cn p g) x := by
  have := h.prob
  exact mean_comm (μ i) (a := drawSlot nc m) (b := fun x w => decideSlots nc cn p x (canonical (F := ℝ) w).1) (drawSlot_meas h nc m) (decideW_meas h nc cn p) x (fun w w' => draw_decide nc cn p m hx w' _) hg

omit h in
/-- only states with constituents matter after drawing them -/
theorem meanDraw_congr (ν : Measure (Rand E D)) (nc : NucleonCommon ℝ) (p : ι × ι) (m : ι) {f g : Slots ι → ℝ≥0∞} (hfg : ∀ y, BothExist p y → f y = g y) {x : Slots ι}
    (hx : BothExist p x) : meanDraw ν nc m f x = meanDraw ν nc m g x :=
  lintegral_congr fun w => hfg _ (both_draw nc p m hx w)

omit h in
theorem meanDraws_congr (ν : Measure (Rand E D)) (nc : NucleonCommon ℝ) (p : ι × ι) {f g : Slots ι → ℝ≥0∞} (hfg : ∀ y, BothExist p y → f y = g y) (x : Slots ι) :
    meanDraw ν nc p.1 (meanDraw ν nc p.2 f) x = meanDraw ν nc p.1 (meanDraw ν nc p.2 g) x := by
  refine lintegral_congr fun w => lintegral_congr fun w' => hfg _ ?_
  exact ⟨drawSlot_keep nc p.2 p.1 _ w' (drawSlot_at nc p.1 x w), drawSlot_at nc p.2 _ w'⟩

omit h in
/-- mean over a pair -/
noncomputable def meanPair (ν : Measure (Rand E D)) (nc : NucleonCommon ℝ) (cn : Bool) (p : ι × ι) (g : Slots ι → ℝ≥0∞) (x : Slots ι) : ℝ≥0∞ :=
  if farSlots nc p x then g x else meanDraw ν nc p.1 (meanDraw ν nc p.2 (meanDecide ν nc cn p g)) x

omit h [DecidableEq ι] in
theorem farSlots_meas (nc : NucleonCommon ℝ) (p : ι × ι) : Measurable (farSlots nc p) := by
  have hap : ∀ k : ι, Measurable fun t : Slots ι => t.1 k := fun k => (measurable_pi_apply k).comp measurable_fst
  unfold farSlots
  simp only [lt_real, sqr_real]
  exact measurable_decide' (measurableSet_lt measurable_const ((((nucleon_x.comp (hap p.1)).sub (nucleon_x.comp (hap p.2))).pow_const 2).add
    (((nucleon_y.comp (hap p.1)).sub (nucleon_y.comp (hap p.2))).pow_const 2)))

theorem meanPair_meas (nc : NucleonCommon ℝ) (cn : Bool) (p : ι × ι) {g : Slots ι → ℝ≥0∞} (hg : Measurable g) (i : I) : Measurable (meanPair (μ i) nc cn p g) :=
  Measurable.ite ((farSlots_meas nc p) (measurableSet_singleton true)) hg (meanDraw_meas h nc _ (meanDraw_meas h nc _ (meanDecide_meas h nc cn p hg i) i) i)

omit h in
/-- what a mean over a pair does to a far pair -/
theorem meanPair_far (ν : Measure (Rand E D)) (nc : NucleonCommon ℝ) (cn : Bool) (p q : ι × ι) {f g : Slots ι → ℝ≥0∞} {x : Slots ι} {b : Bool} (hx : farSlots nc q x = b)
    (hfg : ∀ y, farSlots nc q y = b → f y = g y) : meanPair ν nc cn p f x = meanPair ν nc cn p g x := by
  unfold meanPair
  split
  · exact hfg x hx
  · refine lintegral_congr fun w => lintegral_congr fun w' => lintegral_congr fun w'' => hfg _ ?_
    rw [far_decide, far_draw, far_draw, hx]

theorem meanPair_comm (nc : NucleonCommon ℝ) (cn : Bool) (p q : ι × ι) {g : Slots ι → ℝ≥0∞} (hg : Measurable g) (x : Slots ι) (i : I) :
    meanPair (μ i) nc cn p (meanPair (μ i) nc cn q g) x = meanPair (μ i) nc cn q (meanPair (μ i) nc cn p g) x := by
  have := h.prob
  have hq1 : farSlots nc q x = true → meanPair (μ i) nc cn p (meanPair (μ i) nc cn q g) x = meanPair (μ i) nc cn p g x :=
    fun e => meanPair_far (μ i) nc cn p q e fun y hy => by simp only [meanPair, hy, if_true]
  have hp1 : farSlots nc p x = true → meanPair (μ i) nc cn q (meanPair (μ i) nc cn p g) x = meanPair (μ i) nc cn q g x :=
    fun e => meanPair_far (μ i) nc cn q p e fun y hy => by simp only [meanPair, hy, if_true]
  have near : ∀ p q : ι × ι, farSlots nc p x = false → farSlots nc q x = false → meanPair (μ i) nc cn p (meanPair (μ i) nc cn q g) x =
      meanDraw (μ i) nc p.1 (meanDraw (μ i) nc p.2 (meanDraw (μ i) nc q.1 (meanDraw (μ i) nc q.2 (meanDecide (μ i) nc cn p (meanDecide (μ i) nc cn q g))))) x := by
    intro p q hp hq
    rw [meanPair_far (μ i) nc cn p q (g := meanDraw (μ i) nc q.1 (meanDraw (μ i) nc q.2 (meanDecide (μ i) nc cn q g))) hq
      fun y hy => by simp only [meanPair, hy, Bool.false_eq_true, if_false]]
    simp only [meanPair, hp, Bool.false_eq_true, if_false]
    refine meanDraws_congr (μ i) nc p (fun y hy => ?_) x
    rw [meanDraw_decide h nc cn p q.1 (meanDraw_meas h nc _ (meanDecide_meas h nc cn q hg i) i) hy i]
    exact meanDraw_congr (μ i) nc p q.1 (fun z hz => meanDraw_decide h nc cn p q.2 (meanDecide_meas h nc cn q hg i) hz i) hy
  cases hp : farSlots nc p x <;> cases hq : farSlots nc q x
  · rw [near p q hp hq, near q p hq hp]
    have e : meanDecide (μ i) nc cn q (meanDecide (μ i) nc cn p g) = meanDecide (μ i) nc cn p (meanDecide (μ i) nc cn q g) :=
      funext fun y => meanDecide_comm h nc cn q p hg y i
    rw [e]
    have hm := meanDecide_meas h nc cn p (meanDecide_meas h nc cn q hg i) i
    generalize meanDecide (μ i) nc cn p (meanDecide (μ i) nc cn q g) = f at hm
    have comm : ∀ (m k : ι) {g : Slots ι → ℝ≥0∞}, Measurable g → meanDraw (μ i) nc m (meanDraw (μ i) nc k g) = meanDraw (μ i) nc k (meanDraw (μ i) nc m g) :=
      fun m k g hg => funext fun y => meanDraw_comm h nc m k hg y i
    have M : ∀ (m : ι) {g : Slots ι → ℝ≥0∞}, Measurable g → Measurable (meanDraw (μ i) nc m g) := fun m g hg => meanDraw_meas h nc m hg i
    rw [comm p.2 q.1 (M _ hm), comm p.1 q.1 (M _ (M _ hm)), comm p.2 q.2 hm, comm p.1 q.2 (M _ hm)]
  · rw [hq1 hq]
    conv_rhs => rw [meanPair]
    simp only [hq, if_true]
  · rw [hp1 hp]
    conv_lhs => rw [meanPair]
    simp only [hp, if_true]
  · rw [hq1 hq, hp1 hp]
    simp only [meanPair, hp, hq, if_true]

end
end Trento
