import Verif.Lemmas.ReweighLaw

/-! # Drawing a weight anew after the collision -/

namespace Trento
open MeasureTheory Set Spec ProbabilityTheory
open scoped ENNReal

section
variable {E D : Type} [Rng ℝ E D] [MeasurableSpace E] [MeasurableSpace D] {I : Type} {μ : I → Measure (Rand E D)} {ι : Type} [DecidableEq ι]
variable (h : FreshSource E D μ) (G : Measure ℝ) [SFinite G]
include h

theorem meanDraw_param (nc : NucleonCommon ℝ) (m : ι) {K : ℝ → Slots ι → ℝ≥0∞} (hK : Measurable fun p : ℝ × Slots ι => K p.1 p.2) (i : I) :
    Measurable fun p : ℝ × Slots ι => meanDraw (μ i) nc m (K p.1) p.2 := by
  have := h.prob
  have hd := (drawSlot_meas h nc m).comp (f := fun t : (ℝ × Slots ι) × Rand E D => (t.1.2, t.2)) (by fun_prop)
  exact (hK.comp (f := fun t : (ℝ × Slots ι) × Rand E D => (t.1.1, drawSlot nc m t.1.2 t.2)) ((by fun_prop : Measurable fun t : (ℝ × Slots ι) × Rand E D => t.1.1).prodMk hd)).lintegral_prod_right'

theorem meanDecide_param (nc : NucleonCommon ℝ) (cn : Bool) (p : ι × ι) {K : ℝ → Slots ι → ℝ≥0∞} (hK : Measurable fun p : ℝ × Slots ι => K p.1 p.2) (i : I) :
    Measurable fun q : ℝ × Slots ι => meanDecide (μ i) nc cn p (K q.1) q.2 := by
  have := h.prob
  have hd := (decideW_meas h nc cn p).comp (f := fun t : (ℝ × Slots ι) × Rand E D => (t.1.2, t.2)) (by fun_prop)
  exact (hK.comp (f := fun t : (ℝ × Slots ι) × Rand E D => (t.1.1, decideSlots nc cn p t.1.2 (canonical (F := ℝ) t.2).1))
    ((by fun_prop : Measurable fun t : (ℝ × Slots ι) × Rand E D => t.1.1).prodMk hd)).lintegral_prod_right'

theorem meanDraw_swap (nc : NucleonCommon ℝ) (m : ι) {K : ℝ → Slots ι → ℝ≥0∞} (hK : Measurable fun p : ℝ × Slots ι => K p.1 p.2) (x : Slots ι) (i : I) :
    ∫⁻ f, meanDraw (μ i) nc m (K f) x ∂G = meanDraw (μ i) nc m (fun y => ∫⁻ f, K f y ∂G) x := by
  have := h.prob
  have hd := (drawSlot_meas h nc m).comp (f := fun t : ℝ × Rand E D => (x, t.2)) (by fun_prop)
  exact lintegral_lintegral_swap (f := fun f w => K f (drawSlot nc m x w))
    (hK.comp (f := fun t : ℝ × Rand E D => (t.1, drawSlot nc m x t.2)) (measurable_fst.prodMk hd)).aemeasurable

theorem meanDecide_swap (nc : NucleonCommon ℝ) (cn : Bool) (p : ι × ι) {K : ℝ → Slots ι → ℝ≥0∞} (hK : Measurable fun p : ℝ × Slots ι => K p.1 p.2) (x : Slots ι) (i : I) :
    ∫⁻ f, meanDecide (μ i) nc cn p (K f) x ∂G = meanDecide (μ i) nc cn p (fun y => ∫⁻ f, K f y ∂G) x := by
  have := h.prob
  have hd := (decideW_meas h nc cn p).comp (f := fun t : ℝ × Rand E D => (x, t.2)) (by fun_prop)
  exact lintegral_lintegral_swap (f := fun f w => K f (decideSlots nc cn p x (canonical (F := ℝ) w).1))
    (hK.comp (f := fun t : ℝ × Rand E D => (t.1, decideSlots nc cn p x (canonical (F := ℝ) t.2).1)) (measurable_fst.prodMk hd)).aemeasurable

theorem loopMean_param (nc : NucleonCommon ℝ) (cn : Bool) (L : List (ι × ι)) {K : ℝ → Slots ι → ℝ≥0∞} (hK : Measurable fun p : ℝ × Slots ι => K p.1 p.2) (i : I) :
    Measurable fun p : ℝ × Slots ι => ∫⁻ w, K p.1 (loopS nc cn L p.2 w).1 ∂(μ i) := by
  have := h.prob
  have hl : Measurable fun t : Slots ι × Rand E D => loopS nc cn L t.1 t.2 := embedding_ok.measurable_comp_iff.mp (renews_loopS h nc cn L).meas
  have hd := (measurable_fst.comp hl).comp (f := fun t : (ℝ × Slots ι) × Rand E D => (t.1.2, t.2)) (by fun_prop)
  exact (hK.comp (f := fun t : (ℝ × Slots ι) × Rand E D => (t.1.1, (loopS nc cn L t.1.2 t.2).1)) ((by fun_prop : Measurable fun t : (ℝ × Slots ι) × Rand E D => t.1.1).prodMk hd)).lintegral_prod_right'

end

section
variable {ι : Type} [DecidableEq ι] {nc : NucleonCommon ℝ} {k : ℝ}

/-- a draw of another slot leaves a slot -/
theorem draw_other {E D : Type} [Rng ℝ E D] (nc : NucleonCommon ℝ) {q m : ι} (hq : q ≠ m) (x : Slots ι) (w : Rand E D) : (drawSlot nc q x w).1 m = x.1 m := by
  simp [drawSlot, Function.update_of_ne hq.symm]

omit [DecidableEq ι] in
theorem decide_other [DecidableEq ι] (nc : NucleonCommon ℝ) (cn : Bool) {p : ι × ι} {m : ι} (h1 : p.1 ≠ m) (h2 : p.2 ≠ m) (x : Slots ι) (u : ℝ) : (decideSlots nc cn p x u).1 m = x.1 m := by
  unfold decideSlots
  split
  · dsimp only
    rw [if_neg]
    rintro (h | h)
    · exact h1 h.symm
    · exact h2 h.symm
  · rfl

/-- **The loop.** After the double loop over pairs, the weight of a constituent can be drawn anew. -/
theorem loop_resample (hk : GammaUnit nc k) (L : List (ι × ι)) (hL : ∀ p ∈ L, p.1 ≠ p.2) (m : ι) (j : ℕ) {g : Slots ι → ℝ≥0∞} (hg : Measurable g)
    (hinv : ∀ x f, (x.1 m).constituentsExist = false → g (reweighS m j f x) = g x) {x : Slots ι} (hx : FitSlots x) (hm : (x.1 m).constituentsExist = false) (i : LibMix) :
    ∫⁻ f, ∫⁻ w, g (reweighS m j f (loopS nc nc.calcNcoll L x w).1) ∂libMix i ∂gammaMeasure k k = ∫⁻ w, g (loopS nc nc.calcNcoll L x w).1 ∂libMix i := by
  have h := C97_fresh.1
  have hp0 : IsProbabilityMeasure (gammaMeasure k k) := isProbabilityMeasure_gammaMeasure hk.1 hk.1
  have hpr := h.prob
  have hK : Measurable fun p : ℝ × Slots ι => g (reweighS m j p.1 p.2) := hg.comp (reweighS_meas m j)
  have hKf : ∀ f : ℝ, Measurable fun y : Slots ι => g (reweighS m j f y) := fun f => hK.comp (f := fun y => (f, y)) (by fun_prop)
  induction L generalizing x with
  | nil => simp only [loopS, hinv _ _ hm, lintegral_const, measure_univ, mul_one]
  | cons p L ih =>
    have hp := hL p (by simp)
    have hL' : ∀ p ∈ L, p.1 ≠ p.2 := fun p hp => hL p (List.mem_cons_of_mem _ hp)
    have hs : ∀ {g' : Slots ι → ℝ≥0∞}, Measurable g' → ∫⁻ w, g' (loopS nc nc.calcNcoll (p :: L) x w).1 ∂libMix i =
        meanPair (libMix i) nc nc.calcNcoll p (fun y => ∫⁻ w, g' (loopS nc nc.calcNcoll L y w).1 ∂libMix i) x := by
      intro g' hg'
      rw [mean_loopS_cons h nc _ p L hg']
      exact mean_step h nc hp hx (mean_meas h nc nc.calcNcoll L hg' i) i
    rw [hs hg]
    simp only [hs (hKf _)]
    set h0 : Slots ι → ℝ≥0∞ := fun y => ∫⁻ w, g (loopS nc nc.calcNcoll L y w).1 ∂libMix i with h0d
    set hf : ℝ → Slots ι → ℝ≥0∞ := fun f y => ∫⁻ w, g (reweighS m j f (loopS nc nc.calcNcoll L y w).1) ∂libMix i with hfd
    have m0 : Measurable h0 := mean_meas h nc nc.calcNcoll L hg i
    have mf : Measurable fun p : ℝ × Slots ι => hf p.1 p.2 := loopMean_param h nc _ L (K := fun f y => g (reweighS m j f y)) hK i
    have ex : ∀ f y, (y.1 m).constituentsExist = true → hf f y = h0 (reweighS m j f y) := by
      intro f y hy
      simp only [hfd, h0d]
      refine lintegral_congr fun w => ?_
      rw [loop_revise nc _ L hL' hy (keeps_modify j f)]
    cases hfar : farSlots nc p x
    · simp only [meanPair, hfar, Bool.false_eq_true, if_false]
      have d0 := meanDecide_meas h nc nc.calcNcoll p m0 i
      have df := meanDecide_param h nc nc.calcNcoll p (K := hf) mf i
      -- the slot is drawn first, then the partner
      have two : ∀ q : ι, ∫⁻ f, meanDraw (libMix i) nc m (meanDraw (libMix i) nc q (meanDecide (libMix i) nc nc.calcNcoll p (hf f))) x ∂gammaMeasure k k =
          meanDraw (libMix i) nc m (meanDraw (libMix i) nc q (meanDecide (libMix i) nc nc.calcNcoll p h0)) x := by
        intro q
        rw [← draw_resample hk hm j (meanDraw_meas h nc q d0 i) i]
        refine lintegral_congr fun f => lintegral_congr fun w => ?_
        have hy : ((drawSlot nc m x w).1 m).constituentsExist = true := drawSlot_at nc m x w
        dsimp only [meanDraw]
        refine lintegral_congr fun w' => ?_
        rw [draw_revise nc hy]
        have hy' : ((drawSlot nc q (drawSlot nc m x w) w').1 m).constituentsExist = true := drawSlot_keep nc q m _ w' hy
        unfold meanDecide
        refine lintegral_congr fun w'' => ?_
        rw [decide_revise nc _ p m _ (keeps_modify j f)]
        refine ex f _ ?_
        unfold decideSlots
        split
        · dsimp only
          split
          · rw [setParticipant_exist]; exact hy'
          · exact hy'
        · exact hy'
      by_cases e1 : p.1 = m
      · rw [e1]; exact two p.2
      · by_cases e2 : p.2 = m
        · rw [e2, meanDraw_comm h nc p.1 m d0 x i, ← two p.1]
          refine lintegral_congr fun f => ?_
          exact meanDraw_comm h nc p.1 m (df.comp (f := fun y => (f, y)) (by fun_prop)) x i
        · rw [meanDraw_swap h (gammaMeasure k k) nc p.1 (K := fun f => meanDraw (libMix i) nc p.2 (meanDecide (libMix i) nc nc.calcNcoll p (hf f))) (meanDraw_param h nc p.2 (K := fun f => meanDecide (libMix i) nc nc.calcNcoll p (hf f)) df i)]
          refine lintegral_congr fun w => ?_
          dsimp only
          rw [meanDraw_swap h (gammaMeasure k k) nc p.2 (K := fun f => meanDecide (libMix i) nc nc.calcNcoll p (hf f)) df]
          refine lintegral_congr fun w' => ?_
          dsimp only
          rw [meanDecide_swap h (gammaMeasure k k) nc nc.calcNcoll p mf]
          refine lintegral_congr fun w'' => ?_
          refine ih hL' (fit_decide nc _ p (fit_draw nc _ (fit_draw nc _ hx _) _) ⟨drawSlot_keep nc p.2 p.1 _ _ (drawSlot_at nc p.1 x w), drawSlot_at nc p.2 _ _⟩ _) ?_
          rw [decide_other nc _ e1 e2, draw_other nc e2, draw_other nc e1]
          exact hm
    · simp only [meanPair, hfar, if_true]
      exact ih hL' hx hm

/-- **The loop, positions.** What does not depend on the weights has the same law for all fluctuation parameters. -/
theorem loop_positions (hk : GammaUnit nc k) {k' : ℝ} (hk' : 0 < k') (L : List (ι × ι)) (hL : ∀ p ∈ L, p.1 ≠ p.2) {g : Slots ι → ℝ≥0∞} (hg : Measurable g)
    (hinv : ∀ m x, g (reviseS m (fun cs => cs.map fun c => { c with fluctuation := 1 }) x) = g x) {x : Slots ι} (hx : FitSlots x) (i : LibMix) :
    ∫⁻ w, g (loopS { nc with gammaAlpha := k', gammaBeta := 1 / k' } nc.calcNcoll L x w).1 ∂libMix i = ∫⁻ w, g (loopS nc nc.calcNcoll L x w).1 ∂libMix i := by
  have h := C97_fresh.1
  have hpr := h.prob
  set nc' : NucleonCommon ℝ := { nc with gammaAlpha := k', gammaBeta := 1 / k' } with hnc'
  have ecn : nc'.calcNcoll = nc.calcNcoll := rfl
  induction L generalizing x with
  | nil => rfl
  | cons p L ih =>
    have hp := hL p (by simp)
    have hL' : ∀ p ∈ L, p.1 ≠ p.2 := fun p hp => hL p (List.mem_cons_of_mem _ hp)
    rw [mean_loopS_cons h nc _ p L hg, mean_loopS_cons h nc' _ p L hg, mean_step h nc hp hx (mean_meas h nc nc.calcNcoll L hg i) i]
    have s' := mean_step h nc' hp hx (mean_meas h nc' nc.calcNcoll L hg i) i
    rw [ecn] at s'
    rw [s']
    have far : farSlots nc' p x = farSlots nc p x := rfl
    set h0 : Slots ι → ℝ≥0∞ := fun y => ∫⁻ w, g (loopS nc nc.calcNcoll L y w).1 ∂libMix i with h0d
    have m0 : Measurable h0 := mean_meas h nc nc.calcNcoll L hg i
    have inv0 : ∀ m y, (y.1 m).constituentsExist = true → h0 (reviseS m (fun cs => cs.map fun c => { c with fluctuation := 1 }) y) = h0 y := by
      intro m y hy
      refine lintegral_congr fun w => ?_
      rw [loop_revise nc _ L hL' hy keeps_unit]
      exact hinv m _
    unfold meanPair
    rw [far]
    split
    · exact ih hL' hx
    · have d0 := meanDecide_meas h nc nc.calcNcoll p m0 i
      have invD : ∀ m y, (y.1 m).constituentsExist = true →
          meanDecide (libMix i) nc nc.calcNcoll p h0 (reviseS m (fun cs => cs.map fun c => { c with fluctuation := 1 }) y) = meanDecide (libMix i) nc nc.calcNcoll p h0 y := by
        intro m y hy
        refine lintegral_congr fun w => ?_
        rw [decide_revise nc _ p m _ keeps_unit]
        refine inv0 m _ ?_
        unfold decideSlots
        split
        · dsimp only
          split
          · rw [setParticipant_exist]; exact hy
          · exact hy
        · exact hy
      have invDr : ∀ q m y, (y.1 m).constituentsExist = true →
          meanDraw (libMix i) nc q (meanDecide (libMix i) nc nc.calcNcoll p h0) (reviseS m (fun cs => cs.map fun c => { c with fluctuation := 1 }) y) =
            meanDraw (libMix i) nc q (meanDecide (libMix i) nc nc.calcNcoll p h0) y := by
        intro q m y hy
        refine lintegral_congr fun w => ?_
        rw [draw_revise nc hy]
        exact invD m _ (drawSlot_keep nc q m y w hy)
      have draw : ∀ (m : ι) (y : Slots ι) (H : Slots ι → ℝ≥0∞), Measurable H → (∀ y : Slots ι, (y.1 m).constituentsExist = true →
          H (reviseS m (fun cs => cs.map fun c => { c with fluctuation := 1 }) y) = H y) → meanDraw (libMix i) nc' m H y = meanDraw (libMix i) nc m H y := by
        intro m y H hH hi
        cases hy : (y.1 m).constituentsExist
        · exact draw_positions hk hk' hy hH hi i
        · unfold meanDraw
          simp only [drawSlot_id nc' hy, drawSlot_id nc hy]
      have e1 : meanDraw (libMix i) nc' p.1 (meanDraw (libMix i) nc' p.2 (meanDecide (libMix i) nc' nc.calcNcoll p
            fun y => ∫⁻ w, g (loopS nc' nc.calcNcoll L y w).1 ∂libMix i)) x =
          meanDraw (libMix i) nc' p.1 (meanDraw (libMix i) nc' p.2 (meanDecide (libMix i) nc nc.calcNcoll p h0)) x := by
        refine lintegral_congr fun w => lintegral_congr fun w' => lintegral_congr fun w'' => ?_
        exact ih hL' (fit_decide nc' _ p (fit_draw nc' _ (fit_draw nc' _ hx _) _) ⟨drawSlot_keep nc' p.2 p.1 _ _ (drawSlot_at nc' p.1 x w), drawSlot_at nc' p.2 _ _⟩ _)
      rw [e1]
      have e2 : meanDraw (libMix i) nc' p.2 (meanDecide (libMix i) nc nc.calcNcoll p h0) = meanDraw (libMix i) nc p.2 (meanDecide (libMix i) nc nc.calcNcoll p h0) :=
        funext fun y => draw p.2 y _ d0 (invD p.2)
      rw [e2]
      exact draw p.1 x _ (meanDraw_meas h nc p.2 d0 i) (invDr p.2 p.1)

end

end Trento
