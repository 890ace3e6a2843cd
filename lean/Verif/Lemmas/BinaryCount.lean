import Verif.Lemmas.ExchangeLoop

/-!
# The mean number of binary collisions

Given the positions of the nucleons, the mean number of binary collisions is the sum over the pairs of the probabilities that the pair, taken alone, collides.
(The collisions are not independent: a nucleon shows the same constituents to all its partners.)
-/

namespace Trento
open MeasureTheory Set Spec
open scoped ENNReal

variable {E D : Type} [Rng ℝ E D] {ι : Type} [DecidableEq ι]

section
variable [MeasurableSpace E] [MeasurableSpace D]

/-- probability that nucleons with these constituents collide -/
noncomputable def decideProb (ν : Measure (Rand E D)) (nc : NucleonCommon ℝ) (as bs : List (Constituent ℝ)) : ℝ≥0∞ :=
  ∫⁻ w, (if lt (nc.oneMinusProb (overlapSum nc.constituentWidthSq as bs)) (canonical (F := ℝ) w).1 then 1 else 0) ∂ν

/-- probability that a pair of nucleons collides -/
noncomputable def hitProb (ν : Measure (Rand E D)) (nc : NucleonCommon ℝ) (a b : NucleonData ℝ) : ℝ≥0∞ :=
  if lt nc.maxImpactSq (sqr (a.x - b.x) + sqr (a.y - b.y)) then 0
  else ∫⁻ w, (∫⁻ w', decideProb ν nc (nc.sampleConstituents a w).1.constituents (nc.sampleConstituents b w').1.constituents ∂ν) ∂ν

end

theorem sample_set_cs (nc : NucleonCommon ℝ) (n : NucleonData ℝ) (w : Rand E D) :
    (nc.sampleConstituents n.setParticipant w).1.constituents = (nc.sampleConstituents n w).1.constituents := by
  unfold NucleonCommon.sampleConstituents
  rw [setParticipant_exist]
  split
  · exact setParticipant_cs n
  · simp only [setParticipant_x, setParticipant_y]

variable [MeasurableSpace E] [MeasurableSpace D] {I : Type} {μ : I → Measure (Rand E D)}

theorem hitProb_set (ν : Measure (Rand E D)) (nc : NucleonCommon ℝ) (a b : NucleonData ℝ) :
    hitProb ν nc a.setParticipant b = hitProb ν nc a b ∧ hitProb ν nc a b.setParticipant = hitProb ν nc a b := by
  unfold hitProb
  simp only [setParticipant_x, setParticipant_y, sample_set_cs, and_self]

theorem hitProb_draw_left (ν : Measure (Rand E D)) [IsProbabilityMeasure ν] (nc : NucleonCommon ℝ) (a b : NucleonData ℝ) :
    ∫⁻ w, hitProb ν nc (nc.sampleConstituents a w).1 b ∂ν = hitProb ν nc a b := by
  unfold hitProb
  simp only [sampleConstituents_x, sampleConstituents_y]
  split
  · simp
  · refine lintegral_congr fun w => ?_
    simp only [sampleConstituents_id nc (sampleConstituents_has nc a w), lintegral_const, measure_univ, mul_one]

theorem hitProb_draw_right (ν : Measure (Rand E D)) [IsProbabilityMeasure ν] (nc : NucleonCommon ℝ) (a b : NucleonData ℝ)
    (hm2 : Measurable fun t : Rand E D × Rand E D => decideProb ν nc (nc.sampleConstituents a t.2).1.constituents (nc.sampleConstituents b t.1).1.constituents) :
    ∫⁻ w, hitProb ν nc a (nc.sampleConstituents b w).1 ∂ν = hitProb ν nc a b := by
  unfold hitProb
  simp only [sampleConstituents_x, sampleConstituents_y]
  split
  · simp
  · have e : ∀ w w' w'' : Rand E D, (nc.sampleConstituents (nc.sampleConstituents b w).1 w'').1.constituents = (nc.sampleConstituents b w).1.constituents :=
      fun w w' w'' => by rw [sampleConstituents_id nc (sampleConstituents_has nc b w)]
    have e' : ∀ w w' : Rand E D, ∫⁻ w'', decideProb ν nc (nc.sampleConstituents a w').1.constituents (nc.sampleConstituents (nc.sampleConstituents b w).1 w'').1.constituents ∂ν =
        decideProb ν nc (nc.sampleConstituents a w').1.constituents (nc.sampleConstituents b w).1.constituents := by
      intro w w'
      simp only [e w w', lintegral_const, measure_univ, mul_one]
    simp only [e']
    exact lintegral_lintegral_swap hm2.aemeasurable

section
variable (h : FreshSource E D μ)
include h

theorem decideProb_meas (nc : NucleonCommon ℝ) (i : I) : Measurable fun t : List (Constituent ℝ) × List (Constituent ℝ) => decideProb (μ i) nc t.1 t.2 := by
  have := h.prob
  have h1 : Measurable fun t : (List (Constituent ℝ) × List (Constituent ℝ)) × Rand E D => nc.oneMinusProb (overlapSum nc.constituentWidthSq t.1.1 t.1.2) :=
    Real.measurable_exp.comp ((overlapSum_meas _ (measurable_fst.comp measurable_fst) (measurable_snd.comp measurable_fst)).const_mul _)
  have hc : Measurable fun t : (List (Constituent ℝ) × List (Constituent ℝ)) × Rand E D => (canonical (F := ℝ) t.2).1 :=
    measurable_fst.comp (h.canonical_meas.comp measurable_snd)
  have hd : Measurable fun t : (List (Constituent ℝ) × List (Constituent ℝ)) × Rand E D =>
      if lt (nc.oneMinusProb (overlapSum nc.constituentWidthSq t.1.1 t.1.2)) (canonical (F := ℝ) t.2).1 then (1:ℝ≥0∞) else 0 := by
    simp only [lt_real, decide_eq_true_eq]
    exact Measurable.ite (measurableSet_lt h1 hc) measurable_const measurable_const
  exact hd.lintegral_prod_right'

theorem sampleCs_meas (nc : NucleonCommon ℝ) : Measurable fun t : NucleonData ℝ × Rand E D => (nc.sampleConstituents t.1 t.2).1.constituents := by
  have h1 : Measurable fun p : NucleonData ℝ × Rand E D => nc.sampleConstituents p.1 p.2 := embedding_ok.measurable_comp_iff.mp (renews_sampleConstituents h nc).meas
  exact nucleon_cs.comp (measurable_fst.comp h1)

theorem hitProb_draw (nc : NucleonCommon ℝ) (a b : NucleonData ℝ) (i : I) :
    ∫⁻ w, hitProb (μ i) nc a (nc.sampleConstituents b w).1 ∂(μ i) = hitProb (μ i) nc a b := by
  have := h.prob
  have hd := decideProb_meas h nc i
  have hs := sampleCs_meas h nc
  have ha : Measurable fun w : Rand E D => (nc.sampleConstituents a w).1.constituents := hs.comp (measurable_const.prodMk measurable_id)
  have hb : Measurable fun w : Rand E D => (nc.sampleConstituents b w).1.constituents := hs.comp (measurable_const.prodMk measurable_id)
  exact hitProb_draw_right (μ i) nc a b (hd.comp ((ha.comp measurable_snd).prodMk (hb.comp measurable_fst)))

theorem hitProb_meas (nc : NucleonCommon ℝ) (i : I) : Measurable fun t : NucleonData ℝ × NucleonData ℝ => hitProb (μ i) nc t.1 t.2 := by
  have := h.prob
  have hd := decideProb_meas h nc i
  have hs := sampleCs_meas h nc
  have k1 : Measurable fun t : ((NucleonData ℝ × NucleonData ℝ) × Rand E D) × Rand E D =>
      decideProb (μ i) nc (nc.sampleConstituents t.1.1.1 t.1.2).1.constituents (nc.sampleConstituents t.1.1.2 t.2).1.constituents :=
    hd.comp ((hs.comp (Measurable.prodMk (f := fun t : ((NucleonData ℝ × NucleonData ℝ) × Rand E D) × Rand E D => t.1.1.1) (by fun_prop) (by fun_prop))).prodMk
      (hs.comp (Measurable.prodMk (f := fun t : ((NucleonData ℝ × NucleonData ℝ) × Rand E D) × Rand E D => t.1.1.2) (by fun_prop) (by fun_prop))))
  have k2 := k1.lintegral_prod_right' (ν := μ i)
  have k3 := k2.lintegral_prod_right' (ν := μ i)
  unfold hitProb
  simp only [lt_real, sqr_real, decide_eq_true_eq]
  refine Measurable.ite (measurableSet_lt measurable_const ?_) measurable_const k3
  exact (((nucleon_x.comp measurable_fst).sub (nucleon_x.comp measurable_snd)).pow_const 2).add
    (((nucleon_y.comp measurable_fst).sub (nucleon_y.comp measurable_snd)).pow_const 2)

omit h in
/-- probability that the pair in these slots collides -/
noncomputable def hitS (ν : Measure (Rand E D)) (nc : NucleonCommon ℝ) (p : ι × ι) (x : Slots ι) : ℝ≥0∞ := hitProb ν nc (x.1 p.1) (x.1 p.2)

omit [DecidableEq ι] in
theorem hitS_meas (nc : NucleonCommon ℝ) (i : I) (p : ι × ι) : Measurable (hitS (μ i) nc p) := by
  have h1 : ∀ m : ι, Measurable fun x : Slots ι => x.1 m := fun m => (measurable_pi_apply m).comp measurable_fst
  have h2 : Measurable fun x : Slots ι => hitProb (μ i) nc (x.1 p.1) (x.1 p.2) := (hitProb_meas h nc i).comp ((h1 p.1).prodMk (h1 p.2))
  exact h2

theorem hitS_draw (nc : NucleonCommon ℝ) {p : ι × ι} (hp : p.1 ≠ p.2) (m : ι) (x : Slots ι) (i : I) :
    meanDraw (μ i) nc m (hitS (μ i) nc p) x = hitS (μ i) nc p x := by
  have := h.prob
  unfold meanDraw hitS drawSlot
  by_cases e1 : m = p.1
  · subst e1
    simp only [Function.update_self, Function.update_of_ne hp.symm]
    exact hitProb_draw_left (μ i) nc _ _
  · by_cases e2 : m = p.2
    · subst e2
      simp only [Function.update_self, Function.update_of_ne hp]
      exact hitProb_draw h nc _ _ i
    · simp only [Function.update_of_ne (Ne.symm e1), Function.update_of_ne (Ne.symm e2), lintegral_const, measure_univ, mul_one]

omit h in
theorem hitS_decide (ν : Measure (Rand E D)) (nc : NucleonCommon ℝ) (cn : Bool) (p q : ι × ι) (x : Slots ι) (u : ℝ) :
    hitS ν nc p (decideSlots nc cn q x u) = hitS ν nc p x := by
  unfold hitS decideSlots
  split
  · dsimp only
    split <;> split <;> simp only [(hitProb_set ν nc _ _).1, (hitProb_set ν nc _ _).2]
  · rfl

/-- what has happened to other pairs does not change the probability of this one -/
theorem hitS_pair (nc : NucleonCommon ℝ) (cn : Bool) {p : ι × ι} (hp : p.1 ≠ p.2) (q : ι × ι) (x : Slots ι) (i : I) :
    meanPair (μ i) nc cn q (hitS (μ i) nc p) x = hitS (μ i) nc p x := by
  have := h.prob
  unfold meanPair
  split
  · rfl
  · have e1 : meanDecide (μ i) nc cn q (hitS (μ i) nc p) = hitS (μ i) nc p := by
      funext y
      simp only [meanDecide, hitS_decide, lintegral_const, measure_univ, mul_one]
    have e2 : ∀ m, meanDraw (μ i) nc m (hitS (μ i) nc p) = hitS (μ i) nc p := fun m => funext fun y => hitS_draw h nc hp m y i
    rw [e1, e2, e2]

theorem meanPair_add (nc : NucleonCommon ℝ) (cn : Bool) (p : ι × ι) {f : Slots ι → ℝ≥0∞} (hf : Measurable f) (g : Slots ι → ℝ≥0∞) (x : Slots ι) (i : I) :
    meanPair (μ i) nc cn p (fun y => f y + g y) x = meanPair (μ i) nc cn p f x + meanPair (μ i) nc cn p g x := by
  have := h.prob
  have hd : meanDecide (μ i) nc cn p (fun y => f y + g y) = fun y => meanDecide (μ i) nc cn p f y + meanDecide (μ i) nc cn p g y := by
    funext y
    exact lintegral_add_left (hf.comp ((decideW_meas h nc cn p).comp (measurable_const.prodMk measurable_id))) _
  have hdr : ∀ (m : ι) {f : Slots ι → ℝ≥0∞}, Measurable f → ∀ g : Slots ι → ℝ≥0∞, meanDraw (μ i) nc m (fun y => f y + g y) =
      fun y => meanDraw (μ i) nc m f y + meanDraw (μ i) nc m g y := by
    intro m f hf g
    funext y
    exact lintegral_add_left (hf.comp ((drawSlot_meas h nc m).comp (measurable_const.prodMk measurable_id))) _
  unfold meanPair
  split
  · rfl
  · rw [hd, hdr _ (meanDecide_meas h nc cn p hf i), hdr _ (meanDraw_meas h nc _ (meanDecide_meas h nc cn p hf i) i)]

omit h in
/-- the number of binary collisions -/
noncomputable def countS (x : Slots ι) : ℝ≥0∞ := x.2.1

omit h [DecidableEq ι] in
theorem countS_meas : Measurable (countS : Slots ι → ℝ≥0∞) :=
  (measurable_of_countable fun n : ℕ => (n : ℝ≥0∞)).comp (measurable_fst.comp measurable_snd)

theorem meanPair_count (nc : NucleonCommon ℝ) {p : ι × ι} (hp : p.1 ≠ p.2) (x : Slots ι) (i : I) :
    meanPair (μ i) nc true p countS x = countS x + hitS (μ i) nc p x := by
  have := h.prob
  have hdec : ∀ y, meanDecide (μ i) nc true p countS y = countS y + decideProb (μ i) nc (y.1 p.1).constituents (y.1 p.2).constituents := by
    intro y
    unfold meanDecide decideProb
    have e : ∀ w : Rand E D, countS (decideSlots nc true p y (canonical (F := ℝ) w).1) = countS y +
        (if lt (nc.oneMinusProb (overlapSum nc.constituentWidthSq (y.1 p.1).constituents (y.1 p.2).constituents)) (canonical (F := ℝ) w).1 then 1 else 0) := by
      intro w
      unfold decideSlots countS
      split <;> simp
    simp only [e]
    rw [lintegral_add_left measurable_const]
    simp
  unfold meanPair hitS hitProb farSlots
  split
  · simp
  · unfold meanDraw
    have e1 : ∀ w w' : Rand E D, meanDecide (μ i) nc true p countS (drawSlot nc p.2 (drawSlot nc p.1 x w) w') = countS x +
        decideProb (μ i) nc (nc.sampleConstituents (x.1 p.1) w).1.constituents (nc.sampleConstituents (x.1 p.2) w').1.constituents := by
      intro w w'
      rw [hdec]
      simp only [drawSlot, Function.update_self, Function.update_of_ne hp, Function.update_of_ne hp.symm]
      rfl
    simp only [e1]
    have hd := decideProb_meas h nc i
    have hs := sampleCs_meas h nc
    have hsw : ∀ a, Measurable fun w : Rand E D => (nc.sampleConstituents a w).1.constituents := fun a => hs.comp (measurable_const.prodMk measurable_id)
    have e2 : ∀ w : Rand E D, ∫⁻ w', (countS x + decideProb (μ i) nc (nc.sampleConstituents (x.1 p.1) w).1.constituents (nc.sampleConstituents (x.1 p.2) w').1.constituents) ∂(μ i) =
        countS x + ∫⁻ w', decideProb (μ i) nc (nc.sampleConstituents (x.1 p.1) w).1.constituents (nc.sampleConstituents (x.1 p.2) w').1.constituents ∂(μ i) := by
      intro w
      rw [lintegral_add_left measurable_const]
      simp
    simp only [e2]
    rw [lintegral_add_left measurable_const]
    simp

theorem meanPair_hits (nc : NucleonCommon ℝ) (cn : Bool) (q : ι × ι) (L : List (ι × ι)) (hL : ∀ p ∈ L, p.1 ≠ p.2) (x : Slots ι) (i : I) :
    meanPair (μ i) nc cn q (fun y => (L.map fun p => hitS (μ i) nc p y).sum) x = (L.map fun p => hitS (μ i) nc p x).sum := by
  have := h.prob
  have hm := hitS_meas (ι := ι) h nc i
  induction L with
  | nil =>
    simp only [List.map_nil, List.sum_nil, meanPair, meanDraw, meanDecide, lintegral_const, measure_univ, mul_one, ite_self]
  | cons p L ih =>
    simp only [List.map_cons, List.sum_cons]
    rw [meanPair_add h nc cn q (hm p) (fun y => (L.map fun p => hitS (μ i) nc p y).sum) x i, hitS_pair h nc cn (hL p (by simp)) q x i, ih fun p hp => hL p (List.mem_cons_of_mem _ hp)]

/-- the mean number of binary collisions of a list of pairs -/
theorem mean_count (nc : NucleonCommon ℝ) (hn : nc.calcNcoll = true) (L : List (ι × ι)) (hL : ∀ p ∈ L, p.1 ≠ p.2) {x : Slots ι} (hx : FitSlots x) (i : I) :
    ∫⁻ w, countS (loopS nc nc.calcNcoll L x w).1 ∂(μ i) = countS x + (L.map fun p => hitS (μ i) nc p x).sum := by
  have := h.prob
  have hm := hitS_meas (ι := ι) h nc i
  induction L generalizing x with
  | nil => simp [loopS]
  | cons p L ih =>
    have hp := hL p (by simp)
    have hL' : ∀ p ∈ L, p.1 ≠ p.2 := fun p hp => hL p (List.mem_cons_of_mem _ hp)
    rw [mean_loopS_cons h nc _ p L countS_meas]
    have e : ∀ w : Rand E D, ∫⁻ w', countS (loopS nc nc.calcNcoll L (stepS nc nc.calcNcoll p x w).1 w').1 ∂(μ i) =
        (fun y => countS y + (L.map fun p => hitS (μ i) nc p y).sum) (stepS nc nc.calcNcoll p x w).1 := fun w => ih hL' (fit_step hp hx w)
    simp only [e]
    have hsum : Measurable fun y : Slots ι => (L.map fun p => hitS (μ i) nc p y).sum := by
      clear e ih hL hL'
      induction L with
      | nil => exact measurable_const
      | cons q L ih => simp only [List.map_cons, List.sum_cons]; exact (hm q).add ih
    rw [mean_step h nc hp hx (g := fun y => countS y + (L.map fun p => hitS (μ i) nc p y).sum) (countS_meas.add hsum) i,
      meanPair_add h nc _ p countS_meas _ x i, meanPair_hits h nc _ p L hL' x i, hn, meanPair_count h nc hp x i, List.map_cons, List.sum_cons, add_assoc]

/-- The mean number of binary collisions in the double loop: the sum over the pairs of the probabilities that they collide. -/
theorem pairLoop_count (nc : NucleonCommon ℝ) (hn : nc.calcNcoll = true) (As Bs : List (NucleonData ℝ)) (hA : ∀ a ∈ As, a.isParticipant = false)
    (hB : ∀ b ∈ Bs, b.isParticipant = false) (i : I) :
    ∫⁻ w, ((pairLoop nc nc.calcNcoll As Bs 0 false w).1.2.2.1 : ℝ≥0∞) ∂(μ i) = (As.map fun a => (Bs.map fun b => hitProb (μ i) nc a b).sum).sum := by
  let s : Fin As.length ⊕ Fin Bs.length → NucleonData ℝ := Sum.elim As.get Bs.get
  let K : List (Fin As.length ⊕ Fin Bs.length) := (List.finRange As.length).map Sum.inl
  let J : List (Fin As.length ⊕ Fin Bs.length) := (List.finRange Bs.length).map Sum.inr
  have hK : K.Nodup := (List.nodup_finRange _).map Sum.inl_injective
  have hJ : J.Nodup := (List.nodup_finRange _).map Sum.inr_injective
  have hd : ∀ k ∈ K, k ∉ J := by
    intro k hk hk'
    obtain ⟨a, -, rfl⟩ := List.mem_map.mp hk
    obtain ⟨b, -, hb⟩ := List.mem_map.mp hk'
    cases hb
  have eA : K.map s = As := by
    simp only [K, List.map_map]
    show (List.finRange As.length).map As.get = As
    exact List.map_get_finRange As
  have eB : J.map s = Bs := by
    simp only [J, List.map_map]
    show (List.finRange Bs.length).map Bs.get = Bs
    exact List.map_get_finRange Bs
  let x : Slots (Fin As.length ⊕ Fin Bs.length) := (s, 0, false)
  have hx : FitSlots x := by
    intro m hm
    exfalso
    rcases m with m | m
    · have := hA (As.get m) (List.get_mem _ _)
      simp [x, s] at hm this
      rw [hm] at this; cases this
    · have := hB (Bs.get m) (List.get_mem _ _)
      simp [x, s] at hm this
      rw [hm] at this; cases this
  have p2 : ∀ w : Rand E D, ((pairLoop nc nc.calcNcoll As Bs 0 false w).1.2.2.1 : ℝ≥0∞) = countS (loopS nc nc.calcNcoll (K ×ˢ J) x w).1 := by
    intro w
    have := pairLoop_slots nc nc.calcNcoll K J hK hJ hd x w
    rw [show K.map x.1 = As from eA, show J.map x.1 = Bs from eB] at this
    rw [show pairLoop nc nc.calcNcoll As Bs 0 false w = _ from this]
    rfl
  have hne : ∀ p ∈ (K ×ˢ J : List (_ × _)), p.1 ≠ p.2 := by
    intro p hp e
    obtain ⟨h1, h2⟩ := List.mem_product.mp hp
    exact hd _ h1 (e ▸ h2)
  simp only [p2]
  rw [mean_count h nc hn _ hne hx i]
  have e0 : countS x = 0 := by simp [countS, x]
  rw [e0, zero_add]
  have key : ∀ (K : List (Fin As.length ⊕ Fin Bs.length)), ((K ×ˢ J : List (_ × _)).map fun p => hitS (μ i) nc p x).sum =
      (K.map fun k => (J.map fun l => hitProb (μ i) nc (s k) (s l)).sum).sum := by
    intro K
    induction K with
    | nil => rfl
    | cons k K ih =>
      have e0 : ((k :: K) ×ˢ J : List (_ × _)) = J.map (Prod.mk k) ++ (K ×ˢ J : List (_ × _)) := rfl
      rw [e0, List.map_append, List.sum_append, ih, List.map_cons, List.sum_cons, List.map_map]
      rfl
  rw [key K]
  have eB' : ∀ f : NucleonData ℝ → ℝ≥0∞, J.map (fun l => f (s l)) = Bs.map f := fun f => (List.map_map (f := s) (g := f) (l := J)).symm.trans (congrArg (List.map f) eB)
  have eA' : ∀ f : NucleonData ℝ → ℝ≥0∞, K.map (fun l => f (s l)) = As.map f := fun f => (List.map_map (f := s) (g := f) (l := K)).symm.trans (congrArg (List.map f) eA)
  have eB2 : (fun k => (J.map fun l => hitProb (μ i) nc (s k) (s l)).sum) = fun k => (Bs.map fun b => hitProb (μ i) nc (s k) b).sum :=
    funext fun k => congrArg List.sum (eB' fun b => hitProb (μ i) nc (s k) b)
  rw [eB2, eA' fun a => (Bs.map fun b => hitProb (μ i) nc a b).sum]

end
end Trento
