import Verif.Lemmas.BinaryCount

/-!
# Which nucleons are wounded

The double loop over the pairs draws the constituents of a nucleon when a pair first needs them.  In law it does not matter when they are drawn.  With all constituents drawn, the
pairs collide independently of each other, so the probability that none of a set of nucleons is wounded is a product over the pairs.
-/

namespace Trento
open MeasureTheory Set Spec
open scoped ENNReal

variable {E D : Type} [Rng ℝ E D] {ι : Type} [DecidableEq ι]

/-- draw the constituents of all nucleons of a list, one after the other -/
noncomputable def dress (nc : NucleonCommon ℝ) : List (NucleonData ℝ) → Rand E D → List (NucleonData ℝ) × Rand E D
  | [], w => ([], w)
  | n :: l, w => ((nc.sampleConstituents n w).1 :: (dress nc l (nc.sampleConstituents n w).2).1, (dress nc l (nc.sampleConstituents n w).2).2)

/-- the same for slots -/
noncomputable def dressS (nc : NucleonCommon ℝ) : List ι → Slots ι → Rand E D → Slots ι × Rand E D
  | [], x, w => (x, w)
  | m :: M, x, w => dressS nc M (drawSlot nc m x w) (nc.sampleConstituents (x.1 m) w).2

theorem dressS_off (nc : NucleonCommon ℝ) (M : List ι) (x : Slots ι) (w : Rand E D) {k : ι} (hk : k ∉ M) : (dressS nc M x w).1.1 k = x.1 k := by
  induction M generalizing x w with
  | nil => rfl
  | cons m M ih =>
    rw [dressS, ih _ _ fun h => hk (List.mem_cons_of_mem _ h)]
    have : k ≠ m := fun h => hk (by simp [h])
    simp [drawSlot, Function.update_of_ne this]

theorem dressS_keep (nc : NucleonCommon ℝ) (M : List ι) (x : Slots ι) (w : Rand E D) {k : ι} (hk : (x.1 k).constituentsExist = true) :
    ((dressS nc M x w).1.1 k).constituentsExist = true := by
  induction M generalizing x w with
  | nil => exact hk
  | cons m M ih => exact ih _ _ (drawSlot_keep nc m k x w hk)

theorem dressS_has (nc : NucleonCommon ℝ) (M : List ι) (x : Slots ι) (w : Rand E D) {k : ι} (hk : k ∈ M) : ((dressS nc M x w).1.1 k).constituentsExist = true := by
  induction M generalizing x w with
  | nil => cases hk
  | cons m M ih =>
    rcases List.mem_cons.mp hk with rfl | h
    · exact dressS_keep nc M _ _ (drawSlot_at nc k x w)
    · exact ih _ _ h

theorem dressS_append (nc : NucleonCommon ℝ) (M M' : List ι) (x : Slots ι) (w : Rand E D) :
    dressS nc (M ++ M') x w = dressS nc M' (dressS nc M x w).1 (dressS nc M x w).2 := by
  induction M generalizing x w with
  | nil => rfl
  | cons m M ih => simp only [List.cons_append, dressS, ih]

theorem dress_slots (nc : NucleonCommon ℝ) (M : List ι) (hM : M.Nodup) (x : Slots ι) (w : Rand E D) :
    dress nc (M.map x.1) w = (M.map (dressS nc M x w).1.1, (dressS nc M x w).2) := by
  induction M generalizing x w with
  | nil => rfl
  | cons m M ih =>
    obtain ⟨hm, hM'⟩ := List.nodup_cons.mp hM
    have e1 : M.map (drawSlot nc m x w).1 = M.map x.1 :=
      List.map_congr_left fun k hk => by
        have : k ≠ m := fun h => hm (h ▸ hk)
        simp [drawSlot, Function.update_of_ne this]
    have e2 := ih hM' (drawSlot nc m x w) (nc.sampleConstituents (x.1 m) w).2
    rw [e1] at e2
    simp only [List.map_cons, dress, e2, dressS]
    rw [dressS_off nc M _ _ hm]
    simp [drawSlot]

theorem fit_dress (nc : NucleonCommon ℝ) (M : List ι) {x : Slots ι} (hx : FitSlots x) (w : Rand E D) : FitSlots (dressS nc M x w).1 := by
  induction M generalizing x w with
  | nil => exact hx
  | cons m M ih => exact ih (fit_draw nc m hx w) _

/-- a function that does not see constituents -/
def Blind (E D : Type) [Rng ℝ E D] (nc : NucleonCommon ℝ) (g : Slots ι → ℝ≥0∞) : Prop := ∀ m x, ∀ w : Rand E D, g (drawSlot nc m x w) = g x

theorem blind_dress {nc : NucleonCommon ℝ} {g : Slots ι → ℝ≥0∞} (hb : Blind E D nc g) (M : List ι) (x : Slots ι) (w : Rand E D) : g (dressS nc M x w).1 = g x := by
  induction M generalizing x w with
  | nil => rfl
  | cons m M ih => exact (ih _ _).trans (hb m x w)

variable [MeasurableSpace E] [MeasurableSpace D] {I : Type} {μ : I → Measure (Rand E D)}

section
variable (h : FreshSource E D μ)
include h

theorem renews_drawSlot (nc : NucleonCommon ℝ) (m : ι) : Renews μ fun (x : Slots ι) (w : Rand E D) => .ok (drawSlot nc m x w, (nc.sampleConstituents (x.1 m) w).2) := by
  have := h.prob
  have hap : Measurable fun x : Slots ι => x.1 m := (measurable_pi_apply m).comp measurable_fst
  have h1 := (renews_sampleConstituents h nc).comp (f := fun x : Slots ι => x.1 m) hap
  have hf : Measurable fun q : Slots ι × NucleonData ℝ => ((Function.update q.1.1 m q.2, q.1.2) : Slots ι) :=
    (measurable_update'.comp (Measurable.prodMk (f := fun q : Slots ι × NucleonData ℝ => q.1.1) (by fun_prop) (by fun_prop))).prodMk (by fun_prop)
  exact (h1.map hf).congr fun x w => rfl

theorem renews_dressS (nc : NucleonCommon ℝ) (M : List ι) : Renews μ fun (x : Slots ι) (w : Rand E D) => .ok (dressS nc M x w) := by
  have := h.prob
  induction M with
  | nil => exact (Renews.pure (q := fun x : Slots ι => x) measurable_id).congr fun x w => rfl
  | cons m M ih => exact ((renews_drawSlot h nc m).bind (ih.comp (f := fun q : Slots ι × Slots ι => q.2) measurable_snd)).congr fun x w => rfl

theorem mean_dressS_cons (nc : NucleonCommon ℝ) (m : ι) (M : List ι) {g : Slots ι → ℝ≥0∞} (hg : Measurable g) (x : Slots ι) (i : I) :
    ∫⁻ w, g (dressS nc (m :: M) x w).1 ∂(μ i) = meanDraw (μ i) nc m (fun y => ∫⁻ w, g (dressS nc M y w).1 ∂(μ i)) x := by
  have := h.prob
  have hL := renews_dressS h nc M
  have hh : Measurable fun t : Slots ι × Rand E D => g (dressS nc M t.1 t.2).1 :=
    (hg.comp measurable_fst).comp (embedding_ok.measurable_comp_iff.mp hL.meas)
  exact (renews_drawSlot h nc m).law x _ hh (fun a i j => hL.const a hg i j) i i i

theorem dressMean_meas (nc : NucleonCommon ℝ) (M : List ι) {g : Slots ι → ℝ≥0∞} (hg : Measurable g) (i : I) :
    Measurable fun x => ∫⁻ w, g (dressS nc M x w).1 ∂(μ i) := by
  have := h.prob
  have hh : Measurable fun t : Slots ι × Rand E D => g (dressS nc M t.1 t.2).1 :=
    (hg.comp measurable_fst).comp (embedding_ok.measurable_comp_iff.mp (renews_dressS h nc M).meas)
  exact hh.lintegral_prod_right'

/-- a pair does not care whether constituents are drawn before or after -/
theorem meanPair_draw (nc : NucleonCommon ℝ) (cn : Bool) (p : ι × ι) (m : ι) {g : Slots ι → ℝ≥0∞} (hg : Measurable g) (x : Slots ι) (i : I) :
    meanPair (μ i) nc cn p (meanDraw (μ i) nc m g) x = meanDraw (μ i) nc m (meanPair (μ i) nc cn p g) x := by
  have := h.prob
  have comm : ∀ (m k : ι) {g : Slots ι → ℝ≥0∞}, Measurable g → meanDraw (μ i) nc m (meanDraw (μ i) nc k g) = meanDraw (μ i) nc k (meanDraw (μ i) nc m g) :=
    fun m k g hg => funext fun y => meanDraw_comm h nc m k hg y i
  cases hp : farSlots nc p x
  · have e1 : meanDraw (μ i) nc m (meanPair (μ i) nc cn p g) x = meanDraw (μ i) nc m (meanDraw (μ i) nc p.1 (meanDraw (μ i) nc p.2 (meanDecide (μ i) nc cn p g))) x :=
      lintegral_congr fun w => by simp only [meanPair, far_draw, hp, Bool.false_eq_true, if_false]
    have hd := meanDecide_meas h nc cn p hg i
    rw [e1, comm m p.1 (meanDraw_meas h nc _ hd i), comm m p.2 hd]
    simp only [meanPair, hp, Bool.false_eq_true, if_false]
    exact meanDraws_congr (μ i) nc p (fun y hy => meanDraw_decide h nc cn p m hg hy i) x
  · have e1 : meanDraw (μ i) nc m (meanPair (μ i) nc cn p g) x = meanDraw (μ i) nc m g x :=
      lintegral_congr fun w => by simp only [meanPair, far_draw, hp, if_true]
    rw [e1]
    simp only [meanPair, hp, if_true]

theorem loop_draw (nc : NucleonCommon ℝ) (L : List (ι × ι)) (hL : ∀ p ∈ L, p.1 ≠ p.2) (m : ι) {g : Slots ι → ℝ≥0∞} (hg : Measurable g) {x : Slots ι} (hx : FitSlots x) (i : I) :
    meanDraw (μ i) nc m (fun y => ∫⁻ w, g (loopS nc nc.calcNcoll L y w).1 ∂(μ i)) x = ∫⁻ w, meanDraw (μ i) nc m g (loopS nc nc.calcNcoll L x w).1 ∂(μ i) := by
  have := h.prob
  induction L generalizing x with
  | nil => simp only [loopS, lintegral_const, measure_univ, mul_one]
  | cons p L ih =>
    have hp := hL p (by simp)
    have hL' : ∀ p ∈ L, p.1 ≠ p.2 := fun p hp => hL p (List.mem_cons_of_mem _ hp)
    have M := mean_meas h nc nc.calcNcoll L hg i
    have e1 : meanDraw (μ i) nc m (fun y => ∫⁻ w, g (loopS nc nc.calcNcoll (p :: L) y w).1 ∂(μ i)) x =
        meanDraw (μ i) nc m (meanPair (μ i) nc nc.calcNcoll p fun y => ∫⁻ w, g (loopS nc nc.calcNcoll L y w).1 ∂(μ i)) x := by
      refine lintegral_congr fun w => ?_
      dsimp only
      rw [mean_loopS_cons h nc _ p L hg]
      exact mean_step h nc hp (fit_draw nc m hx w) M i
    rw [e1, ← meanPair_draw h nc _ p m M x i, ← mean_step h nc hp hx (meanDraw_meas h nc m M i), mean_loopS_cons h nc _ p L (meanDraw_meas h nc m hg i)]
    exact lintegral_congr fun w => ih hL' (fit_step hp hx w)

/-- In law, the constituents can be drawn before the pairs are considered. -/
theorem loop_dress (nc : NucleonCommon ℝ) (L : List (ι × ι)) (hL : ∀ p ∈ L, p.1 ≠ p.2) (M : List ι) {g : Slots ι → ℝ≥0∞} (hg : Measurable g) (hb : Blind E D nc g)
    {x : Slots ι} (hx : FitSlots x) (i : I) :
    ∫⁻ w, g (loopS nc nc.calcNcoll L x w).1 ∂(μ i) = ∫⁻ w, (∫⁻ w', g (loopS nc nc.calcNcoll L (dressS nc M x w).1 w').1 ∂(μ i)) ∂(μ i) := by
  have := h.prob
  have P := mean_meas h nc nc.calcNcoll L hg i
  have hd : ∀ m, meanDraw (μ i) nc m g = g := fun m => funext fun y => by
    simp only [meanDraw, hb m y, lintegral_const, measure_univ, mul_one]
  induction M generalizing x with
  | nil => simp only [dressS, lintegral_const, measure_univ, mul_one]
  | cons m M ih =>
    rw [mean_dressS_cons h nc m M (g := fun y => ∫⁻ w', g (loopS nc nc.calcNcoll L y w').1 ∂(μ i)) P]
    have e := loop_draw h nc L hL m hg hx i
    rw [hd m] at e
    rw [← e]
    exact lintegral_congr fun w => ih (fit_draw nc m hx w)

end

/-- probability that nucleons with these constituents do not collide -/
noncomputable def apartProb (ν : Measure (Rand E D)) (nc : NucleonCommon ℝ) (as bs : List (Constituent ℝ)) : ℝ≥0∞ :=
  ∫⁻ w, (if lt (nc.oneMinusProb (overlapSum nc.constituentWidthSq as bs)) (canonical (F := ℝ) w).1 then 0 else 1) ∂ν

/-- probability that two nucleons with their constituents do not collide -/
noncomputable def missPair (ν : Measure (Rand E D)) (nc : NucleonCommon ℝ) (a b : NucleonData ℝ) : ℝ≥0∞ :=
  if lt nc.maxImpactSq (sqr (a.x - b.x) + sqr (a.y - b.y)) then 1 else apartProb ν nc a.constituents b.constituents

open scoped Classical in
/-- none of these nucleons is a participant -/
noncomputable def quietS (U : ι → Prop) (x : Slots ι) : ℝ≥0∞ := if ∀ m, U m → (x.1 m).isParticipant = false then 1 else 0

omit [DecidableEq ι] in
theorem quietS_meas [Countable ι] (U : ι → Prop) : Measurable (quietS U : Slots ι → ℝ≥0∞) := by
  classical
  unfold quietS
  have e : {x : Slots ι | ∀ m, U m → (x.1 m).isParticipant = false} = ⋂ m, {x | U m → (x.1 m).isParticipant = false} := by ext; simp
  have hs : MeasurableSet {x : Slots ι | ∀ m, U m → (x.1 m).isParticipant = false} := by
    rw [e]
    refine MeasurableSet.iInter fun m => ?_
    by_cases hU : U m
    · have h1 : Measurable fun x : Slots ι => (x.1 m).isParticipant := nucleon_part.comp ((measurable_pi_apply m).comp measurable_fst)
      have h2 := h1 (measurableSet_singleton false)
      refine Eq.mp ?_ h2
      congr 1; ext x; simp [hU]
    · simp [hU]
  exact Measurable.ite hs measurable_const measurable_const

theorem quietS_blind (nc : NucleonCommon ℝ) (U : ι → Prop) : Blind E D nc (quietS U : Slots ι → ℝ≥0∞) := by
  intro m x w
  have e : ∀ k, ((drawSlot nc m x w).1 k).isParticipant = (x.1 k).isParticipant := by
    intro k
    by_cases e : k = m
    · subst e; simp [drawSlot, sampleConstituents_part]
    · simp [drawSlot, Function.update_of_ne e]
  unfold quietS
  congr 1
  exact propext (forall_congr' fun k => by rw [e k])

/-- the same nucleons, apart from who participates -/
def SameS (x y : Slots ι) : Prop := ∀ m, (y.1 m).x = (x.1 m).x ∧ (y.1 m).y = (x.1 m).y ∧ (y.1 m).constituents = (x.1 m).constituents ∧ (y.1 m).constituentsExist = true

omit [MeasurableSpace E] [MeasurableSpace D] in
theorem same_step {nc : NucleonCommon ℝ} {p : ι × ι} (hp : p.1 ≠ p.2) {x : Slots ι} (hx : FitSlots x) (ha : ∀ m, (x.1 m).constituentsExist = true) (w : Rand E D) :
    SameS x (stepS nc nc.calcNcoll p x w).1 := by
  have base : SameS x x := fun m => ⟨rfl, rfl, rfl, ha m⟩
  cases h1 : ((x.1 p.1).isParticipant && (x.1 p.2).isParticipant && !nc.calcNcoll)
  · cases h2 : farSlots nc p x
    · rw [step_near hp h1 h2, sampleConstituents_id nc (ha p.1), sampleConstituents_id nc (ha p.2)]
      simp only [Function.update_eq_self]
      intro m
      unfold decideSlots
      split
      · dsimp only
        split
        · exact ⟨setParticipant_x _, setParticipant_y _, setParticipant_cs _, (setParticipant_exist _).trans (ha m)⟩
        · exact base m
      · exact base m
    · rw [step_far h1 h2]; exact base
  · rw [step_short hx h1]; exact base

open scoped Classical in
/-- one pair with all constituents drawn -/
theorem quiet_pair (ν : Measure (Rand E D)) [IsProbabilityMeasure ν] (hc : Measurable fun w : Rand E D => (canonical (F := ℝ) w).1) (nc : NucleonCommon ℝ) (cn : Bool) (p : ι × ι)
    (U : ι → Prop) (x : Slots ι) (ha : ∀ m, (x.1 m).constituentsExist = true) :
    meanPair ν nc cn p (quietS U) x = quietS U x * (if U p.1 ∨ U p.2 then missPair ν nc (x.1 p.1) (x.1 p.2) else 1) := by
  unfold meanPair missPair farSlots
  split
  · simp
  · simp only [meanDraw, drawSlot_id nc (ha p.1), drawSlot_id nc (ha p.2), lintegral_const, measure_univ, mul_one]
    unfold meanDecide apartProb
    split
    · rename_i hU
      have e : ∀ w : Rand E D, quietS U (decideSlots nc cn p x (canonical (F := ℝ) w).1) = quietS U x *
          (if lt (nc.oneMinusProb (overlapSum nc.constituentWidthSq (x.1 p.1).constituents (x.1 p.2).constituents)) (canonical (F := ℝ) w).1 then 0 else 1) := by
        intro w
        unfold decideSlots
        split
        · rw [mul_zero, quietS, if_neg]
          intro hq
          rcases hU with hU | hU
          · have := hq p.1 hU
            simp [setParticipant_part] at this
          · have := hq p.2 hU
            simp [setParticipant_part] at this
        · rw [mul_one]
      simp only [e]
      rw [lintegral_const_mul]
      simp only [lt_real, decide_eq_true_eq]
      exact Measurable.ite (measurableSet_lt measurable_const hc) measurable_const measurable_const
    · rename_i hU
      have e : ∀ w : Rand E D, quietS U (decideSlots nc cn p x (canonical (F := ℝ) w).1) = quietS U x := by
        intro w
        unfold decideSlots
        split
        · unfold quietS
          dsimp only
          congr 1
          refine propext (forall_congr' fun m => ?_)
          constructor
          · intro hq hm
            have := hq hm
            rwa [if_neg] at this
            rintro (rfl | rfl)
            · exact hU (Or.inl hm)
            · exact hU (Or.inr hm)
          · intro hq hm
            rw [if_neg]
            · exact hq hm
            · rintro (rfl | rfl)
              · exact hU (Or.inl hm)
              · exact hU (Or.inr hm)
        · rfl
      simp only [e, lintegral_const, measure_univ, mul_one]

section
variable (h : FreshSource E D μ)
include h

open scoped Classical in
/-- With all constituents drawn, the probability that none of the marked nucleons is wounded is a product over the pairs. -/
theorem quiet_loop [Countable ι] (nc : NucleonCommon ℝ) (L : List (ι × ι)) (hL : ∀ p ∈ L, p.1 ≠ p.2) (U : ι → Prop) {x : Slots ι} (hx : FitSlots x)
    (ha : ∀ m, (x.1 m).constituentsExist = true) (i : I) :
    ∫⁻ w, quietS U (loopS nc nc.calcNcoll L x w).1 ∂(μ i) =
      quietS U x * (L.map fun p => if U p.1 ∨ U p.2 then missPair (μ i) nc (x.1 p.1) (x.1 p.2) else 1).prod := by
  have := h.prob
  have hm := quietS_meas U
  induction L generalizing x with
  | nil => simp [loopS]
  | cons p L ih =>
    have hp := hL p (by simp)
    have hL' : ∀ p ∈ L, p.1 ≠ p.2 := fun p hp => hL p (List.mem_cons_of_mem _ hp)
    rw [mean_loopS_cons h nc _ p L hm]
    have e : ∀ w : Rand E D, ∫⁻ w', quietS U (loopS nc nc.calcNcoll L (stepS nc nc.calcNcoll p x w).1 w').1 ∂(μ i) =
        quietS U (stepS nc nc.calcNcoll p x w).1 * (L.map fun p => if U p.1 ∨ U p.2 then missPair (μ i) nc (x.1 p.1) (x.1 p.2) else 1).prod := by
      intro w
      have hs := same_step (nc := nc) hp hx ha w
      rw [ih hL' (fit_step hp hx w) fun m => (hs m).2.2.2]
      congr 2
      refine List.map_congr_left fun q _ => ?_
      simp only [missPair, (hs q.1).1, (hs q.1).2.1, (hs q.1).2.2.1, (hs q.2).1, (hs q.2).2.1, (hs q.2).2.2.1]
    simp only [e]
    have hms : Measurable fun w : Rand E D => quietS U (stepS nc nc.calcNcoll p x w).1 := by
      have h1 : Measurable fun t : Slots ι × Rand E D => stepS nc nc.calcNcoll p t.1 t.2 := embedding_ok.measurable_comp_iff.mp (renews_stepS h nc nc.calcNcoll p).meas
      exact hm.comp (measurable_fst.comp (h1.comp (measurable_const.prodMk measurable_id)))
    rw [lintegral_mul_const _ hms, mean_step h nc hp hx hm i, quiet_pair (μ i) (measurable_fst.comp h.canonical_meas) nc _ p U x ha, List.map_cons, List.prod_cons, mul_assoc]

end

omit [Rng ℝ E D] [MeasurableSpace E] [MeasurableSpace D] in
theorem zipIdx_finRange {α : Type} (n : ℕ) (f : Fin n → α) : ((List.finRange n).map f).zipIdx = (List.finRange n).map fun i => (f i, i.val) := by
  refine List.ext_getElem (by simp) fun k h1 h2 => ?_
  simp

/-- No nucleon of the list with its number in `S` is a participant. -/
def Spec.Quiet (S : Set ℕ) (l : List (NucleonData ℝ)) : Prop := ∀ q ∈ l.zipIdx, q.2 ∈ S → q.1.isParticipant = false

open scoped Classical in
/-- The double loop: the probability that none of the nucleons with numbers in `S` (first list) and `T` (second list) is wounded is the mean over the constituents of a product over the pairs. -/
theorem pairLoop_quiet (h : FreshSource E D μ) (nc : NucleonCommon ℝ) (S T : Set ℕ) (As Bs : List (NucleonData ℝ)) (hA : ∀ a ∈ As, a.isParticipant = false)
    (hB : ∀ b ∈ Bs, b.isParticipant = false) (i : I) :
    ∫⁻ w, (if Quiet S (pairLoop nc nc.calcNcoll As Bs 0 false w).1.1 ∧ Quiet T (pairLoop nc nc.calcNcoll As Bs 0 false w).1.2.1 then 1 else 0) ∂(μ i) =
      ∫⁻ w, ((dress nc As w).1.zipIdx.map fun a => ((dress nc Bs (dress nc As w).2).1.zipIdx.map fun b =>
        if a.2 ∈ S ∨ b.2 ∈ T then missPair (μ i) nc a.1 b.1 else 1).prod).prod ∂(μ i) := by
  let s : Fin As.length ⊕ Fin Bs.length → NucleonData ℝ := Sum.elim As.get Bs.get
  let K : List (Fin As.length ⊕ Fin Bs.length) := (List.finRange As.length).map Sum.inl
  let J : List (Fin As.length ⊕ Fin Bs.length) := (List.finRange Bs.length).map Sum.inr
  let U : Fin As.length ⊕ Fin Bs.length → Prop := Sum.elim (fun k => k.val ∈ S) (fun k => k.val ∈ T)
  have hK : K.Nodup := (List.nodup_finRange _).map Sum.inl_injective
  have hJ : J.Nodup := (List.nodup_finRange _).map Sum.inr_injective
  have hd : ∀ k ∈ K, k ∉ J := by
    intro k hk hk'
    obtain ⟨a, -, rfl⟩ := List.mem_map.mp hk
    obtain ⟨b, -, hb⟩ := List.mem_map.mp hk'
    cases hb
  have eA : K.map s = As := by
    simp only [K, List.map_map]
    show (List.finRange As.length).map As.get = As
    exact List.map_get_finRange As
  have eB : J.map s = Bs := by
    simp only [J, List.map_map]
    show (List.finRange Bs.length).map Bs.get = Bs
    exact List.map_get_finRange Bs
  let x : Slots (Fin As.length ⊕ Fin Bs.length) := (s, 0, false)
  have hxp : ∀ m, (x.1 m).isParticipant = false := by
    rintro (m | m)
    · exact hA _ (List.get_mem _ _)
    · exact hB _ (List.get_mem _ _)
  have hx : FitSlots x := fun m hm => by rw [hxp m] at hm; cases hm
  have qK : ∀ (y : Slots (Fin As.length ⊕ Fin Bs.length)), (Quiet S (K.map y.1) ∧ Quiet T (J.map y.1)) ↔ ∀ m, U m → (y.1 m).isParticipant = false := by
    intro y
    simp only [Quiet, K, J, List.map_map, zipIdx_finRange, List.mem_map, List.mem_finRange, true_and, forall_exists_index, forall_apply_eq_imp_iff, Function.comp_apply]
    constructor
    · rintro ⟨h1, h2⟩ (m | m) hm
      · exact h1 m hm
      · exact h2 m hm
    · exact fun h1 => ⟨fun m hm => h1 (Sum.inl m) hm, fun m hm => h1 (Sum.inr m) hm⟩
  have p2 : ∀ w : Rand E D, (if Quiet S (pairLoop nc nc.calcNcoll As Bs 0 false w).1.1 ∧ Quiet T (pairLoop nc nc.calcNcoll As Bs 0 false w).1.2.1 then (1:ℝ≥0∞) else 0) =
      quietS U (loopS nc nc.calcNcoll (K ×ˢ J) x w).1 := by
    intro w
    have := pairLoop_slots nc nc.calcNcoll K J hK hJ hd x w
    rw [show K.map x.1 = As from eA, show J.map x.1 = Bs from eB] at this
    rw [show pairLoop nc nc.calcNcoll As Bs 0 false w = _ from this]
    unfold quietS
    by_cases hq : ∀ m, U m → ((loopS nc nc.calcNcoll (K ×ˢ J) x w).1.1 m).isParticipant = false
    · rw [if_pos hq, if_pos ((qK _).mpr hq)]
    · rw [if_neg hq, if_neg fun hh => hq ((qK _).mp hh)]
  have hne : ∀ p ∈ (K ×ˢ J : List (_ × _)), p.1 ≠ p.2 := by
    intro p hp e
    obtain ⟨h1, h2⟩ := List.mem_product.mp hp
    exact hd _ h1 (e ▸ h2)
  simp only [p2]
  rw [loop_dress h nc _ hne (K ++ J) (quietS_meas U) (quietS_blind nc U) hx i]
  refine lintegral_congr fun w => ?_
  have hall : ∀ m, ((dressS nc (K ++ J) x w).1.1 m).constituentsExist = true := by
    intro m
    refine dressS_has nc _ x w ?_
    rcases m with m | m <;> simp [K, J]
  rw [quiet_loop h nc _ hne U (fit_dress nc _ hx w) hall i, blind_dress (quietS_blind (E := E) (D := D) nc U)]
  have e0 : quietS U x = 1 := if_pos fun m _ => hxp m
  rw [e0, one_mul]
  have dA : dress nc As w = (K.map (dressS nc (K ++ J) x w).1.1, (dressS nc K x w).2) := by
    have := dress_slots nc K hK x w
    rw [show K.map x.1 = As from eA] at this
    rw [this, dressS_append]
    congr 1
    exact List.map_congr_left fun k hk => (dressS_off nc J _ _ (hd k hk)).symm
  have dB : (dress nc Bs (dress nc As w).2).1 = J.map (dressS nc (K ++ J) x w).1.1 := by
    have := dress_slots nc J hJ (dressS nc K x w).1 (dressS nc K x w).2
    rw [show J.map (dressS nc K x w).1.1 = Bs from (List.map_congr_left fun k hk => dressS_off nc K x w fun hk' => hd k hk' hk).trans eB] at this
    rw [dA, this, dressS_append]
  rw [dB, dA]
  generalize (dressS nc (K ++ J) x w).1 = y
  have key : ∀ (K J : List (Fin As.length ⊕ Fin Bs.length)) (f : (Fin As.length ⊕ Fin Bs.length) × (Fin As.length ⊕ Fin Bs.length) → ℝ≥0∞),
      ((K ×ˢ J : List (_ × _)).map f).prod = (K.map fun k => (J.map fun l => f (k, l)).prod).prod := by
    intro K J f
    induction K with
    | nil => rfl
    | cons k K ih =>
      have e0 : ((k :: K) ×ˢ J : List (_ × _)) = J.map (Prod.mk k) ++ (K ×ˢ J : List (_ × _)) := rfl
      rw [e0, List.map_append, List.prod_append, ih, List.map_cons, List.prod_cons, List.map_map]
      rfl
  rw [key]
  simp only [K, J, List.map_map, zipIdx_finRange, Function.comp_def]
  rfl

end Trento
