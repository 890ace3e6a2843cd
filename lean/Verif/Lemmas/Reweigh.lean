import Verif.Lemmas.Wounded
import Verif.Lemmas.ConstituentLaw

/-!
# The weights of the constituents

The weight of a constituent does not enter the decision which nucleons collide, so it can be drawn anew after the collision.
-/

namespace Trento
open MeasureTheory Set Spec
open scoped ENNReal

/-- a change of constituents that leaves their positions -/
def Keeps (φ : List (Constituent ℝ) → List (Constituent ℝ)) : Prop := ∀ cs, (φ cs).map (fun c => (c.x, c.y)) = cs.map fun c => (c.x, c.y)

/-- change the constituents of a nucleon -/
noncomputable def NucleonData.revise (φ : List (Constituent ℝ) → List (Constituent ℝ)) (n : NucleonData ℝ) : NucleonData ℝ := { n with constituents := φ n.constituents }

/-- give the `j`-th constituent of a nucleon (if there is one) the weight `f` -/
noncomputable def NucleonData.reweigh (j : ℕ) (f : ℝ) (n : NucleonData ℝ) : NucleonData ℝ := n.revise fun cs => cs.modify j fun c => { c with fluctuation := f }

/-- give all constituents of a nucleon the weight 1 -/
noncomputable def NucleonData.unweigh (n : NucleonData ℝ) : NucleonData ℝ := n.revise fun cs => cs.map fun c => { c with fluctuation := 1 }

theorem keeps_modify (j : ℕ) (f : ℝ) : Keeps fun cs => cs.modify j fun c => { c with fluctuation := f } := by
  intro cs
  induction cs generalizing j with
  | nil => cases j <;> rfl
  | cons c cs ih =>
    cases j with
    | zero => rfl
    | succ j => simpa using ih j

theorem keeps_unit : Keeps fun cs => cs.map fun c => { c with fluctuation := 1 } := by
  intro cs
  simp only [List.map_map]
  rfl

theorem overlap_pos (v : ℝ) {as as' bs bs' : List (Constituent ℝ)} (ha : as'.map (fun c => (c.x, c.y)) = as.map fun c => (c.x, c.y))
    (hb : bs'.map (fun c => (c.x, c.y)) = bs.map fun c => (c.x, c.y)) : overlapSum v as' bs' = overlapSum v as bs := by
  have e : ∀ as bs : List (Constituent ℝ), overlapSum v as bs = (as.map fun c => (c.x, c.y)).foldl (init := lit 0) fun acc qA =>
      (bs.map fun c => (c.x, c.y)).foldl (init := acc) fun acc qB => acc + exp (-(lit 0.25) * (sqr (qA.1 - qB.1) + sqr (qA.2 - qB.2)) / v) := by
    intro as bs
    simp only [overlapSum, List.foldl_map]
  rw [e, e, ha, hb]

theorem setParticipant_revise (φ : List (Constituent ℝ) → List (Constituent ℝ)) (n : NucleonData ℝ) : (n.revise φ).setParticipant = n.setParticipant.revise φ := by
  unfold NucleonData.setParticipant NucleonData.revise
  split <;> rfl

theorem clear_revise {φ : List (Constituent ℝ) → List (Constituent ℝ)} (hφ : Keeps φ) (n : NucleonData ℝ) : (n.revise φ).clear = n.clear.revise φ := by
  unfold NucleonData.clear NucleonData.revise
  dsimp only
  split
  · rfl
  · have := hφ []
    simp only [List.map_nil, List.map_eq_nil_iff] at this
    rw [this]

section
variable {E D : Type} [Rng ℝ E D] {ι : Type} [DecidableEq ι]

theorem participate_revise_left (nc : NucleonCommon ℝ) {a : NucleonData ℝ} (ha : a.constituentsExist = true) (b : NucleonData ℝ) {φ : List (Constituent ℝ) → List (Constituent ℝ)} (hφ : Keeps φ) (w : Rand E D) :
    nc.participate (a.revise φ) b w =
      (((nc.participate a b w).1.1, (nc.participate a b w).1.2.1.revise φ, (nc.participate a b w).1.2.2), (nc.participate a b w).2) := by
  have s1 : nc.sampleConstituents a w = (a, w) := by unfold NucleonCommon.sampleConstituents; simp [ha]
  have s2 : nc.sampleConstituents (a.revise φ) w = (a.revise φ, w) := by
    unfold NucleonCommon.sampleConstituents; simp [NucleonData.revise, ha]
  have o : ∀ bs, overlapSum nc.constituentWidthSq (a.revise φ).constituents bs = overlapSum nc.constituentWidthSq a.constituents bs :=
    fun bs => overlap_pos _ (hφ _) rfl
  have e1 : (a.revise φ).isParticipant = a.isParticipant := rfl
  have e2 : (a.revise φ).x = a.x := rfl
  have e3 : (a.revise φ).y = a.y := rfl
  unfold NucleonCommon.participate
  simp only [s1, s2, o, e1, e2, e3, setParticipant_revise]
  split
  · rfl
  · split
    · rfl
    · split <;> rfl

theorem participate_revise_right (nc : NucleonCommon ℝ) {b : NucleonData ℝ} (hb : b.constituentsExist = true) (a : NucleonData ℝ) {φ : List (Constituent ℝ) → List (Constituent ℝ)} (hφ : Keeps φ) (w : Rand E D) :
    nc.participate a (b.revise φ) w =
      (((nc.participate a b w).1.1, (nc.participate a b w).1.2.1, (nc.participate a b w).1.2.2.revise φ), (nc.participate a b w).2) := by
  have s1 : ∀ w : Rand E D, nc.sampleConstituents b w = (b, w) := by intro w; unfold NucleonCommon.sampleConstituents; simp [hb]
  have s2 : ∀ w : Rand E D, nc.sampleConstituents (b.revise φ) w = (b.revise φ, w) := by
    intro w; unfold NucleonCommon.sampleConstituents; simp [NucleonData.revise, hb]
  have o : ∀ as, overlapSum nc.constituentWidthSq as (b.revise φ).constituents = overlapSum nc.constituentWidthSq as b.constituents :=
    fun bs => overlap_pos _ rfl (hφ _)
  have e1 : (b.revise φ).isParticipant = b.isParticipant := rfl
  have e2 : (b.revise φ).x = b.x := rfl
  have e3 : (b.revise φ).y = b.y := rfl
  unfold NucleonCommon.participate
  simp only [s1, s2, o, e1, e2, e3, setParticipant_revise]
  split
  · rfl
  · split
    · rfl
    · split <;> rfl

/-- the same for slots -/
noncomputable def reviseS (m : ι) (φ : List (Constituent ℝ) → List (Constituent ℝ)) (x : Slots ι) : Slots ι := (Function.update x.1 m ((x.1 m).revise φ), x.2)

theorem step_revise (nc : NucleonCommon ℝ) (cn : Bool) {p : ι × ι} (hp : p.1 ≠ p.2) {m : ι} {x : Slots ι} (hm : (x.1 m).constituentsExist = true) {φ : List (Constituent ℝ) → List (Constituent ℝ)} (hφ : Keeps φ) (w : Rand E D) :
    stepS nc cn p (reviseS m φ x) w = (reviseS m φ (stepS nc cn p x w).1, (stepS nc cn p x w).2) := by
  by_cases e1 : m = p.1
  · subst e1
    have h1 : (reviseS p.1 φ x).1 p.1 = (x.1 p.1).revise φ := by simp [reviseS]
    have h2 : (reviseS p.1 φ x).1 p.2 = x.1 p.2 := by simp [reviseS, Function.update_of_ne hp.symm]
    unfold stepS
    rw [h1, h2, participate_revise_left nc hm _ hφ]
    simp only [Prod.mk.injEq, and_true]
    unfold reviseS
    simp only [Prod.mk.injEq, and_true]
    funext k
    by_cases k1 : k = p.2
    · subst k1; simp [Function.update_of_ne hp.symm]
    · by_cases k2 : k = p.1
      · subst k2; simp [Function.update_of_ne hp]
      · simp [Function.update_of_ne k1, Function.update_of_ne k2]
  · by_cases e2 : m = p.2
    · subst e2
      have h1 : (reviseS p.2 φ x).1 p.2 = (x.1 p.2).revise φ := by simp [reviseS]
      have h2 : (reviseS p.2 φ x).1 p.1 = x.1 p.1 := by simp [reviseS, Function.update_of_ne hp]
      unfold stepS
      rw [h1, h2, participate_revise_right nc hm _ hφ]
      simp only [Prod.mk.injEq, and_true]
      unfold reviseS
      simp only [Prod.mk.injEq, and_true]
      funext k
      by_cases k1 : k = p.2
      · subst k1; simp
      · by_cases k2 : k = p.1
        · subst k2; simp [Function.update_of_ne hp]
        · simp [Function.update_of_ne k1, Function.update_of_ne k2]
    · have h1 : (reviseS m φ x).1 p.1 = x.1 p.1 := by simp [reviseS, Function.update_of_ne (Ne.symm e1)]
      have h2 : (reviseS m φ x).1 p.2 = x.1 p.2 := by simp [reviseS, Function.update_of_ne (Ne.symm e2)]
      unfold stepS
      rw [h1, h2]
      simp only [Prod.mk.injEq, and_true]
      unfold reviseS
      simp only [Prod.mk.injEq, and_true, Function.update_of_ne e1, Function.update_of_ne e2]
      rw [Function.update_comm e1, Function.update_comm e2]

theorem step_exist (nc : NucleonCommon ℝ) (cn : Bool) (p : ι × ι) {m : ι} {x : Slots ι} (hm : (x.1 m).constituentsExist = true) (w : Rand E D) :
    ((stepS nc cn p x w).1.1 m).constituentsExist = true := by
  have key : ∀ a b : NucleonData ℝ, (a.constituentsExist = true → (nc.participate a b w).1.2.1.constituentsExist = true) ∧
      (b.constituentsExist = true → (nc.participate a b w).1.2.2.constituentsExist = true) := by
    intro a b
    unfold NucleonCommon.participate
    split
    · exact ⟨id, id⟩
    · dsimp only
      split
      · exact ⟨id, id⟩
      · split
        · simp [setParticipant_exist, sampleConstituents_has]
        · simp [sampleConstituents_has]
  unfold stepS
  dsimp only
  by_cases e2 : m = p.2
  · subst e2; simpa using (key _ _).2 hm
  · by_cases e1 : m = p.1
    · subst e1; simpa [Function.update_of_ne e2] using (key _ _).1 hm
    · simpa [Function.update_of_ne e1, Function.update_of_ne e2] using hm

theorem loop_revise (nc : NucleonCommon ℝ) (cn : Bool) (L : List (ι × ι)) (hL : ∀ p ∈ L, p.1 ≠ p.2) {m : ι} {x : Slots ι} (hm : (x.1 m).constituentsExist = true) {φ : List (Constituent ℝ) → List (Constituent ℝ)}
    (hφ : Keeps φ) (w : Rand E D) : loopS nc cn L (reviseS m φ x) w = (reviseS m φ (loopS nc cn L x w).1, (loopS nc cn L x w).2) := by
  induction L generalizing x w with
  | nil => rfl
  | cons p L ih =>
    rw [loopS, step_revise nc cn (hL p (by simp)) hm hφ, ih (fun q hq => hL q (List.mem_cons_of_mem _ hq)) (step_exist nc cn p hm w)]
    rfl

theorem decide_revise (nc : NucleonCommon ℝ) (cn : Bool) (p : ι × ι) (m : ι) (x : Slots ι) {φ : List (Constituent ℝ) → List (Constituent ℝ)} (hφ : Keeps φ) (u : ℝ) :
    decideSlots nc cn p (reviseS m φ x) u = reviseS m φ (decideSlots nc cn p x u) := by
  have hcs : ∀ k, ((reviseS m φ x).1 k).constituents.map (fun c => (c.x, c.y)) = (x.1 k).constituents.map fun c => (c.x, c.y) := by
    intro k
    by_cases e : k = m
    · subst e; simpa [reviseS, NucleonData.revise] using hφ _
    · simp [reviseS, Function.update_of_ne e]
  unfold decideSlots
  rw [overlap_pos _ (hcs p.1) (hcs p.2)]
  split
  · unfold reviseS
    simp only [Prod.mk.injEq, and_true]
    funext k
    by_cases e : k = m
    · subst e
      simp only [Function.update_self]
      split
      · exact setParticipant_revise φ _
      · rfl
    · simp [Function.update_of_ne e]
  · rfl

theorem draw_revise (nc : NucleonCommon ℝ) {q m : ι} {x : Slots ι} (h : (x.1 m).constituentsExist = true) (φ : List (Constituent ℝ) → List (Constituent ℝ)) (w : Rand E D) :
    drawSlot nc q (reviseS m φ x) w = reviseS m φ (drawSlot nc q x w) := by
  by_cases e : q = m
  · subst e
    rw [drawSlot_id nc h, drawSlot_id nc]
    simpa [reviseS, NucleonData.revise] using h
  · have h1 : (reviseS m φ x).1 q = x.1 q := by simp [reviseS, Function.update_of_ne e]
    unfold drawSlot
    rw [h1]
    simp only [reviseS, Function.update_of_ne (Ne.symm e), Prod.mk.injEq, and_true]
    rw [Function.update_comm (Ne.symm e)]

end

end Trento
