import Verif.Lemmas.RenewModel
import Verif.Lemmas.Retry
import Mathlib.Data.List.Perm.Basic
import Mathlib.Data.List.ProdSigma

/-!
# The order of the pairs does not matter

The double loop over nucleon pairs, seen as a sequence of steps on numbered slots.  In law, the steps commute: a nucleon's constituents are drawn once, by whichever
pair needs them first.
-/

namespace Trento
open MeasureTheory Set Spec
open scoped ENNReal

variable {E D : Type} [Rng ℝ E D] {ι : Type} [DecidableEq ι]

/-- nucleons in slots, binary collisions so far, whether there was a collision -/
abbrev Slots (ι : Type) := (ι → NucleonData ℝ) × ℕ × Bool

/-- one pair of the double loop -/
noncomputable def stepS (nc : NucleonCommon ℝ) (cn : Bool) (p : ι × ι) (x : Slots ι) (w : Rand E D) : Slots ι × Rand E D :=
  ((Function.update (Function.update x.1 p.1 (nc.participate (x.1 p.1) (x.1 p.2) w).1.2.1) p.2 (nc.participate (x.1 p.1) (x.1 p.2) w).1.2.2,
    (if (nc.participate (x.1 p.1) (x.1 p.2) w).1.1 && cn then x.2.1 + 1 else x.2.1), (nc.participate (x.1 p.1) (x.1 p.2) w).1.1 || x.2.2),
    (nc.participate (x.1 p.1) (x.1 p.2) w).2)

/-- a list of pairs -/
noncomputable def loopS (nc : NucleonCommon ℝ) (cn : Bool) : List (ι × ι) → Slots ι → Rand E D → Slots ι × Rand E D
  | [], x, w => (x, w)
  | p :: L, x, w => loopS nc cn L (stepS nc cn p x w).1 (stepS nc cn p x w).2

theorem loopS_append (nc : NucleonCommon ℝ) (cn : Bool) (L L' : List (ι × ι)) (x : Slots ι) (w : Rand E D) :
    loopS nc cn (L ++ L') x w = loopS nc cn L' (loopS nc cn L x w).1 (loopS nc cn L x w).2 := by
  induction L generalizing x w with
  | nil => rfl
  | cons p L ih => simp only [List.cons_append, loopS, ih]

theorem stepS_off (nc : NucleonCommon ℝ) (cn : Bool) (p : ι × ι) (x : Slots ι) (w : Rand E D) {m : ι} (h1 : m ≠ p.1) (h2 : m ≠ p.2) :
    (stepS nc cn p x w).1.1 m = x.1 m := by
  simp [stepS, Function.update_of_ne h1, Function.update_of_ne h2]

theorem loopS_off (nc : NucleonCommon ℝ) (cn : Bool) (L : List (ι × ι)) (x : Slots ι) (w : Rand E D) {m : ι} (h : ∀ p ∈ L, m ≠ p.1 ∧ m ≠ p.2) :
    (loopS nc cn L x w).1.1 m = x.1 m := by
  induction L generalizing x w with
  | nil => rfl
  | cons p L ih =>
    rw [loopS, ih _ _ fun q hq => h q (List.mem_cons_of_mem _ hq)]
    exact stepS_off nc cn p x w (h p (by simp)).1 (h p (by simp)).2

theorem pairRow_slots (nc : NucleonCommon ℝ) (cn : Bool) (k : ι) (J : List ι) (hJ : J.Nodup) (hk : k ∉ J) (x : Slots ι) (w : Rand E D) :
    pairRow nc cn (x.1 k) (J.map x.1) x.2.1 x.2.2 w =
      (((loopS nc cn (J.map (Prod.mk k)) x w).1.1 k, J.map (loopS nc cn (J.map (Prod.mk k)) x w).1.1, (loopS nc cn (J.map (Prod.mk k)) x w).1.2.1,
        (loopS nc cn (J.map (Prod.mk k)) x w).1.2.2), (loopS nc cn (J.map (Prod.mk k)) x w).2) := by
  induction J generalizing x w with
  | nil => rfl
  | cons l J ih =>
    obtain ⟨hl, hJ'⟩ := List.nodup_cons.mp hJ
    have hkl : k ≠ l := fun h => hk (by simp [h])
    have hkJ : k ∉ J := fun h => hk (by simp [h])
    have e1 : (stepS nc cn (k, l) x w).1.1 k = (nc.participate (x.1 k) (x.1 l) w).1.2.1 := by
      simp [stepS, Function.update_of_ne hkl]
    have e2 : (stepS nc cn (k, l) x w).1.1 l = (nc.participate (x.1 k) (x.1 l) w).1.2.2 := by
      simp [stepS]
    have e3 : J.map (stepS nc cn (k, l) x w).1.1 = J.map x.1 :=
      List.map_congr_left fun m hm => stepS_off nc cn (k, l) x w (fun h => hkJ ((show m = k from h) ▸ hm)) (fun h => hl ((show m = l from h) ▸ hm))
    have e4 : (loopS nc cn (J.map (Prod.mk k)) (stepS nc cn (k, l) x w).1 (stepS nc cn (k, l) x w).2).1.1 l = (stepS nc cn (k, l) x w).1.1 l := by
      refine loopS_off nc cn _ _ _ fun p hp => ?_
      obtain ⟨m, hm, rfl⟩ := List.mem_map.mp hp
      exact ⟨hkl.symm, fun h => hl (by simpa [h] using hm)⟩
    have := ih hJ' hkJ (stepS nc cn (k, l) x w).1 (stepS nc cn (k, l) x w).2
    rw [e1, e3] at this
    simp only [List.map_cons, loopS, e4, e2]
    have this' : pairRow nc cn (nc.participate (x.1 k) (x.1 l) w).1.2.1 (J.map x.1) (if (nc.participate (x.1 k) (x.1 l) w).1.1 && cn then x.2.1 + 1 else x.2.1)
      ((nc.participate (x.1 k) (x.1 l) w).1.1 || x.2.2) (nc.participate (x.1 k) (x.1 l) w).2 = _ := this
    rw [pairRow]
    dsimp only
    rw [this']

theorem pairLoop_slots (nc : NucleonCommon ℝ) (cn : Bool) (K J : List ι) (hK : K.Nodup) (hJ : J.Nodup) (hd : ∀ k ∈ K, k ∉ J) (x : Slots ι) (w : Rand E D) :
    pairLoop nc cn (K.map x.1) (J.map x.1) x.2.1 x.2.2 w =
      ((K.map (loopS nc cn (K ×ˢ J) x w).1.1, J.map (loopS nc cn (K ×ˢ J) x w).1.1, (loopS nc cn (K ×ˢ J) x w).1.2.1, (loopS nc cn (K ×ˢ J) x w).1.2.2),
        (loopS nc cn (K ×ˢ J) x w).2) := by
  induction K generalizing x w with
  | nil => rfl
  | cons k K ih =>
    obtain ⟨hkK, hK'⟩ := List.nodup_cons.mp hK
    have hkJ : k ∉ J := hd k (by simp)
    have e0 : ((k :: K) ×ˢ J : List (ι × ι)) = J.map (Prod.mk k) ++ (K ×ˢ J : List (ι × ι)) := rfl
    have e1 : K.map (loopS nc cn (J.map (Prod.mk k)) x w).1.1 = K.map x.1 := by
      refine List.map_congr_left fun m hm => loopS_off nc cn _ _ _ fun p hp => ?_
      obtain ⟨l, hl, rfl⟩ := List.mem_map.mp hp
      exact ⟨fun h => hkK (by simpa [h] using hm), fun h => hd m (by simp [hm]) (by simpa [h] using hl)⟩
    have := ih hK' (fun m hm => hd m (by simp [hm])) (loopS nc cn (J.map (Prod.mk k)) x w).1 (loopS nc cn (J.map (Prod.mk k)) x w).2
    rw [e1] at this
    have e2 : (loopS nc cn (K ×ˢ J) (loopS nc cn (J.map (Prod.mk k)) x w).1 (loopS nc cn (J.map (Prod.mk k)) x w).2).1.1 k =
        (loopS nc cn (J.map (Prod.mk k)) x w).1.1 k := by
      refine loopS_off nc cn _ _ _ fun p hp => ?_
      obtain ⟨h1, h2⟩ := List.mem_product.mp hp
      exact ⟨fun h => hkK (h ▸ h1), fun h => hkJ (h ▸ h2)⟩
    rw [e0, loopS_append, List.map_cons, List.map_cons, pairLoop]
    simp only [pairRow_slots nc cn k J hJ hkJ x w, this, e2]

variable [MeasurableSpace E] [MeasurableSpace D] {I : Type} {μ : I → Measure (Rand E D)}

section
variable (h : FreshSource E D μ)
include h

theorem renews_stepS (nc : NucleonCommon ℝ) (cn : Bool) (p : ι × ι) : Renews μ fun (x : Slots ι) (w : Rand E D) => .ok (stepS nc cn p x w) := by
  have := h.prob
  have hap : ∀ k : ι, Measurable fun x : Slots ι => x.1 k := fun k => (measurable_pi_apply k).comp measurable_fst
  have h1 := (renews_participate h nc).comp (f := fun x : Slots ι => (x.1 p.1, x.1 p.2)) ((hap p.1).prodMk (hap p.2))
  have hcnt : Measurable fun q : Bool × ℕ => if q.1 && cn then q.2 + 1 else q.2 := measurable_of_countable _
  have hor : Measurable fun q : Bool × Bool => q.1 || q.2 := measurable_of_countable _
  have hf : Measurable fun q : Slots ι × (Bool × NucleonData ℝ × NucleonData ℝ) =>
      ((Function.update (Function.update q.1.1 p.1 q.2.2.1) p.2 q.2.2.2, (if q.2.1 && cn then q.1.2.1 + 1 else q.1.2.1), (q.2.1 || q.1.2.2)) : Slots ι) := by
    refine Measurable.prodMk ?_ (Measurable.prodMk (hcnt.comp (Measurable.prodMk (f := fun q : Slots ι × (Bool × NucleonData ℝ × NucleonData ℝ) => q.2.1) (by fun_prop) (by fun_prop)))
      (hor.comp (Measurable.prodMk (f := fun q : Slots ι × (Bool × NucleonData ℝ × NucleonData ℝ) => q.2.1) (by fun_prop) (by fun_prop))))
    have h1 : Measurable fun q : Slots ι × (Bool × NucleonData ℝ × NucleonData ℝ) => Function.update q.1.1 p.1 q.2.2.1 :=
      measurable_update'.comp (Measurable.prodMk (f := fun q : Slots ι × (Bool × NucleonData ℝ × NucleonData ℝ) => q.1.1) (by fun_prop) (by fun_prop))
    exact measurable_update'.comp (h1.prodMk (by fun_prop))
  exact (h1.map hf).congr fun x w => rfl

theorem renews_loopS (nc : NucleonCommon ℝ) (cn : Bool) (L : List (ι × ι)) : Renews μ fun (x : Slots ι) (w : Rand E D) => .ok (loopS nc cn L x w) := by
  have := h.prob
  induction L with
  | nil => exact (Renews.pure (q := fun x : Slots ι => x) measurable_id).congr fun x w => rfl
  | cons p L ih => exact ((renews_stepS h nc cn p).bind (ih.comp (f := fun q : Slots ι × Slots ι => q.2) measurable_snd)).congr fun x w => rfl

/-- mean over a list of pairs -/
theorem mean_loopS_cons (nc : NucleonCommon ℝ) (cn : Bool) (p : ι × ι) (L : List (ι × ι)) {g : Slots ι → ℝ≥0∞} (hg : Measurable g) (x : Slots ι) (i : I) :
    ∫⁻ w, g (loopS nc cn (p :: L) x w).1 ∂(μ i) = ∫⁻ w, (∫⁻ w', g (loopS nc cn L (stepS nc cn p x w).1 w').1 ∂(μ i)) ∂(μ i) := by
  have := h.prob
  have hL := renews_loopS h nc cn L
  have hh : Measurable fun t : Slots ι × Rand E D => g (loopS nc cn L t.1 t.2).1 :=
    (hg.comp measurable_fst).comp (embedding_ok.measurable_comp_iff.mp hL.meas)
  exact (renews_stepS h nc cn p).law x _ hh (fun a i j => hL.const a hg i j) i i i

theorem mean_meas (nc : NucleonCommon ℝ) (cn : Bool) (L : List (ι × ι)) {g : Slots ι → ℝ≥0∞} (hg : Measurable g) (i : I) :
    Measurable fun x => ∫⁻ w, g (loopS nc cn L x w).1 ∂(μ i) := by
  have := h.prob
  have hh : Measurable fun t : Slots ι × Rand E D => g (loopS nc cn L t.1 t.2).1 :=
    (hg.comp measurable_fst).comp (embedding_ok.measurable_comp_iff.mp (renews_loopS h nc cn L).meas)
  exact hh.lintegral_prod_right'

end

end Trento
