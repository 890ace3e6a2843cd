import Verif.Lemmas.BinaryCount
import Verif.Props.Exchange

/-!
# The probability that a pair of nucleons collides, as a function of their distance vector
-/

namespace Trento
open MeasureTheory Set Spec
open scoped ENNReal

variable {E D : Type} [Rng ℝ E D]

/-- A new nucleon at a point of the transverse plane: not a participant, no constituents yet. -/
def Spec.newNucleon (x y : ℝ) : NucleonData ℝ := ⟨x, y, 0, false, false, []⟩

theorem newNucleon_fresh (x y : ℝ) : Fresh (newNucleon x y) := ⟨rfl, rfl⟩

/-- constituents moved -/
def moveC (x y : ℝ) (c : Constituent ℝ) : Constituent ℝ := { c with x := c.x + x, y := c.y + y }

/-- the constituents of a new nucleon are those of a new nucleon at the origin, moved -/
theorem sample_moved (nc : NucleonCommon ℝ) (n : NucleonData ℝ) (hn : Fresh n) (w : Rand E D) :
    (nc.sampleConstituents n w).1.constituents = (nc.sampleConstituents (newNucleon 0 0) w).1.constituents.map (moveC n.x n.y) := by
  unfold NucleonCommon.sampleConstituents
  simp only [hn.2, newNucleon, Bool.false_eq_true, if_false, List.map_map]
  refine List.map_congr_left fun c _ => ?_
  simp only [Function.comp, moveC, Constituent.mk.injEq, and_true]
  constructor <;> ring

theorem overlapSum_moved (v2 x y x' y' : ℝ) (as bs : List (Constituent ℝ)) :
    overlapSum v2 (as.map (moveC x y)) (bs.map (moveC x' y')) = overlapSum v2 (as.map (moveC (x - x') (y - y'))) (bs.map (moveC 0 0)) := by
  simp only [overlapSum_eq, List.map_map, Function.comp_def, moveC]
  congr 1
  refine List.map_congr_left fun a _ => ?_
  congr 1
  refine List.map_congr_left fun b _ => ?_
  congr 3
  ring

variable [MeasurableSpace E] [MeasurableSpace D] {I : Type} {μ : I → Measure (Rand E D)}

/-- The probability that two new nucleons collide, the first displaced by `(x, y)` from the second. -/
noncomputable def Spec.pairProbability (ν : Measure (Rand E D)) (nc : NucleonCommon ℝ) (x y : ℝ) : ℝ≥0∞ :=
  ν {w | (nc.participate (newNucleon x y) (newNucleon 0 0) w).1.1 = true}

theorem hitProb_moved (ν : Measure (Rand E D)) (nc : NucleonCommon ℝ) (a b : NucleonData ℝ) (ha : Fresh a) (hb : Fresh b) :
    hitProb ν nc a b = hitProb ν nc (newNucleon (a.x - b.x) (a.y - b.y)) (newNucleon 0 0) := by
  unfold hitProb
  have e1 : ∀ w : Rand E D, (nc.sampleConstituents (newNucleon (a.x - b.x) (a.y - b.y)) w).1.constituents =
      (nc.sampleConstituents (newNucleon 0 0) w).1.constituents.map (moveC (a.x - b.x) (a.y - b.y)) := fun w => sample_moved nc _ (newNucleon_fresh _ _) w
  have e2 : ∀ w : Rand E D, (nc.sampleConstituents (newNucleon 0 0) w).1.constituents =
      (nc.sampleConstituents (newNucleon 0 0) w).1.constituents.map (moveC 0 0) := fun w => sample_moved nc (newNucleon 0 0) (newNucleon_fresh _ _) w
  have hd : sqr ((newNucleon (a.x - b.x) (a.y - b.y)).x - (newNucleon 0 0).x) + sqr ((newNucleon (a.x - b.x) (a.y - b.y)).y - (newNucleon 0 0).y) =
      sqr (a.x - b.x) + sqr (a.y - b.y) := by simp [newNucleon]
  rw [hd]
  split
  · rfl
  · refine lintegral_congr fun w => lintegral_congr fun w' => ?_
    unfold decideProb
    rw [e1 w, sample_moved nc a ha w, sample_moved nc b hb w']
    conv_rhs => rw [e2 w']
    simp only [overlapSum_moved nc.constituentWidthSq a.x a.y b.x b.y, overlapSum_moved nc.constituentWidthSq (a.x - b.x) (a.y - b.y) 0 0, sub_zero]

section
variable (h : FreshSource E D μ)
include h

theorem loopFlag_meas (nc : NucleonCommon ℝ) (cn : Bool) : Measurable fun t : (List (NucleonData ℝ) × List (NucleonData ℝ)) × Rand E D =>
    (pairLoop nc cn t.1.1 t.1.2 0 false t.2).1.2.2.2 := by
  have := h.prob
  have h3 := (renews_pairLoop h nc cn).comp (f := fun p : List (NucleonData ℝ) × List (NucleonData ℝ) => ((p.2, 0, false), p.1)) (by fun_prop)
  have hg : Measurable fun r : (List (NucleonData ℝ) × List (NucleonData ℝ) × ℕ × Bool) × Rand E D => r.1.2.2.2 := by fun_prop
  exact hg.comp (embedding_ok.measurable_comp_iff.mp h3.meas)

theorem participate_meas (nc : NucleonCommon ℝ) (a b : NucleonData ℝ) : Measurable fun w : Rand E D => (pairLoop nc nc.calcNcoll [a] [b] 0 false w).1.2.2.2 := by
  have h1 := loopFlag_meas h nc nc.calcNcoll
  have h2 : Measurable fun w : Rand E D => ((([a], [b]), w) : (List (NucleonData ℝ) × List (NucleonData ℝ)) × Rand E D) := by fun_prop
  exact h1.comp h2

/-- the probability of a collision of two nucleons that are not participants yet -/
theorem hitProb_participate (nc : NucleonCommon ℝ) (hn : nc.calcNcoll = true) (a b : NucleonData ℝ) (ha : a.isParticipant = false) (hb : b.isParticipant = false) (i : I) :
    μ i {w | (nc.participate a b w).1.1 = true} = hitProb (μ i) nc a b := by
  have := h.prob
  have key := pairLoop_count h nc hn [a] [b] (by simpa using ha) (by simpa using hb) i
  simp only [List.map_cons, List.map_nil, List.sum_cons, List.sum_nil, add_zero] at key
  have hset : MeasurableSet {w : Rand E D | (nc.participate a b w).1.1 = true} := by
    have e : {w : Rand E D | (nc.participate a b w).1.1 = true} = (fun w : Rand E D => (pairLoop nc nc.calcNcoll [a] [b] 0 false w).1.2.2.2) ⁻¹' {true} := by
      ext w
      simp [pairLoop, pairRow]
    rw [e]
    exact participate_meas h nc a b (measurableSet_singleton true)
  rw [← key, ← lintegral_indicator_one hset]
  refine lintegral_congr fun w => ?_
  simp only [indicator, mem_ofPred_eq, Pi.one_apply, pairLoop, pairRow, hn, Bool.and_true]
  split <;> simp

/-- the probability of a collision of two new nucleons depends on their distance vector only -/
theorem hitProb_eq (nc : NucleonCommon ℝ) (hn : nc.calcNcoll = true) (a b : NucleonData ℝ) (ha : Fresh a) (hb : Fresh b) (i : I) :
    hitProb (μ i) nc a b = pairProbability (μ i) nc (a.x - b.x) (a.y - b.y) := by
  unfold pairProbability
  rw [hitProb_participate h nc hn _ _ rfl rfl i, hitProb_moved _ nc a b ha hb]

theorem pairProbability_meas (nc : NucleonCommon ℝ) (hn : nc.calcNcoll = true) (i : I) : Measurable fun p : ℝ × ℝ => pairProbability (μ i) nc p.1 p.2 := by
  have hm := hitProb_meas h nc i
  have h0 : Measurable fun p : ℝ × ℝ => (newNucleon p.1 p.2, newNucleon 0 0) :=
    (nucleon_mk measurable_fst measurable_snd measurable_const measurable_const measurable_const measurable_const).prodMk measurable_const
  refine measurable_of_eq (hm.comp h0) fun p => ?_
  simp only [Function.comp]
  rw [hitProb_eq h nc hn _ _ (newNucleon_fresh _ _) (newNucleon_fresh _ _)]
  simp [newNucleon]

theorem pairProbability_const (nc : NucleonCommon ℝ) (hn : nc.calcNcoll = true) (x y : ℝ) (i j : I) : pairProbability (μ i) nc x y = pairProbability (μ j) nc x y := by
  have := h.prob
  have h3 := (renews_pairLoop h nc nc.calcNcoll).comp (f := fun _ : Unit => (([newNucleon 0 0], 0, false), [newNucleon x y])) (by fun_prop)
  have hg : Measurable fun r : List (NucleonData ℝ) × List (NucleonData ℝ) × ℕ × Bool => (r.2.2.1 : ℝ≥0∞) :=
    (measurable_from_top (f := fun n : ℕ => (n : ℝ≥0∞))).comp (by fun_prop)
  have := h3.const () hg i j
  have key := fun i => pairLoop_count h nc hn [newNucleon x y] [newNucleon 0 0] (by simp [newNucleon]) (by simp [newNucleon]) i
  simp only [List.map_cons, List.map_nil, List.sum_cons, List.sum_nil, add_zero] at key
  unfold pairProbability
  rw [hitProb_participate h nc hn _ _ rfl rfl i, hitProb_participate h nc hn _ _ rfl rfl j, ← key i, ← key j]
  exact this

end

end Trento
