import Verif.Lemmas.Rejection
import Mathlib.Probability.ProductMeasure
import Mathlib.MeasureTheory.Function.Floor

/-!
# The ideal tape

A tape of independent numbers, each uniform in `[0, 1)`, is an ideal source: the hypothesis of C85 and C86 is met.
-/

namespace Trento
open MeasureTheory Set Spec

/-- numbers in `[0, 1)` -/
abbrev Unit1 := {x : ℝ // 0 ≤ x ∧ x < 1}

theorem unit1_meas : MeasurableSet {x : ℝ | 0 ≤ x ∧ x < 1} := measurableSet_Ico

/-- the uniform law on `[0, 1)` -/
noncomputable def unif1 : Measure Unit1 := Measure.comap Subtype.val volume

theorem unif1_map : unif1.map Subtype.val = unif := by
  unfold unif1 unif
  have := map_comap_subtype_coe unit1_meas (volume : Measure ℝ)
  exact this

instance : IsProbabilityMeasure unif1 := by
  constructor
  have h : unif1.map Subtype.val univ = 1 := by rw [unif1_map]; exact measure_univ
  rwa [Measure.map_apply measurable_subtype_coe MeasurableSet.univ, preimage_univ] at h

/-- independent uniform numbers -/
noncomputable def unifSeq : Measure (ℕ → Unit1) := Measure.infinitePi fun _ => unif1

/-- put a number in front -/
def consSeq (p : Unit1 × (ℕ → Unit1)) : ℕ → Unit1 := fun i => Nat.casesOn i p.1 p.2

/-- the first number and the rest -/
def unconsSeq (s : ℕ → Unit1) : Unit1 × (ℕ → Unit1) := (s 0, fun i => s (i+1))

theorem consSeq_meas : Measurable consSeq := by
  refine measurable_pi_iff.2 fun i => ?_
  cases i with
  | zero => exact measurable_fst
  | succ i => exact (measurable_pi_apply i).comp measurable_snd

theorem unconsSeq_meas : Measurable unconsSeq :=
  (measurable_pi_apply 0).prodMk (measurable_pi_iff.2 fun i => measurable_pi_apply (i+1))

instance : IsProbabilityMeasure unifSeq := by unfold unifSeq; infer_instance

theorem unifSeq_cons : (unif1.prod unifSeq).map consSeq = unifSeq := by
  apply Measure.eq_infinitePi
  intro s t ht
  classical
  -- the box as a box over an initial segment
  set u : ℕ → Set Unit1 := fun i => if i ∈ s then t i else univ with hu
  have hum : ∀ i, MeasurableSet (u i) := by
    intro i; rw [hu]; dsimp only; split
    · exact ht i
    · exact MeasurableSet.univ
  obtain ⟨n, hn⟩ : ∃ n, ∀ i ∈ s, i < n + 1 := ⟨s.sup id, fun i hi => Nat.lt_succ_of_le (Finset.le_sup (f := id) hi)⟩
  have hbox : Set.pi (s : Set ℕ) t = Set.pi (Finset.range (n+1) : Set ℕ) u := by
    ext x
    simp only [Set.mem_pi, Finset.mem_coe, Finset.mem_range, hu]
    constructor
    · intro h i _
      split
      · rename_i hi; exact h i hi
      · trivial
    · intro h i hi
      have := h i (hn i hi)
      simpa [hi] using this
  have hprod : ∏ i ∈ s, unif1 (t i) = ∏ i ∈ Finset.range (n+1), unif1 (u i) := by
    rw [← Finset.prod_subset (s₁ := s) (fun i hi => Finset.mem_range.2 (hn i hi))]
    · refine Finset.prod_congr rfl fun i hi => ?_
      simp [hu, hi]
    · intro i _ hi
      simp [hu, hi]
  rw [hbox, hprod, Measure.map_apply consSeq_meas (MeasurableSet.pi (Finset.countable_toSet _) fun i _ => hum i)]
  have hpre : consSeq ⁻¹' Set.pi (Finset.range (n+1) : Set ℕ) u = u 0 ×ˢ Set.pi (Finset.range n : Set ℕ) (fun i => u (i+1)) := by
    ext ⟨x, y⟩
    simp only [mem_preimage, Set.mem_pi, Finset.mem_coe, Finset.mem_range, mem_prod]
    constructor
    · intro h
      exact ⟨h 0 (Nat.succ_pos n), fun i hi => h (i+1) (by omega)⟩
    · rintro ⟨h0, h1⟩ i hi
      cases i with
      | zero => exact h0
      | succ i => exact h1 i (by omega)
  rw [hpre, Measure.prod_prod, unifSeq, Measure.infinitePi_pi _ fun i _ => hum (i+1), Finset.prod_range_succ', mul_comm]

theorem unifSeq_uncons : unifSeq.map unconsSeq = unif1.prod unifSeq := by
  conv_lhs => rw [← unifSeq_cons]
  rw [Measure.map_map unconsSeq_meas consSeq_meas]
  have : unconsSeq ∘ consSeq = id := by funext p; rfl
  rw [this, Measure.map_id]

instance : MeasurableSpace Tape := MeasurableSpace.comap Tape.val inferInstance

/-- the tape with the given numbers -/
def toTape (s : ℕ → Unit1) : Tape := ⟨fun i => (s i).1, fun i => (s i).2⟩

theorem toTape_meas : Measurable toTape := by
  exact measurable_comap_iff.2 (measurable_pi_iff.2 fun i => measurable_subtype_coe.comp (measurable_pi_apply i))

/-- **The ideal tape**: independent uniform numbers. -/
noncomputable def idealTape : Measure Tape := unifSeq.map toTape

instance : IsProbabilityMeasure idealTape := Measure.isProbabilityMeasure_map toTape_meas.aemeasurable

theorem tape_val_meas (i : ℕ) : Measurable fun t : Tape => t.val i :=
  (measurable_pi_apply i).comp (comap_measurable Tape.val)

theorem tape_next_meas : Measurable Tape.next := by
  exact measurable_comap_iff.2 (measurable_pi_iff.2 fun i => tape_val_meas (i+1))

theorem tape_law : idealTape.map (fun t => (t.val 0, t.next)) = unif.prod idealTape := by
  have hm : Measurable fun t : Tape => (t.val 0, t.next) := (tape_val_meas 0).prodMk tape_next_meas
  unfold idealTape
  rw [Measure.map_map hm toTape_meas]
  have e : (fun t : Tape => (t.val 0, t.next)) ∘ toTape = Prod.map Subtype.val toTape ∘ unconsSeq := by funext s; rfl
  rw [e, ← Measure.map_map (measurable_subtype_coe.prodMap toTape_meas) unconsSeq_meas, unifSeq_uncons,
    ← Measure.map_prod_map _ _ measurable_subtype_coe toTape_meas, unif1_map]

/-- The ideal tape is an ideal source. -/
theorem idealTape_ideal : IdealSource Tape Unit idealTape where
  prob := inferInstance
  canonical_meas := (tape_val_meas 0).prodMk tape_next_meas
  canonical_law := tape_law
  radius_state _ _ _ := rfl
  radius_meas t _ := by
    have : Measurable fun e : Tape => ((1 - e.val 0) * (t.headD (0, 0)).1 + e.val 0 * (t.getLastD (0, 0)).1) :=
      ((measurable_const.sub (tape_val_meas 0)).mul_const _).add ((tape_val_meas 0).mul_const _)
    exact this.prodMk tape_next_meas
  radius_law t _ := by
    set g : ℝ → ℝ := fun u => (1 - u) * (t.headD (0, 0)).1 + u * (t.getLastD (0, 0)).1 with hg
    have hgm : Measurable g := ((measurable_const.sub measurable_id).mul_const _).add (measurable_id.mul_const _)
    refine ⟨unif.map g, Measure.isProbabilityMeasure_map hgm.aemeasurable, ?_⟩
    have hm : Measurable fun t : Tape => (t.val 0, t.next) := (tape_val_meas 0).prodMk tape_next_meas
    have e : (fun e : Tape => ((Rng.piecewiseLinear (F := ℝ) t () e).1, (Rng.piecewiseLinear (F := ℝ) (D := Unit) t () e).2.2)) =
        Prod.map g id ∘ fun e : Tape => (e.val 0, e.next) := rfl
    have h2 : (unif.map g).prod idealTape = (unif.prod idealTape).map (Prod.map g id) := by
      rw [← Measure.map_prod_map _ _ hgm measurable_id, Measure.map_id]
    rw [h2, ← tape_law, Measure.map_map (hgm.prodMap measurable_id) hm]
    rfl
  index_meas k _ := by
    have : Measurable fun e : Tape => ⌊(k:ℝ) * e.val 0⌋₊ := (Nat.measurable_floor (R := ℝ)).comp ((tape_val_meas 0).const_mul _)
    exact this.prodMk tape_next_meas

end Trento
