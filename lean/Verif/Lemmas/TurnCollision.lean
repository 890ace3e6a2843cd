import Verif.Lemmas.Turn

/-! # Collisions turned by half a turn about the axis of the impact parameter -/

namespace Trento
open MeasureTheory Set Spec Real
open scoped ENNReal

variable {E D : Type} [Rng ℝ E D] [MeasurableSpace E] [MeasurableSpace D] {I : Type} {μ : I → Measure (Rand E D)}
variable {Y Z : Type} [MeasurableSpace Y] [MeasurableSpace Z]

section
variable (h : FreshSource E D μ) (hn : SymmetricNormal μ)
include h hn

theorem equi_drawConstituents (nc : NucleonCommon ℝ) (k : ℕ) :
    Equi μ (fun (p : ℝ × ℝ) (w : Rand E D) => .ok (drawConstituents nc k p.1 p.2 w)) (fun p => (p.1, -p.2))
      fun t => (t.1.map turnC, t.2.1, -t.2.2) := by
  have := h.prob
  have hτ : Measurable fun t : List (Constituent ℝ) × ℝ × ℝ => (t.1.map turnC, t.2.1, -t.2.2) :=
    (mapTurnC_meas.comp measurable_fst).prodMk (by fun_prop)
  induction k with
  | zero =>
    exact (Equi.pure (q := fun p : ℝ × ℝ => (([] : List (Constituent ℝ)), p.1, p.2)) (by fun_prop) hτ fun p => rfl).congr fun y w => rfl
  | succ k ih =>
    have h4 := ih.comp (f := fun p : (((ℝ × ℝ) × ℝ) × ℝ) × ℝ => (p.1.1.1.1 + p.1.1.2, p.1.1.1.2 + p.1.2)) (by fun_prop)
      (ρ := fun p => ((((p.1.1.1.1, -p.1.1.1.2), id p.1.1.2), -p.1.2), id p.2)) fun p => by simp only [id, Prod.mk.injEq, true_and]; ring
    have h5 := h4.map (f := fun p : ((((ℝ × ℝ) × ℝ) × ℝ) × ℝ) × (List (Constituent ℝ) × ℝ × ℝ) =>
        ((⟨p.1.1.1.2, p.1.1.2, p.1.2⟩ : Constituent ℝ) :: p.2.1, p.2.2.1, p.2.2.2))
      (((constituent_mk (by fun_prop) (by fun_prop) (by fun_prop)).cons (by fun_prop)).prodMk (by fun_prop)) hτ fun p a => rfl
    have h2 := Equi.fixed (renews_normal (Y := ℝ × ℝ) h (lit 0) nc.samplingWidth) (σ := fun p : ℝ × ℝ => (p.1, -p.2)) fun _ _ => rfl
    have h3 := Equi.fixed (renews_gamma (Y := ((ℝ × ℝ) × ℝ) × ℝ) h nc.gammaAlpha nc.gammaBeta)
      (σ := fun p : ((ℝ × ℝ) × ℝ) × ℝ => (((p.1.1.1, -p.1.1.2), id p.1.2), -p.2)) fun _ _ => rfl
    exact (h2.bind ((equi_normal h hn _).bind (h3.bind h5))).congr fun y w => rfl

theorem equi_sampleConstituents (nc : NucleonCommon ℝ) :
    Equi μ (fun (n : NucleonData ℝ) (w : Rand E D) => .ok (nc.sampleConstituents n w)) turn turn := by
  have := h.prob
  have h1 := (equi_drawConstituents h hn nc nc.constituentNumber).comp (f := fun _ : NucleonData ℝ => ((lit 0 : ℝ), (lit 0 : ℝ))) (ρ := turn) measurable_const
    fun _ => by simp
  have hsub : Measurable fun q : ((ℝ × ℝ) × (ℝ × ℝ)) × Constituent ℝ =>
      ({ q.2 with x := q.2.x + (q.1.1.1 - q.1.2.1), y := q.2.y + (q.1.1.2 - q.1.2.2) } : Constituent ℝ) :=
    constituent_mk (((constituent_x.comp measurable_snd)).add (by fun_prop)) (((constituent_y.comp measurable_snd)).add (by fun_prop))
      (constituent_fl.comp measurable_snd)
  have hx : Measurable fun p : NucleonData ℝ × (List (Constituent ℝ) × ℝ × ℝ) =>
      ((p.1.x, p.1.y), (p.2.2.1 / ofInt nc.constituentNumber, p.2.2.2 / ofInt nc.constituentNumber)) :=
    ((nucleon_x.comp measurable_fst).prodMk (nucleon_y.comp measurable_fst)).prodMk (Measurable.prodMk (by fun_prop) (by fun_prop))
  have hl := Measurable.listMap (g := fun (q : (ℝ × ℝ) × (ℝ × ℝ)) (c : Constituent ℝ) =>
      ({ c with x := c.x + (q.1.1 - q.2.1), y := c.y + (q.1.2 - q.2.2) } : Constituent ℝ)) hsub hx (measurable_fst.comp measurable_snd)
  have h2 := h1.map (f := fun p : NucleonData ℝ × (List (Constituent ℝ) × ℝ × ℝ) => ({ p.1 with
      constituents := p.2.1.map fun c => { c with x := c.x + (p.1.x - p.2.2.1 / ofInt nc.constituentNumber), y := c.y + (p.1.y - p.2.2.2 / ofInt nc.constituentNumber) }
      constituentsExist := true } : NucleonData ℝ))
    (nucleon_mk (nucleon_x.comp measurable_fst) (nucleon_y.comp measurable_fst) (nucleon_z.comp measurable_fst) (nucleon_part.comp measurable_fst) measurable_const hl)
    turn_meas (fun n t => by
      simp only [turn, if_true, List.map_map, Function.comp_def, turnC]
      congr 1
      refine List.map_congr_left fun c _ => ?_
      simp only [Constituent.mk.injEq, true_and, and_true]
      ring)
  refine (Equi.bite (Equi.pure measurable_id turn_meas fun _ => rfl) h2 nucleon_exist fun n => rfl).congr fun n w => ?_
  unfold NucleonCommon.sampleConstituents
  split <;> rfl

omit h hn [Rng ℝ E D] [MeasurableSpace E] [MeasurableSpace D] in
theorem overlapSum_turn (v : ℝ) (as bs : List (Constituent ℝ)) : overlapSum v (as.map turnC) (bs.map turnC) = overlapSum v as bs := by
  have e : ∀ a b : Constituent ℝ, (-a.y - -b.y)^2 = (a.y - b.y)^2 := fun a b => by ring
  simp only [overlapSum, List.foldl_map, turnC, sqr_real, e]

omit h hn [MeasurableSpace E] [MeasurableSpace D] in
theorem sampleConstituents_exist (nc : NucleonCommon ℝ) (n : NucleonData ℝ) (w : Rand E D) : (nc.sampleConstituents n w).1.constituentsExist = true := by
  unfold NucleonCommon.sampleConstituents
  split <;> simp_all

omit h hn [Rng ℝ E D] [MeasurableSpace E] [MeasurableSpace D] in
theorem turn_setParticipant (n : NucleonData ℝ) : turn n.setParticipant = (turn n).setParticipant := by
  obtain ⟨x, y, z, p, e, cs⟩ := n
  cases p <;> rfl

/-- a pair turned -/
noncomputable def turnPair (p : NucleonData ℝ × NucleonData ℝ) : NucleonData ℝ × NucleonData ℝ := (turn p.1, turn p.2)

theorem equi_participate (nc : NucleonCommon ℝ) :
    Equi μ (fun (p : NucleonData ℝ × NucleonData ℝ) (w : Rand E D) => .ok (nc.participate p.1 p.2 w)) turnPair
      fun t => (t.1, turn t.2.1, turn t.2.2) := by
  have := h.prob
  have hτ : Measurable fun t : Bool × NucleonData ℝ × NucleonData ℝ => (t.1, turn t.2.1, turn t.2.2) :=
    measurable_fst.prodMk ((turn_meas.comp (by fun_prop)).prodMk (turn_meas.comp (by fun_prop)))
  have hA : Measurable fun p : NucleonData ℝ × NucleonData ℝ => p.1.isParticipant := nucleon_part.comp measurable_fst
  have hB : Measurable fun p : NucleonData ℝ × NucleonData ℝ => p.2.isParticipant := nucleon_part.comp measurable_snd
  have hx : Measurable fun p : NucleonData ℝ × NucleonData ℝ => p.1.x - p.2.x := (nucleon_x.comp measurable_fst).sub (nucleon_x.comp measurable_snd)
  have hy : Measurable fun p : NucleonData ℝ × NucleonData ℝ => p.1.y - p.2.y := (nucleon_y.comp measurable_fst).sub (nucleon_y.comp measurable_snd)
  have ho : Measurable fun q : PQ × ℝ => nc.oneMinusProb (overlapSum nc.constituentWidthSq q.1.1.2.constituents q.1.2.constituents) := by
    have h1 : Measurable fun q : PQ × ℝ => overlapSum nc.constituentWidthSq q.1.1.2.constituents q.1.2.constituents :=
      overlapSum_meas _ (nucleon_cs.comp (by fun_prop)) (nucleon_cs.comp (by fun_prop))
    exact Real.measurable_exp.comp (h1.const_mul _)
  have hd : Measurable fun q : PQ × ℝ => lt (nc.oneMinusProb (overlapSum nc.constituentWidthSq q.1.1.2.constituents q.1.2.constituents)) q.2 := by
    simp only [lt_real]
    exact measurable_decide' (measurableSet_lt ho measurable_snd)
  have he : Measurable fun q : PQ × ℝ => q.1.1.2.constituentsExist && q.1.2.constituentsExist :=
    (measurable_of_countable fun b : Bool × Bool => b.1 && b.2).comp
      (Measurable.prodMk (f := fun q : PQ × ℝ => q.1.1.2.constituentsExist) (g := fun q => q.1.2.constituentsExist)
        (nucleon_exist.comp (by fun_prop)) (nucleon_exist.comp (by fun_prop)))
  let s4 : PQ × ℝ → PQ × ℝ := fun q => (((turnPair q.1.1.1, turn q.1.1.2), turn q.1.2), id q.2)
  have h4 : Equi μ (fun (q : PQ × ℝ) (w : Rand E D) =>
      if q.1.1.2.constituentsExist && q.1.2.constituentsExist then
        if (lt (nc.oneMinusProb (overlapSum nc.constituentWidthSq q.1.1.2.constituents q.1.2.constituents)) q.2) && (q.1.1.2.constituentsExist && q.1.2.constituentsExist)
        then (.ok ((true, q.1.1.2.setParticipant, q.1.2.setParticipant), w) : Res ((Bool × NucleonData ℝ × NucleonData ℝ) × Rand E D))
        else .ok ((false, q.1.1.2, q.1.2), w)
      else .error .fuel) s4 (fun t => (t.1, turn t.2.1, turn t.2.2)) := by
    refine Equi.bite (Equi.bite (Equi.pure (measurable_const.prodMk ((setParticipant_meas (by fun_prop)).prodMk (setParticipant_meas (by fun_prop)))) hτ ?_)
      (Equi.pure (measurable_const.prodMk (by fun_prop)) hτ ?_) ?_ ?_) (Equi.fail _ hτ) he ?_
    · intro q; simp only [turn_setParticipant, s4]
    · intro q; simp only [s4]
    · exact (measurable_of_countable fun b : Bool × Bool => b.1 && b.2).comp (hd.prodMk he)
    · intro q
      simp only [s4, turn, id]
      cases q.1.1.2.constituentsExist <;> cases q.1.2.constituentsExist <;> simp [overlapSum_turn]
    · intro q; rfl
  have h1 := (equi_sampleConstituents h hn nc).comp (f := fun p : NucleonData ℝ × NucleonData ℝ => p.1) (ρ := turnPair) measurable_fst fun _ => rfl
  have h2 := (equi_sampleConstituents h hn nc).comp (f := fun q : (NucleonData ℝ × NucleonData ℝ) × NucleonData ℝ => q.1.2)
    (ρ := fun q => (turnPair q.1, turn q.2)) (by fun_prop) fun _ => rfl
  have h5 := h1.bind (h2.bind ((equi_canonical h).bind h4))
  have hc2 : Measurable fun p : NucleonData ℝ × NucleonData ℝ => lt nc.maxImpactSq (sqr (p.1.x - p.2.x) + sqr (p.1.y - p.2.y)) := by
    simp only [lt_real, sqr_real]
    exact measurable_decide' (measurableSet_lt measurable_const ((hx.pow_const 2).add (hy.pow_const 2)))
  have h6 := Equi.bite (Equi.pure (q := fun p : NucleonData ℝ × NucleonData ℝ => (false, p.1, p.2)) (by fun_prop) hτ fun _ => rfl) h5 hc2 fun p => by
    have e : (-p.1.y - -p.2.y)^2 = (p.1.y - p.2.y)^2 := by ring
    simp only [turnPair, turn, sqr_real, e]
  have hc1 : Measurable fun p : NucleonData ℝ × NucleonData ℝ => p.1.isParticipant && p.2.isParticipant && !nc.calcNcoll :=
    (measurable_of_countable fun b : Bool × Bool => b.1 && b.2 && !nc.calcNcoll).comp (hA.prodMk hB)
  refine (Equi.bite (Equi.pure (q := fun p : NucleonData ℝ × NucleonData ℝ => (true, p.1, p.2)) (by fun_prop) hτ fun _ => rfl) h6 hc1 fun p => rfl).congr fun p w => ?_
  unfold NucleonCommon.participate
  simp only [bindR, sampleConstituents_exist, Bool.and_true, if_true]
  split
  · rfl
  · split
    · rfl
    · split <;> rfl

theorem equi_pairRow (nc : NucleonCommon ℝ) (cn : Bool) :
    Equi μ (fun (p : PR × List (NucleonData ℝ)) (w : Rand E D) => .ok (pairRow nc cn p.1.1 p.2 p.1.2.1 p.1.2.2 w))
      (fun p => ((turn p.1.1, p.1.2), p.2.map turn)) fun t => (turn t.1, t.2.1.map turn, t.2.2.1, t.2.2.2) := by
  have := h.prob
  have hτ : Measurable fun t : NucleonData ℝ × List (NucleonData ℝ) × ℕ × Bool => (turn t.1, t.2.1.map turn, t.2.2.1, t.2.2.2) :=
    (turn_meas.comp measurable_fst).prodMk ((mapTurn_meas.comp (by fun_prop)).prodMk (by fun_prop))
  refine Equi.listRec (σ := fun y : PR => (turn y.1, y.2)) (s := turn) (P := fun (y : PR) Bs w => .ok (pairRow nc cn y.1 Bs y.2.1 y.2.2 w)) ?_ fun n ih => ?_
  · exact (Equi.pure (q := fun y : PR => (y.1, ([] : List (NucleonData ℝ)), y.2.1, y.2.2)) (by fun_prop) hτ fun _ => rfl).congr fun y w => rfl
  · have h1 := (equi_participate h hn nc).comp (f := fun p : PR × NucleonData ℝ × (Fin n → NucleonData ℝ) => (p.1.1, p.2.1)) (by fun_prop)
      (ρ := fun p => ((turn p.1.1, p.1.2), turn p.2.1, fun i => turn (p.2.2 i))) fun _ => rfl
    have hcnt : Measurable fun q : Bool × ℕ => if q.1 && cn then q.2 + 1 else q.2 := measurable_of_countable _
    have hor : Measurable fun q : Bool × Bool => q.1 || q.2 := measurable_of_countable _
    have h2 := ih.comp (f := fun q : (PR × NucleonData ℝ × (Fin n → NucleonData ℝ)) × (Bool × NucleonData ℝ × NucleonData ℝ) =>
        ((q.2.2.1, (if q.2.1 && cn then q.1.1.2.1 + 1 else q.1.1.2.1), (q.2.1 || q.1.1.2.2)), q.1.2.2))
      (ρ := fun q => (((turn q.1.1.1, q.1.1.2), turn q.1.2.1, fun i => turn (q.1.2.2 i)), (q.2.1, turn q.2.2.1, turn q.2.2.2)))
      (Measurable.prodMk (Measurable.prodMk (by fun_prop) (Measurable.prodMk
          (hcnt.comp (Measurable.prodMk (f := fun q : (PR × NucleonData ℝ × (Fin n → NucleonData ℝ)) × (Bool × NucleonData ℝ × NucleonData ℝ) => q.2.1)
            (g := fun q => q.1.1.2.1) (by fun_prop) (by fun_prop)))
          (hor.comp (Measurable.prodMk (f := fun q : (PR × NucleonData ℝ × (Fin n → NucleonData ℝ)) × (Bool × NucleonData ℝ × NucleonData ℝ) => q.2.1)
            (g := fun q => q.1.1.2.2) (by fun_prop) (by fun_prop))))) (by fun_prop)) fun _ => rfl
    have h3 := h2.map (f := fun q : ((PR × NucleonData ℝ × (Fin n → NucleonData ℝ)) × (Bool × NucleonData ℝ × NucleonData ℝ)) ×
        (NucleonData ℝ × List (NucleonData ℝ) × ℕ × Bool) => (q.2.1, q.1.2.2.2 :: q.2.2.1, q.2.2.2.1, q.2.2.2.2))
      (Measurable.prodMk (by fun_prop) (Measurable.prodMk (Measurable.cons (by fun_prop) (by fun_prop)) (by fun_prop))) hτ fun _ _ => rfl
    exact (h1.bind h3).congr fun p w => rfl

theorem equi_pairLoop (nc : NucleonCommon ℝ) (cn : Bool) :
    Equi μ (fun (p : PL × List (NucleonData ℝ)) (w : Rand E D) => .ok (pairLoop nc cn p.2 p.1.1 p.1.2.1 p.1.2.2 w))
      (fun p => ((p.1.1.map turn, p.1.2), p.2.map turn)) fun t => (t.1.map turn, t.2.1.map turn, t.2.2.1, t.2.2.2) := by
  have := h.prob
  have hτ : Measurable fun t : List (NucleonData ℝ) × List (NucleonData ℝ) × ℕ × Bool => (t.1.map turn, t.2.1.map turn, t.2.2.1, t.2.2.2) :=
    (mapTurn_meas.comp measurable_fst).prodMk ((mapTurn_meas.comp (by fun_prop)).prodMk (by fun_prop))
  refine Equi.listRec (σ := fun y : PL => (y.1.map turn, y.2)) (s := turn) (P := fun (y : PL) As w => .ok (pairLoop nc cn As y.1 y.2.1 y.2.2 w)) ?_ fun n ih => ?_
  · exact (Equi.pure (q := fun y : PL => (([] : List (NucleonData ℝ)), y.1, y.2.1, y.2.2)) (by fun_prop) hτ fun _ => rfl).congr fun y w => rfl
  · have h1 := (equi_pairRow h hn nc cn).comp (f := fun p : PL × NucleonData ℝ × (Fin n → NucleonData ℝ) => ((p.2.1, p.1.2.1, p.1.2.2), p.1.1)) (by fun_prop)
      (ρ := fun p => ((p.1.1.map turn, p.1.2), turn p.2.1, fun i => turn (p.2.2 i))) fun _ => rfl
    have h2 := ih.comp (f := fun q : (PL × NucleonData ℝ × (Fin n → NucleonData ℝ)) × (NucleonData ℝ × List (NucleonData ℝ) × ℕ × Bool) =>
        ((q.2.2.1, q.2.2.2.1, q.2.2.2.2), q.1.2.2)) (by fun_prop)
      (ρ := fun q => (((q.1.1.1.map turn, q.1.1.2), turn q.1.2.1, fun i => turn (q.1.2.2 i)), (turn q.2.1, q.2.2.1.map turn, q.2.2.2.1, q.2.2.2.2))) fun _ => rfl
    have h3 := h2.map (f := fun q : ((PL × NucleonData ℝ × (Fin n → NucleonData ℝ)) × (NucleonData ℝ × List (NucleonData ℝ) × ℕ × Bool)) ×
        (List (NucleonData ℝ) × List (NucleonData ℝ) × ℕ × Bool) => (q.1.2.1 :: q.2.1, q.2.2.1, q.2.2.2.1, q.2.2.2.2))
      (Measurable.prodMk (Measurable.cons (by fun_prop) (by fun_prop)) (by fun_prop)) hτ fun _ _ => rfl
    exact (h1.bind h3).congr fun p w => rfl

omit h hn [Rng ℝ E D] [MeasurableSpace E] [MeasurableSpace D] in
theorem turn_clear (n : NucleonData ℝ) : turn n.clear = (turn n).clear := by
  obtain ⟨x, y, z, p, e, cs⟩ := n
  cases e <;> rfl

/-- The collision turned. -/
noncomputable def Spec.turned (x : Collided) : Collided := (x.1, x.2.1, x.2.2.1.map turn, x.2.2.2.map turn)

omit h hn [Rng ℝ E D] [MeasurableSpace E] [MeasurableSpace D] in
theorem turned_meas : Measurable turned :=
  measurable_fst.prodMk (Measurable.prodMk (by fun_prop) ((mapTurn_meas.comp (by fun_prop)).prodMk (mapTurn_meas.comp (by fun_prop))))

theorem equi_attempt (rfuel : ℕ) (c : Collider ℝ) (A B : Nucleus ℝ) (hA : NucleusHistory E D A) (hB : NucleusHistory E D B) :
    Equi μ (fun (_ : Unit) (w : Rand E D) => attempt rfuel c A B w) id fun t => (turned t.1, t.2) := by
  have := h.prob
  have h1 := (equi_sampleNucleons h rfuel A hA).comp (f := fun p : Unit × ℝ => c.asymmetry * impactFormula c.bmin c.bmax p.2)
    (((impact_meas c.bmin c.bmax).comp measurable_snd).const_mul _) (ρ := fun p => (id p.1, id p.2)) fun _ => rfl
  have h2 := (equi_sampleNucleons h rfuel B hB).comp (f := fun p : (Unit × ℝ) × List (NucleonData ℝ) => (c.asymmetry - lit 1) * impactFormula c.bmin c.bmax p.1.2)
    (((impact_meas c.bmin c.bmax).comp (measurable_snd.comp measurable_fst)).const_mul _) (ρ := fun p => ((id p.1.1, id p.1.2), p.2.map turn)) fun _ => rfl
  have h3 := (equi_pairLoop h hn c.nc c.calcNcoll).comp (f := fun p : ((Unit × ℝ) × List (NucleonData ℝ)) × List (NucleonData ℝ) => ((p.2, 0, false), p.1.2))
    (by fun_prop) (ρ := fun p => (((id p.1.1.1, id p.1.1.2), p.1.2.map turn), p.2.map turn)) fun _ => rfl
  have h4 := h3.map (f := fun p : (((Unit × ℝ) × List (NucleonData ℝ)) × List (NucleonData ℝ)) × (List (NucleonData ℝ) × List (NucleonData ℝ) × ℕ × Bool) =>
      (((impactFormula c.bmin c.bmax p.1.1.1.2, p.2.2.2.1, p.2.1.map NucleonData.clear, p.2.2.1.map NucleonData.clear), p.2.2.2.2) : Collided × Bool))
    (ρ := fun t => (turned t.1, t.2))
    (Measurable.prodMk (Measurable.prodMk ((impact_meas c.bmin c.bmax).comp (by fun_prop)) (Measurable.prodMk (by fun_prop)
      (Measurable.prodMk (clearList_meas (by fun_prop)) (clearList_meas (by fun_prop))))) (by fun_prop))
    ((turned_meas.comp measurable_fst).prodMk measurable_snd) (fun p t => by
      simp only [turned, List.map_map, Function.comp_def, turn_clear, id])
  exact (((equi_canonical h).bind (h1.bind (h2.bind h4)))).congr fun y w => rfl

theorem equi_attempts (rfuel : ℕ) (c : Collider ℝ) (A B : Nucleus ℝ) (hA : NucleusHistory E D A) (hB : NucleusHistory E D B) (n : ℕ) :
    Equi μ (fun (_ : Unit) (w : Rand E D) => attempts rfuel c A B n w) id turned := by
  have := h.prob
  exact Equi.retry (equi_attempt h hn rfuel c A B hA hB) turned_meas n

end

end Trento
