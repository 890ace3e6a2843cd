import Verif.Lemmas.RenewModel
import Verif.Lemmas.Retry

/-! # Attempts and collisions -/

namespace Trento
open MeasureTheory Set Spec
open scoped ENNReal

/-- What an event is computed from: impact parameter, number of binary collisions, and the nucleons of the two nuclei, without constituent vectors left
over from earlier attempts (`NucleonData.clear`). -/
abbrev Spec.Collided := ℝ × ℕ × List (NucleonData ℝ) × List (NucleonData ℝ)

/-- The outcome of a collision. -/
def Spec.collided (t : ℝ × ℕ × Nucleus ℝ × Nucleus ℝ) : Collided :=
  (t.1, t.2.1, t.2.2.1.nucleons.map NucleonData.clear, t.2.2.2.nucleons.map NucleonData.clear)

variable {E D : Type} [Rng ℝ E D]

/-- one attempt with new nuclei: outcome and whether there was a collision -/
noncomputable def attempt (rfuel : ℕ) (c : Collider ℝ) (A B : Nucleus ℝ) (w : Rand E D) : Res ((Collided × Bool) × Rand E D) :=
  bindR (.ok (canonical (F := ℝ) w)) fun u w =>
  bindR ((A.sampleNucleons rfuel (c.asymmetry * impactFormula c.bmin c.bmax u) w).map fun t => (t.1.nucleons, t.2)) fun As w =>
  bindR ((B.sampleNucleons rfuel ((c.asymmetry - lit 1) * impactFormula c.bmin c.bmax u) w).map fun t => (t.1.nucleons, t.2)) fun Bs w =>
  bindR (.ok (pairLoop c.nc c.calcNcoll As Bs 0 false w)) fun r w =>
    .ok (((impactFormula c.bmin c.bmax u, r.2.2.1, r.1.map NucleonData.clear, r.2.1.map NucleonData.clear), r.2.2.2), w)

/-- attempts until there is a collision -/
noncomputable def attempts (rfuel : ℕ) (c : Collider ℝ) (A B : Nucleus ℝ) (n : ℕ) (w : Rand E D) : Res (Collided × Rand E D) :=
  retry (attempt rfuel c A B) n w

theorem collisionLoop_attempts (rfuel : ℕ) (c : Collider ℝ) (A0 B0 : Nucleus ℝ) (hA0 : NucleusHistory E D A0) (hB0 : NucleusHistory E D B0)
    (n : ℕ) (w : Rand E D) :
    (collisionLoop rfuel c n A0 B0 0 false w).map (fun t => (collided t.1, t.2)) = attempts rfuel c A0 B0 n w := by
  induction n generalizing w with
  | zero => rfl
  | succ n ih =>
    rw [collisionLoop, attempts, retry, attempt]
    simp only [bindR]
    generalize canonical (F := ℝ) w = uw
    cases hA1 : A0.sampleNucleons rfuel (c.asymmetry * impactFormula c.bmin c.bmax uw.1) uw.2 with
    | error e => rfl
    | ok r1 =>
      obtain ⟨A1, w1⟩ := r1
      simp only [Except.map]
      cases hB1 : B0.sampleNucleons rfuel ((c.asymmetry - lit 1) * impactFormula c.bmin c.bmax uw.1) w1 with
      | error e => rfl
      | ok r2 =>
        obtain ⟨B1, w2⟩ := r2
        simp only
        obtain ⟨M, hM, hn, hc⟩ := pairLoop_spec (E := E) (D := D) c.nc c.calcNcoll A1.nucleons B1.nucleons 0 false w2
        simp only [Bool.false_or] at hc
        have qA := sampleNucleons_reset hA0.wf hA1
        have qB := sampleNucleons_reset hB0.wf hB1
        have hHA1 : NucleusHistory E D A1 := .sample _ _ _ _ _ _ hA0 hA1
        have hHB1 : NucleusHistory E D B1 := .sample _ _ _ _ _ _ hB0 hB1
        have hlA : (pairLoop c.nc c.calcNcoll A1.nucleons B1.nucleons 0 false w2).1.1.length = A1.nucleons.length := by
          have := congrArg List.length hM.placeA; simpa using this
        have hlB : (pairLoop c.nc c.calcNcoll A1.nucleons B1.nucleons 0 false w2).1.2.1.length = B1.nucleons.length := by
          have := congrArg List.length hM.placeB; simpa using this
        generalize hres : pairLoop c.nc c.calcNcoll A1.nucleons B1.nucleons 0 false w2 = res at *
        by_cases hcoll : res.1.2.2.2 = true
        · simp only [hcoll, if_true]
          rfl
        · rw [Bool.not_eq_true] at hcoll
          have hzero : res.1.2.2.1 = 0 := by
            rw [hn, sum_returned_zero (by rw [← hc]; exact hcoll)]; simp
          simp only [hcoll, Bool.false_eq_true, if_false, hzero]
          have hA2 : NucleusHistory E D { A1 with nucleons := res.1.1 } := .collide _ _ hHA1 hlA
          have hB2 : NucleusHistory E D { B1 with nucleons := res.1.2.1 } := .collide _ _ hHB1 hlB
          have hcl := collisionLoop_clear rfuel c n { A1 with nucleons := res.1.1 } A0 { B1 with nucleons := res.1.2.1 } B0 hA2.wf hB2.wf hA0.wf hB0.wf
            qA.1 qB.1 (hlA.trans qA.2.2.1) (hlB.trans qB.2.2.1) 0 false res.2
          show _ = attempts rfuel c A0 B0 n res.2
          rw [← ih res.2]
          rcases map_eq_cases hcl with ⟨e, g1, g2⟩ | ⟨a, a', g1, g2, g3⟩
          · rw [g1, g2]; rfl
          · rw [g1, g2]
            simp only [clearC, Prod.mk.injEq] at g3
            obtain ⟨⟨e1, e2, e3, e4⟩, e5⟩ := g3
            have e3' := congrArg Nucleus.nucleons e3
            have e4' := congrArg Nucleus.nucleons e4
            simp only [Nucleus.clear] at e3' e4'
            simp only [Except.map, collided, e1, e2, e3', e4', e5]

variable [MeasurableSpace E] [MeasurableSpace D] {I : Type} {μ : I → Measure (Rand E D)}

theorem clear_meas : Measurable (NucleonData.clear : NucleonData ℝ → NucleonData ℝ) := by
  unfold NucleonData.clear
  refine Measurable.ite (nucleon_exist (measurableSet_singleton true)) measurable_id ?_
  exact nucleon_mk nucleon_x nucleon_y nucleon_z nucleon_part nucleon_exist measurable_const

theorem clearList_meas {Z : Type} [MeasurableSpace Z] {l : Z → List (NucleonData ℝ)} (hl : Measurable l) : Measurable fun z => (l z).map NucleonData.clear :=
  Measurable.listMap (Y := Unit) (g := fun _ n => NucleonData.clear n) (clear_meas.comp measurable_snd) (y := fun _ => ()) measurable_const hl

theorem impact_meas (bmin bmax : ℝ) : Measurable fun u : ℝ => impactFormula bmin bmax u := by
  simp only [impactFormula, sqrt_real]
  fun_prop

section
variable (h : FreshSource E D μ)
include h

theorem renews_attempt (rfuel : ℕ) (c : Collider ℝ) (A B : Nucleus ℝ) : Renews μ fun (_ : Unit) (w : Rand E D) => attempt rfuel c A B w := by
  have := h.prob
  have h1 := (renews_sampleNucleons h rfuel A).comp (f := fun p : Unit × ℝ => c.asymmetry * impactFormula c.bmin c.bmax p.2)
    (((impact_meas c.bmin c.bmax).comp measurable_snd).const_mul _)
  have h2 := (renews_sampleNucleons h rfuel B).comp (f := fun p : (Unit × ℝ) × List (NucleonData ℝ) => (c.asymmetry - lit 1) * impactFormula c.bmin c.bmax p.1.2)
    (((impact_meas c.bmin c.bmax).comp (measurable_snd.comp measurable_fst)).const_mul _)
  have h3 := (renews_pairLoop h c.nc c.calcNcoll).comp (f := fun p : ((Unit × ℝ) × List (NucleonData ℝ)) × List (NucleonData ℝ) => ((p.2, 0, false), p.1.2))
    (by fun_prop)
  have h4 := h3.map (f := fun p : (((Unit × ℝ) × List (NucleonData ℝ)) × List (NucleonData ℝ)) × (List (NucleonData ℝ) × List (NucleonData ℝ) × ℕ × Bool) =>
      (((impactFormula c.bmin c.bmax p.1.1.1.2, p.2.2.2.1, p.2.1.map NucleonData.clear, p.2.2.1.map NucleonData.clear), p.2.2.2.2) : Collided × Bool))
    (Measurable.prodMk (Measurable.prodMk ((impact_meas c.bmin c.bmax).comp (by fun_prop)) (Measurable.prodMk (by fun_prop)
      (Measurable.prodMk (clearList_meas (by fun_prop)) (clearList_meas (by fun_prop))))) (by fun_prop))
  exact (((renews_canonical h).bind (h1.bind (h2.bind h4)))).congr fun y w => rfl

end

end Trento
