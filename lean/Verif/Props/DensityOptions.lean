import Verif.Props.Record
import Verif.Props.ExampleRun

/-!
# C111: the density options leave the collisions alone

Two runs from the same random sequence whose options differ only in `--reduced-thickness`, `--normalization`, `--grid-max` and
`--grid-step` have the same collisions, event by event; with the same grid they also have the same thickness grids, so that the
effect of the two density options can be read off cell by cell.
-/

namespace Trento
open Spec

section
variable {F E D : Type} [Arith F] [Rng F E D]

/-- Number, impact parameter, number of binary collisions and of participants. -/
def EventRecord.geometry {n : ℕ} (r : EventRecord F n) : ℕ × F × ℕ × ℕ := (r.num, r.b, r.ncoll, r.event.npart)

omit [Rng F E D] in
theorem compute_npart_same {ec ec' : EventCfg F} {nc : NucleonCommon F} {debug debug' : Bool} {n n' : ℕ} {ev e1 : Event F n} {ev' e2 : Event F n'}
    {A B : List (NucleonData F)} (h : Event.compute ec nc debug ev A B = .ok e1) (h' : Event.compute ec' nc debug' ev' A B = .ok e2) :
    e1.npart = e2.npart := by
  rw [(C23_npart _ _ _ _ _ _ _ _ h).1, (C23_npart _ _ _ _ _ _ _ _ h').1]

theorem runLoop_geometry (rfuel fuel : ℕ) (c : Collider F) (ec ec' : EventCfg F) (debug debug' : Bool) {n n' : ℕ} (k num : ℕ) (A B : Nucleus F) (w : Rand E D)
    (ev : Event F n) (ev' : Event F n') (rs : List (EventRecord F n)) (rs' : List (EventRecord F n')) (t : RunState F E D n) (t' : RunState F E D n')
    (h : runLoop rfuel fuel c ec debug k num ⟨A, B, ev, w⟩ = .ok (rs, t)) (h' : runLoop rfuel fuel c ec' debug' k num ⟨A, B, ev', w⟩ = .ok (rs', t')) :
    rs.map EventRecord.geometry = rs'.map EventRecord.geometry := by
  induction k generalizing num A B w ev ev' rs rs' t t' with
  | zero =>
    simp only [runLoop, Except.ok.injEq, Prod.mk.injEq] at h h'
    rw [← h.1, ← h'.1]; rfl
  | succ k ih =>
    rw [runLoop] at h h'
    dsimp only at h h'
    cases hs : c.sampleCollision rfuel fuel A B w with
    | error e => rw [hs] at h; cases h
    | ok r =>
      obtain ⟨⟨b, nc, A1, B1⟩, w1⟩ := r
      rw [hs] at h h'
      dsimp only at h h'
      cases h1 : ev.compute ec c.nc debug A1.nucleons B1.nucleons with
      | error e => rw [h1] at h; cases h
      | ok e1 =>
        cases h2 : ev'.compute ec' c.nc debug' A1.nucleons B1.nucleons with
        | error e => rw [h2] at h'; cases h'
        | ok e2 =>
          rw [h1] at h; rw [h2] at h'
          dsimp only at h h'
          cases r1 : runLoop rfuel fuel c ec debug k (num+1) ⟨A1, B1, e1, w1⟩ with
          | error e => rw [r1] at h; cases h
          | ok q1 =>
            cases r2 : runLoop rfuel fuel c ec' debug' k (num+1) ⟨A1, B1, e2, w1⟩ with
            | error e => rw [r2] at h'; cases h'
            | ok q2 =>
              rw [r1] at h; rw [r2] at h'
              simp only [Except.ok.injEq, Prod.mk.injEq] at h h'
              rw [← h.1, ← h'.1, List.map_cons, List.map_cons, ih _ _ _ _ _ _ _ _ _ _ r1 r2]
              unfold EventRecord.geometry
              dsimp only
              rw [compute_npart_same h1 h2]

/-- **C111, geometry.** Whatever the arithmetic (rounding, NaN included): two runs from the same random state that differ only in the reduced thickness parameter, the normalization, the grid size and
the grid step have the same events as far as numbers, impact parameters, binary collisions and participants go. -/
theorem C111_geometry (rfuel fuel : ℕ) (o : Options F) (p norm gmax gstep sigma : F) (debug debug' : Bool) (ev0 ev0' : (n : ℕ) → Event F n) (w : Rand E D)
    (n n' : ℕ) (rs : List (EventRecord F n)) (rs' : List (EventRecord F n')) (h : runAll rfuel fuel o sigma debug ev0 w = .ok ⟨n, rs⟩)
    (h' : runAll rfuel fuel { o with reducedThickness := p, normalization := norm, gridMax := gmax, gridStep := gstep } sigma debug' ev0' w = .ok ⟨n', rs'⟩) :
    rs.map (fun r => (r.num, r.b, r.ncoll, r.event.npart)) = rs'.map (fun r => (r.num, r.b, r.ncoll, r.event.npart)) := by
  unfold runAll at h h'
  split at h
  · cases h
  · rename_i ec hec
    split at h'
    · cases h'
    · rename_i ec' hec'
      have hm : Collider.make { o with reducedThickness := p, normalization := norm, gridMax := gmax, gridStep := gstep } sigma = Collider.make o sigma := rfl
      rw [hm] at h'
      dsimp only at h'
      unfold Collider.runEvents at h h'
      cases r1 : runLoop rfuel fuel (Collider.make o sigma) ec debug (Collider.make o sigma).nevents.toNat 0
          ⟨(Collider.make o sigma).nucleusA, (Collider.make o sigma).nucleusB, ev0 ec.nsteps.toNat, seedRand F o.randomSeed w⟩ with
      | error e => rw [r1] at h; cases h
      | ok q1 =>
        cases r2 : runLoop rfuel fuel (Collider.make o sigma) ec' debug' (Collider.make o sigma).nevents.toNat 0
            ⟨(Collider.make o sigma).nucleusA, (Collider.make o sigma).nucleusB, ev0' ec'.nsteps.toNat, seedRand F o.randomSeed w⟩ with
        | error e => rw [r2] at h'; cases h'
        | ok q2 =>
          rw [r1] at h; rw [r2] at h'
          dsimp only at h h'
          have key := runLoop_geometry _ _ _ _ _ _ _ _ _ _ _ _ _ _ _ _ _ _ r1 r2
          cases h; cases h'
          exact key

/-! ## The same grid -/

omit [Rng F E D] in
theorem depositAll_density (c : EventCfg F) (p q : F) (nc : NucleonCommon F) (debug : Bool) {n : ℕ}
    (A : List (NucleonData F)) (s : Grid F n × ℕ) : depositAll { c with norm := q, p := p } nc debug A s = depositAll c nc debug A s := by
  induction A generalizing s with
  | nil => rfl
  | cons a A ih =>
    obtain ⟨g, j⟩ := s
    unfold depositAll
    have : depositNucleon { c with norm := q, p := p } nc debug a g = depositNucleon c nc debug a g := rfl
    rw [this]
    split
    · split
      · rfl
      · exact ih _
    · exact ih _

/-- The same event apart from what the density options decide. -/
structure SameThickness {n : ℕ} (r r' : EventRecord F n) : Prop where
  num : r.num = r'.num
  b : r.b = r'.b
  ncoll : r.ncoll = r'.ncoll
  npart : r.event.npart = r'.event.npart
  TA : r.event.TA = r'.event.TA
  TB : r.event.TB = r'.event.TB

theorem runLoop_density (rfuel fuel : ℕ) (c : Collider F) (ec : EventCfg F) (p q : F) (debug : Bool) {n : ℕ} (k num : ℕ) (A B : Nucleus F) (w : Rand E D)
    (ev ev' : Event F n) (rs : List (EventRecord F n)) (t : RunState F E D n)
    (h : runLoop rfuel fuel c ec debug k num ⟨A, B, ev, w⟩ = .ok (rs, t)) :
    ∃ rs' t', runLoop rfuel fuel c { ec with norm := q, p := p } debug k num ⟨A, B, ev', w⟩ = .ok (rs', t') ∧ List.Forall₂ SameThickness rs rs' := by
  induction k generalizing num A B w ev ev' rs t with
  | zero =>
    simp only [runLoop, Except.ok.injEq, Prod.mk.injEq] at h
    rw [← h.1]
    exact ⟨[], _, rfl, .nil⟩
  | succ k ih =>
    rw [runLoop] at h
    dsimp only at h
    cases hs : c.sampleCollision rfuel fuel A B w with
    | error e => rw [hs] at h; cases h
    | ok r =>
      obtain ⟨⟨b, nc, A1, B1⟩, w1⟩ := r
      rw [hs] at h
      dsimp only at h
      cases h1 : ev.compute ec c.nc debug A1.nucleons B1.nucleons with
      | error e => rw [h1] at h; cases h
      | ok e1 =>
        rw [h1] at h
        dsimp only at h
        cases r1 : runLoop rfuel fuel c ec debug k (num+1) ⟨A1, B1, e1, w1⟩ with
        | error e => rw [r1] at h; cases h
        | ok q1 =>
          rw [r1] at h
          simp only [Except.ok.injEq, Prod.mk.injEq] at h
          obtain ⟨TA, TB, npA, npB, d1, d2, rfl⟩ := compute_ok h1
          have h2 : ev'.compute { ec with norm := q, p := p } c.nc debug A1.nucleons B1.nucleons = .ok (computeObservables (computeReducedThickness
              { ec with norm := q, p := p } { ev' with TA := TA, TB := TB, npart := npB })) := by
            unfold Event.compute computeNuclearThickness
            simp only [depositAll_density, d1, d2]
          obtain ⟨rs', t', i1, i2⟩ := ih (num+1) A1 B1 w1 _ (computeObservables (computeReducedThickness
              { ec with norm := q, p := p } { ev' with TA := TA, TB := TB, npart := npB })) _ _ r1
          refine ⟨⟨num, b, nc, computeObservables (computeReducedThickness { ec with norm := q, p := p } { ev' with TA := TA, TB := TB, npart := npB })⟩ :: rs', t', ?_, ?_⟩
          · rw [runLoop]
            simp only [hs, h2, i1]
          · rw [← h.1]
            exact .cons ⟨rfl, rfl, rfl, rfl, rfl, rfl⟩ i2

/-- **C111, thickness.** Whatever the arithmetic: changing the reduced thickness parameter and the normalization changes neither the success of a run nor, event by event, the impact parameter, the
binary collisions, the participants and the thickness grids of the two nuclei. -/
theorem C111_thickness (rfuel fuel : ℕ) (o : Options F) (p norm sigma : F) (debug : Bool) (ev0 ev0' : (n : ℕ) → Event F n) (w : Rand E D)
    (n : ℕ) (rs : List (EventRecord F n)) (h : runAll rfuel fuel o sigma debug ev0 w = .ok ⟨n, rs⟩) :
    ∃ rs', runAll rfuel fuel { o with reducedThickness := p, normalization := norm } sigma debug ev0' w = .ok ⟨n, rs'⟩ ∧ List.Forall₂ SameThickness rs rs' := by
  unfold runAll at h ⊢
  cases hec : EventCfg.make o.normalization o.gridStep o.gridMax o.reducedThickness with
  | error e => rw [hec] at h; cases h
  | ok ec =>
    rw [hec] at h
    have hec' : EventCfg.make norm o.gridStep o.gridMax p = .ok { ec with norm := norm, p := p } := by
      unfold EventCfg.make at hec ⊢
      split at hec
      · cases hec
      · split at hec
        · cases hec
        · next hn => cases hec; simp only [hn, if_false]
    have hm : Collider.make { o with reducedThickness := p, normalization := norm } sigma = Collider.make o sigma := rfl
    dsimp only at h ⊢
    rw [hm, hec']
    dsimp only
    unfold Collider.runEvents at h ⊢
    cases r1 : runLoop rfuel fuel (Collider.make o sigma) ec debug (Collider.make o sigma).nevents.toNat 0
        ⟨(Collider.make o sigma).nucleusA, (Collider.make o sigma).nucleusB, ev0 ec.nsteps.toNat, seedRand F o.randomSeed w⟩ with
    | error e => rw [r1] at h; cases h
    | ok q1 =>
      rw [r1] at h
      obtain ⟨rs', t', i1, i2⟩ := runLoop_density rfuel fuel (Collider.make o sigma) ec p norm debug _ _ _ _ _ _ (ev0' ec.nsteps.toNat) _ _ r1
      rw [i1]
      dsimp only at h ⊢
      cases h
      exact ⟨rs', rfl, i2⟩

end

/-! ## What the two density options do -/

theorem forall₂_with {α β : Type} {R S : α → β → Prop} {P : α → Prop} {Q : β → Prop} {l : List α} {l' : List β} (h : List.Forall₂ R l l') (hP : ∀ a ∈ l, P a)
    (hQ : ∀ b ∈ l', Q b) (hS : ∀ a b, R a b → P a → Q b → S a b) : List.Forall₂ S l l' := by
  induction h with
  | nil => exact .nil
  | cons h _ ih =>
    exact .cons (hS _ _ h (hP _ (by simp)) (hQ _ (by simp))) (ih (fun a ha => hP a (by simp [ha])) (fun b hb => hQ b (by simp [hb])))

variable {E D : Type} [Rng ℝ E D]

/-- what is known of each record of a run -/
theorem record_facts [LawfulRng E D] (o : Options ℝ) (sigma : ℝ) (hA : NucleusHistory E D o.projectileA) (hB : NucleusHistory E D o.projectileB)
    (hv : 0 < o.constitWidth) (hstep : 0 < o.gridStep) (debug : Bool) (rfuel fuel : ℕ) (ev0 : (n : ℕ) → Event ℝ n) (w : Rand E D) (n : ℕ) (rs : List (EventRecord ℝ n))
    (h : runAll rfuel fuel o sigma debug ev0 w = .ok ⟨n, rs⟩) :
    ∀ r ∈ rs, (∀ iy ix, 0 ≤ r.event.TA iy ix ∧ 0 ≤ r.event.TB iy ix) ∧
      (∀ iy ix, r.event.TR iy ix = o.normalization * trentoMean o.reducedThickness (r.event.TA iy ix) (r.event.TB iy ix)) ∧
      r.event.multiplicity = o.gridStep^2 * gridSum r.event.TR := by
  obtain ⟨ec, hec, hns, key⟩ := runAll_records_inv o sigma debug (weightsReal_invariant (E := E) (D := D) (Collider.make o sigma).nc)
    (by intro n h1 h2; exact ⟨fun h => absurd h (by rw [h1]; simp), fun h => absurd h (by rw [h2]; simp)⟩) hA hB rfuel fuel ev0 w n rs h
  obtain ⟨g1, g2, g3⟩ := eventCfg_params hec
  intro r hr
  obtain ⟨A, B, -, -, -, pA, pB, hcomp⟩ := key r hr
  have hcomp : Event.compute ec (NucleonCommon.make o.nucleonWidth o.constitWidth o.constitNumber sigma o.ncoll o.fluctuation) debug (ev0 n)
    A.nucleons B.nucleons = .ok r.event := hcomp (ev0 n)
  have wA : ∀ a ∈ A.nucleons, a.isParticipant = true → ∀ q ∈ a.constituents, 0 ≤ q.fluctuation :=
    fun a ha hp => ((pA a ha).2 ((pA a ha).1 hp)).2
  have wB : ∀ a ∈ B.nucleons, a.isParticipant = true → ∀ q ∈ a.constituents, 0 ≤ q.fluctuation :=
    fun a ha hp => ((pB a ha).2 ((pB a ha).1 hp)).2
  refine ⟨fun iy ix => C21_thickness_nonneg _ _ _ _ _ _ hv ec (by rw [g2]; exact hstep) debug n hns _ _ wA wB _ _ hcomp iy ix, fun iy ix => ?_, ?_⟩
  · rw [C25_reduced_thickness _ _ _ _ _ _ _ _ hcomp, g1, g3]
  · rw [C27_multiplicity _ _ _ _ _ _ _ _ hcomp, g2]

/-- **C111, normalization.** Multiplying the normalization by `s` multiplies, event by event and cell by cell, the reduced thickness and the multiplicity by `s`, and changes nothing of the geometry. -/
theorem C111_normalization [LawfulRng E D] (o : Options ℝ) (s sigma : ℝ) (hA : NucleusHistory E D o.projectileA) (hB : NucleusHistory E D o.projectileB)
    (hv : 0 < o.constitWidth) (hstep : 0 < o.gridStep) (debug : Bool) (rfuel fuel : ℕ) (ev0 ev0' : (n : ℕ) → Event ℝ n) (w : Rand E D) (n : ℕ) (rs : List (EventRecord ℝ n))
    (h : runAll rfuel fuel o sigma debug ev0 w = .ok ⟨n, rs⟩) :
    ∃ rs', runAll rfuel fuel { o with normalization := s * o.normalization } sigma debug ev0' w = .ok ⟨n, rs'⟩ ∧
      List.Forall₂ (fun r r' => SameThickness r r' ∧ (∀ iy ix, r'.event.TR iy ix = s * r.event.TR iy ix) ∧ r'.event.multiplicity = s * r.event.multiplicity) rs rs' := by
  obtain ⟨rs', h', hr⟩ := C111_thickness rfuel fuel o o.reducedThickness (s * o.normalization) sigma debug ev0 ev0' w n rs h
  have f := record_facts o sigma hA hB hv hstep debug rfuel fuel ev0 w n rs h
  have f' := record_facts { o with normalization := s * o.normalization } sigma hA hB hv hstep debug rfuel fuel ev0' w n rs' h'
  refine ⟨rs', h', forall₂_with hr f f' ?_⟩
  rintro r r' hs ⟨-, t, m⟩ ⟨-, t', m'⟩
  have hT : ∀ iy ix, r'.event.TR iy ix = s * r.event.TR iy ix := by
    intro iy ix
    rw [t, t', hs.TA, hs.TB]
    dsimp only
    ring
  refine ⟨hs, hT, ?_⟩
  rw [m, m']
  unfold gridSum
  simp only [hT, ← Finset.mul_sum]
  ring

/-- **C111, reduced thickness.** Raising the parameter `p` raises (or keeps), event by event and cell by cell, the reduced thickness, hence the multiplicity, and changes nothing of the geometry. -/
theorem C111_reduced_thickness [LawfulRng E D] (o : Options ℝ) (p sigma : ℝ) (hp : o.reducedThickness ≤ p) (hnorm : 0 ≤ o.normalization) (hA : NucleusHistory E D o.projectileA)
    (hB : NucleusHistory E D o.projectileB) (hv : 0 < o.constitWidth) (hstep : 0 < o.gridStep) (debug : Bool) (rfuel fuel : ℕ) (ev0 ev0' : (n : ℕ) → Event ℝ n) (w : Rand E D)
    (n : ℕ) (rs : List (EventRecord ℝ n)) (h : runAll rfuel fuel o sigma debug ev0 w = .ok ⟨n, rs⟩) :
    ∃ rs', runAll rfuel fuel { o with reducedThickness := p } sigma debug ev0' w = .ok ⟨n, rs'⟩ ∧
      List.Forall₂ (fun r r' => SameThickness r r' ∧ (∀ iy ix, r.event.TR iy ix ≤ r'.event.TR iy ix) ∧ r.event.multiplicity ≤ r'.event.multiplicity) rs rs' := by
  obtain ⟨rs', h', hr⟩ := C111_thickness rfuel fuel o p o.normalization sigma debug ev0 ev0' w n rs h
  have f := record_facts o sigma hA hB hv hstep debug rfuel fuel ev0 w n rs h
  have f' := record_facts { o with reducedThickness := p } sigma hA hB hv hstep debug rfuel fuel ev0' w n rs' h'
  refine ⟨rs', h', forall₂_with hr f f' ?_⟩
  rintro r r' hs ⟨hn, t, m⟩ ⟨-, t', m'⟩
  have hT : ∀ iy ix, r.event.TR iy ix ≤ r'.event.TR iy ix := by
    intro iy ix
    rw [t, t', ← hs.TA, ← hs.TB]
    exact mul_le_mul_of_nonneg_left (C26_monotone _ _ _ _ (hn iy ix).1 (hn iy ix).2 hp) hnorm
  refine ⟨hs, hT, ?_⟩
  rw [m, m']
  apply mul_le_mul_of_nonneg_left _ (by positivity)
  exact Finset.sum_le_sum fun iy _ => Finset.sum_le_sum fun ix _ => hT iy ix

/-- A concrete case: the two proton-proton events of `exampleOptions` with twice the normalization and with `p = 1`: both runs succeed, with doubled, respectively no smaller, multiplicities; and any
run of the same collisions with a finer grid has the same impact parameters. -/
example (ev0 : (n : ℕ) → Event ℝ n) : ∃ (n : ℕ) (rs rs' rs'' : List (EventRecord ℝ n)),
    runAll 0 1 { exampleOptions with normalization := 2 } 100 true ev0 halfTape = .ok ⟨n, rs'⟩ ∧
    runAll 0 1 { exampleOptions with reducedThickness := 1 } 100 true ev0 halfTape = .ok ⟨n, rs''⟩ ∧
    List.Forall₂ (fun r r' => r'.event.multiplicity = 2 * r.event.multiplicity) rs rs' ∧
    List.Forall₂ (fun r r' => r.event.multiplicity ≤ r'.event.multiplicity) rs rs'' ∧
    ∀ (n' : ℕ) (rs₃ : List (EventRecord ℝ n')), runAll 0 1 { exampleOptions with gridStep := 0.1 } 100 true ev0 halfTape = .ok ⟨n', rs₃⟩ →
      rs.map (fun r => (r.num, r.b, r.ncoll, r.event.npart)) = rs₃.map (fun r => (r.num, r.b, r.ncoll, r.event.npart)) := by
  obtain ⟨⟨n, rs⟩, h⟩ := example_run
  have hh : NucleusHistory Tape Unit (mkProton : Nucleus ℝ) := .create false (fun _ => .missing) "p" 0 _ rfl
  obtain ⟨rs', a1, a2⟩ := C111_normalization exampleOptions 2 100 hh hh (by norm_num [exampleOptions]) (by norm_num [exampleOptions]) true 0 1 _ ev0 halfTape n rs h
  obtain ⟨rs'', b1, b2⟩ := C111_reduced_thickness exampleOptions 1 100 (by norm_num [exampleOptions]) (by norm_num [exampleOptions]) hh hh (by norm_num [exampleOptions])
    (by norm_num [exampleOptions]) true 0 1 _ ev0 halfTape n rs h
  have e : 2 * exampleOptions.normalization = 2 := by norm_num [exampleOptions]
  rw [e] at a1
  refine ⟨n, rs, rs', rs'', a1, b1, a2.imp fun _ _ h => h.2.2, b2.imp fun _ _ h => h.2.2, fun n' rs₃ h₃ => ?_⟩
  exact C111_geometry 0 1 exampleOptions _ _ _ 0.1 100 true true _ ev0 halfTape n n' rs rs₃ h h₃

end Trento
