import Verif.Lemmas.Clear
import Verif.Props.ExampleRun

/-!
# C88: an event does not depend on the events and attempts before it

The nuclei, their nucleons (with their constituent vectors) and the event object are reused for all attempts and all events.  Apart from the
state of the random numbers, nothing of this carries over: the records are those which newly constructed objects would give.
-/

namespace Trento
variable {F E D : Type} [Arith F] [Rng F E D]

omit [Arith F] in
/-- every participant has constituents -/
theorem partExist_inv [Arith F] (nc : NucleonCommon F) :
    NucleonInvariant E D nc (fun n : NucleonData F => n.isParticipant = true → n.constituentsExist = true) :=
  ⟨fun n w _ _ => (sampleConstituents_frame nc n w).2.2.2.2.1, fun _ he _ _ => he⟩

theorem sampling_partExist (kind : Kind F) (off : F → Prop) :
    SamplingInvariant E D kind off (fun n : NucleonData F => n.isParticipant = true → n.constituentsExist = true) (fun _ => True) := by
  intro nuc rfuel x w hh hk hx
  refine ⟨fun _ _ => trivial, ?_⟩
  intro nuc' w' hs n hn hp
  have := (C12_sampling_resets nuc nuc' hh _ _ _ _ hs).2 n hn
  rw [this.1] at hp
  cases hp

/-- A collision of the same nuclei in any two states, from the same state of the random numbers: the same outcome and the same impact parameter,
number of collisions and random state; the nucleons agree in position, participant flag, whether they have constituents, and in the constituents
they have. -/
theorem C88_collision (rfuel fuel : ℕ) (c : Collider F) (A A' B B' : Nucleus F) (hA : NucleusHistory E D A) (hA' : NucleusHistory E D A')
    (hB : NucleusHistory E D B) (hB' : NucleusHistory E D B') (kA : A.kind = A'.kind) (kB : B.kind = B'.kind)
    (lA : A.nucleons.length = A'.nucleons.length) (lB : B.nucleons.length = B'.nucleons.length) (w : Rand E D) :
    (c.sampleCollision rfuel fuel A B w).map clearC = (c.sampleCollision rfuel fuel A' B' w).map clearC :=
  collisionLoop_clear rfuel c fuel A A' B B' hA.wf hB.wf hA'.wf hB'.wf kA kB lA lB 0 false w

/-- Two runs from the same random state, with the nuclei and the event object in any state: the same records, the same random state at the end, or the
same failure. -/
theorem C88_run (rfuel fuel : ℕ) (c : Collider F) (ec : EventCfg F) (debug : Bool) {n : ℕ} (k num : ℕ) (s s' : RunState F E D n)
    (hA : NucleusHistory E D s.A) (hA' : NucleusHistory E D s'.A) (hB : NucleusHistory E D s.B) (hB' : NucleusHistory E D s'.B)
    (kA : s.A.kind = s'.A.kind) (kB : s.B.kind = s'.B.kind) (lA : s.A.nucleons.length = s'.A.nucleons.length)
    (lB : s.B.nucleons.length = s'.B.nucleons.length) (hr : s.rand = s'.rand) :
    (runLoop rfuel fuel c ec debug k num s).map (fun t => (t.1, t.2.rand)) =
      (runLoop rfuel fuel c ec debug k num s').map fun t => (t.1, t.2.rand) := by
  induction k generalizing num s s' with
  | zero => simp only [runLoop, Except.map, hr]
  | succ k ih =>
    rw [runLoop, runLoop]
    have h0 := C88_collision rfuel fuel c s.A s'.A s.B s'.B hA hA' hB hB' kA kB lA lB s.rand
    rw [← hr]
    rcases map_eq_cases h0 with ⟨e, h1, h2⟩ | ⟨⟨⟨b, m, A1, B1⟩, w1⟩, ⟨⟨b', m', A1', B1'⟩, w1'⟩, h1, h2, h3⟩
    · rw [h1, h2]
    · rw [h1, h2]
      simp only [clearC, Prod.mk.injEq] at h3
      obtain ⟨⟨rfl, rfl, e1, e2⟩, rfl⟩ := h3
      dsimp only
      obtain ⟨-, gA, gB, glA, glB, gkA, gkB⟩ := collisionLoop_spec rfuel c fuel s.A s.B A1 B1 hA hB s.rand w1 b m h1
      obtain ⟨-, gA', gB', glA', glB', gkA', gkB'⟩ := collisionLoop_spec rfuel c fuel s'.A s'.B A1' B1' hA' hB' s.rand w1 b m h2
      obtain ⟨-, c2⟩ := collisionLoop_inv (Q := fun _ => True) trivial (partExist_inv c.nc) (sampling_partExist s.A.kind _)
        (sampling_partExist s.B.kind _) rfuel fuel s.A s.B hA hB rfl rfl 0 false s.rand
      obtain ⟨-, c2'⟩ := collisionLoop_inv (Q := fun _ => True) trivial (partExist_inv c.nc) (sampling_partExist s'.A.kind _)
        (sampling_partExist s'.B.kind _) rfuel fuel s'.A s'.B hA' hB' rfl rfl 0 false s.rand
      obtain ⟨-, -, -, -, pA, pB, -⟩ := c2 _ _ _ _ _ h1
      obtain ⟨-, -, -, -, pA', pB', -⟩ := c2' _ _ _ _ _ h2
      have hev : s.event.compute ec c.nc debug A1.nucleons B1.nucleons = s'.event.compute ec c.nc debug A1'.nucleons B1'.nucleons :=
        (C24_history_independent _ _ _ _ s.event s'.event _ _).trans
          (compute_clear ec c.nc debug s'.event (congrArg Nucleus.nucleons e1) (congrArg Nucleus.nucleons e2) pA pB pA' pB')
      rw [hev]
      cases s'.event.compute ec c.nc debug A1'.nucleons B1'.nucleons with
      | error e => rfl
      | ok ev =>
        dsimp only
        have i := ih (num+1) ⟨A1, B1, ev, w1⟩ ⟨A1', B1', ev, w1⟩ gA gA' gB gB' (gkA.trans (kA.trans gkA'.symm)) (gkB.trans (kB.trans gkB'.symm))
          (glA.trans (lA.trans glA'.symm)) (glB.trans (lB.trans glB'.symm)) rfl
        rcases map_eq_cases i with ⟨e, h1, h2⟩ | ⟨⟨r1, s1⟩, ⟨r2, s2⟩, h1, h2, h3⟩
        · rw [h1, h2]
        · rw [h1, h2]
          simp only [Prod.mk.injEq] at h3
          obtain ⟨rfl, h3⟩ := h3
          simp only [Except.map, h3]

/-- The loop for `k + m` events is the loop for `k` events followed by the loop for `m` events. -/
theorem runLoop_add (rfuel fuel : ℕ) (c : Collider F) (ec : EventCfg F) (debug : Bool) {n : ℕ} (k m num : ℕ) (s : RunState F E D n) :
    runLoop rfuel fuel c ec debug (k + m) num s =
      match runLoop rfuel fuel c ec debug k num s with
      | .error e => .error e
      | .ok (rs, s1) =>
        match runLoop rfuel fuel c ec debug m (num + k) s1 with
        | .error e => .error e
        | .ok (rs', s2) => .ok (rs ++ rs', s2) := by
  induction k generalizing num s with
  | zero =>
    simp only [Nat.zero_add, runLoop, Nat.add_zero, List.nil_append]
    cases runLoop rfuel fuel c ec debug m num s <;> rfl
  | succ k ih =>
    rw [Nat.add_right_comm, runLoop, runLoop]
    cases c.sampleCollision rfuel fuel s.A s.B s.rand with
    | error e => rfl
    | ok t =>
      obtain ⟨⟨b, nc, A, B⟩, w⟩ := t
      dsimp only
      cases s.event.compute ec c.nc debug A.nucleons B.nucleons with
      | error e => rfl
      | ok ev =>
        dsimp only
        rw [ih]
        cases runLoop rfuel fuel c ec debug k (num+1) ⟨A, B, ev, w⟩ with
        | error e => rfl
        | ok t =>
          obtain ⟨rs, s1⟩ := t
          dsimp only
          rw [show num + 1 + k = num + (k + 1) by omega]
          cases runLoop rfuel fuel c ec debug m (num + (k+1)) s1 <;> rfl

/-- A run can be interrupted after any number of events and continued with newly constructed nuclei and a new event object: if the first `k` events
give the records `rs` and leave the random numbers in the state `w1`, then the remaining `m` records of a run of `k + m` events are the ones
the nuclei `A0`, `B0` as constructed and an arbitrary event object `ev0` give from `w1` (and it fails exactly if this fails). -/
theorem C88_continue (rfuel fuel : ℕ) (c : Collider F) (ec : EventCfg F) (debug : Bool) {n : ℕ} (k m num : ℕ) (ev ev0 : Event F n) (w : Rand E D)
    (hA : NucleusHistory E D c.nucleusA) (hB : NucleusHistory E D c.nucleusB)
    (rs : List (EventRecord F n)) (s1 : RunState F E D n)
    (h : runLoop rfuel fuel c ec debug k num ⟨c.nucleusA, c.nucleusB, ev, w⟩ = .ok (rs, s1)) :
    (runLoop rfuel fuel c ec debug (k + m) num ⟨c.nucleusA, c.nucleusB, ev, w⟩).map (fun t => t.1) =
      (runLoop rfuel fuel c ec debug m (num + k) ⟨c.nucleusA, c.nucleusB, ev0, s1.rand⟩).map fun t => rs ++ t.1 := by
  have hs : NucleusHistory E D s1.A ∧ NucleusHistory E D s1.B ∧ s1.A.kind = c.nucleusA.kind ∧ s1.B.kind = c.nucleusB.kind ∧
      s1.A.nucleons.length = c.nucleusA.nucleons.length ∧ s1.B.nucleons.length = c.nucleusB.nucleons.length := by
    have gen : ∀ (k num : ℕ) (s s1 : RunState F E D n) (rs : List (EventRecord F n)), NucleusHistory E D s.A → NucleusHistory E D s.B →
        runLoop rfuel fuel c ec debug k num s = .ok (rs, s1) → NucleusHistory E D s1.A ∧ NucleusHistory E D s1.B ∧ s1.A.kind = s.A.kind ∧
        s1.B.kind = s.B.kind ∧ s1.A.nucleons.length = s.A.nucleons.length ∧ s1.B.nucleons.length = s.B.nucleons.length := by
      intro k
      induction k with
      | zero =>
        intro num s s1 rs hA hB h
        simp only [runLoop, Except.ok.injEq, Prod.mk.injEq] at h
        rw [← h.2]
        exact ⟨hA, hB, rfl, rfl, rfl, rfl⟩
      | succ k ih =>
        intro num s s1 rs hA hB h
        rw [runLoop] at h
        split at h
        · cases h
        · rename_i b ncoll A B w hsc
          split at h
          · cases h
          · rename_i ev hev
            split at h
            · cases h
            · rename_i rs' s2 hrl
              simp only [Except.ok.injEq, Prod.mk.injEq] at h
              obtain ⟨-, gA, gB, glA, glB, gkA, gkB⟩ := collisionLoop_spec rfuel c fuel s.A s.B A B hA hB s.rand w b ncoll hsc
              obtain ⟨i1, i2, i3, i4, i5, i6⟩ := ih _ _ _ _ gA gB hrl
              rw [← h.2]
              exact ⟨i1, i2, i3.trans gkA, i4.trans gkB, i5.trans glA, i6.trans glB⟩
    exact gen k num _ s1 rs hA hB h
  obtain ⟨h1, h2, h3, h4, h5, h6⟩ := hs
  rw [runLoop_add, h]
  dsimp only
  have := C88_run rfuel fuel c ec debug m (num + k) s1 ⟨c.nucleusA, c.nucleusB, ev0, s1.rand⟩ h1 hA h2 hB h3 h4 h5 h6 rfl
  rcases map_eq_cases this with ⟨e, g1, g2⟩ | ⟨⟨r1, s2⟩, ⟨r2, s2'⟩, g1, g2, g3⟩
  · rw [g1, g2]; rfl
  · rw [g1, g2]
    simp only [Prod.mk.injEq] at g3
    simp only [Except.map, g3.1]

/-- The hypotheses of `C88_continue` are met: the first of the two events of `exampleOptions`. -/
example : ∃ (ec : EventCfg ℝ) (ev : Event ℝ ec.nsteps.toNat) (rs : List (EventRecord ℝ ec.nsteps.toNat))
    (s1 : RunState ℝ Tape Unit ec.nsteps.toNat),
    runLoop 0 1 (Collider.make exampleOptions 100) ec true 1 0 ⟨mkProton, mkProton, ev, seedRand ℝ 0 halfTape⟩ = .ok (rs, s1) := by
  obtain ⟨res, h⟩ := example_run
  unfold runAll at h
  split at h
  · cases h
  · rename_i ec hec
    split at h
    · cases h
    · rename_i rs hr
      unfold Collider.runEvents at hr
      split at hr
      · cases hr
      · rename_i rs2 s2 hl
        have h2 : (Collider.make exampleOptions 100).nevents.toNat = 1 + 1 := rfl
        rw [h2, runLoop_add] at hl
        split at hl
        · cases hl
        · rename_i rs1 s1 h1
          exact ⟨ec, _, rs1, s1, h1⟩

end Trento
