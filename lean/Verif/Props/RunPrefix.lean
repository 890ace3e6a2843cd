import Verif.Props.History
import Verif.Props.ExampleRun

/-!
# C121: a shorter run is the beginning of a longer one

From the same seed (or random state), a run of fewer events delivers exactly the first events of a run of more events; and a run that fails fails at the same place however many more events are asked for.
-/

namespace Trento
open Spec

variable {F E D : Type} [Arith F] [Rng F E D]

/-- A run of `k` events that succeeds delivers `k` records. -/
theorem runLoop_length (rfuel fuel : ℕ) (c : Collider F) (ec : EventCfg F) (debug : Bool) {n : ℕ} (k num : ℕ) (s s1 : RunState F E D n) (r : List (EventRecord F n))
    (h : runLoop rfuel fuel c ec debug k num s = .ok (r, s1)) : r.length = k := by
  induction k generalizing num s s1 r with
  | zero =>
    simp only [runLoop, Except.ok.injEq, Prod.mk.injEq] at h
    rw [← h.1]; rfl
  | succ k ih =>
    rw [runLoop] at h
    split at h
    · cases h
    · split at h
      · cases h
      · split at h
        · cases h
        · rename_i hr
          simp only [Except.ok.injEq, Prod.mk.injEq] at h
          rw [← h.1, List.length_cons, ih _ _ _ _ hr]

/-- The records of a run of `k` events are the first `k` of those of a run of `k + m`. -/
theorem runLoop_take (rfuel fuel : ℕ) (c : Collider F) (ec : EventCfg F) (debug : Bool) {n : ℕ} (k m : ℕ) (s s' : RunState F E D n) (rs : List (EventRecord F n))
    (h : runLoop rfuel fuel c ec debug (k + m) 0 s = .ok (rs, s')) : ∃ s1, runLoop rfuel fuel c ec debug k 0 s = .ok (rs.take k, s1) := by
  rw [runLoop_add] at h
  cases h1 : runLoop rfuel fuel c ec debug k 0 s with
  | error e => rw [h1] at h; cases h
  | ok t =>
    obtain ⟨r1, s1⟩ := t
    rw [h1] at h
    dsimp only at h
    cases h2 : runLoop rfuel fuel c ec debug m (0 + k) s1 with
    | error e => rw [h2] at h; cases h
    | ok t2 =>
      obtain ⟨r2, s2⟩ := t2
      rw [h2] at h
      simp only [Except.ok.injEq, Prod.mk.injEq] at h
      refine ⟨s1, ?_⟩
      rw [← h.1, List.take_left' (runLoop_length _ _ _ _ _ _ _ _ _ _ h1)]

/-- The number of events asked for plays no role in an event. -/
theorem collisionLoop_nevents (rfuel fuel : ℕ) (c : Collider F) (N : ℤ) (A B : Nucleus F) (ncoll : ℕ) (collision : Bool) (w : Rand E D) :
    collisionLoop rfuel { c with nevents := N } fuel A B ncoll collision w = collisionLoop rfuel c fuel A B ncoll collision w := by
  induction fuel generalizing A B ncoll collision w with
  | zero => rfl
  | succ fuel ih =>
    rw [collisionLoop, collisionLoop]
    simp only [ih]

theorem runLoop_nevents (rfuel fuel : ℕ) (c : Collider F) (N : ℤ) (ec : EventCfg F) (debug : Bool) {n : ℕ} (k num : ℕ) (s : RunState F E D n) :
    runLoop rfuel fuel { c with nevents := N } ec debug k num s = runLoop rfuel fuel c ec debug k num s := by
  induction k generalizing num s with
  | zero => rfl
  | succ k ih =>
    have hc : ({ c with nevents := N } : Collider F).sampleCollision rfuel fuel s.A s.B s.rand = c.sampleCollision rfuel fuel s.A s.B s.rand :=
      collisionLoop_nevents _ _ _ _ _ _ _ _ _
    rw [runLoop, runLoop, hc]
    simp only [ih]

omit [Rng F E D] in
theorem make_numberEvents (o : Options F) (N : ℤ) (sigma : F) : Collider.make { o with numberEvents := N } sigma = { Collider.make o sigma with nevents := N } := rfl

/-- **C121, prefix.** Whatever the arithmetic: if a run of `N` events succeeds, a run of `N' ≤ N` events from the same random state succeeds, and its records are the first `N'` of the longer run. -/
theorem C121_prefix (rfuel fuel : ℕ) (o : Options F) (sigma : F) (debug : Bool) (ev0 : (n : ℕ) → Event F n) (w : Rand E D) (N' : ℤ) (hN : N' ≤ o.numberEvents)
    (n : ℕ) (rs : List (EventRecord F n)) (h : runAll rfuel fuel o sigma debug ev0 w = .ok ⟨n, rs⟩) :
    runAll rfuel fuel { o with numberEvents := N' } sigma debug ev0 w = .ok ⟨n, rs.take N'.toNat⟩ := by
  unfold runAll at h ⊢
  rw [make_numberEvents]
  dsimp only
  cases hec : EventCfg.make o.normalization o.gridStep o.gridMax o.reducedThickness with
  | error e => rw [hec] at h; cases h
  | ok ec =>
    rw [hec] at h
    dsimp only at h ⊢
    unfold Collider.runEvents at h ⊢
    rw [runLoop_nevents]
    dsimp only
    cases h1 : runLoop rfuel fuel (Collider.make o sigma) ec debug (Collider.make o sigma).nevents.toNat 0
        ⟨(Collider.make o sigma).nucleusA, (Collider.make o sigma).nucleusB, ev0 ec.nsteps.toNat, seedRand F o.randomSeed w⟩ with
    | error e => rw [h1] at h; cases h
    | ok t =>
      obtain ⟨r, s'⟩ := t
      rw [h1] at h
      have hk : (Collider.make o sigma).nevents.toNat = N'.toNat + (o.numberEvents.toNat - N'.toNat) := by
        show o.numberEvents.toNat = _
        omega
      rw [hk] at h1
      obtain ⟨s1, h2⟩ := runLoop_take _ _ _ _ _ _ _ _ _ _ h1
      rw [h2]
      cases h
      rfl

/-- **C121, failures.** A run that fails fails in the same way when more events are asked for. -/
theorem C121_failure (rfuel fuel : ℕ) (o : Options F) (sigma : F) (debug : Bool) (ev0 : (n : ℕ) → Event F n) (w : Rand E D) (N : ℤ) (hN : o.numberEvents ≤ N)
    (e : Err) (h : runAll rfuel fuel o sigma debug ev0 w = .error e) :
    runAll rfuel fuel { o with numberEvents := N } sigma debug ev0 w = .error e := by
  unfold runAll at h ⊢
  rw [make_numberEvents]
  dsimp only
  cases hec : EventCfg.make o.normalization o.gridStep o.gridMax o.reducedThickness with
  | error e' => rw [hec] at h; cases h; rfl
  | ok ec =>
    rw [hec] at h
    dsimp only at h ⊢
    unfold Collider.runEvents at h ⊢
    rw [runLoop_nevents]
    dsimp only
    have hk : N.toNat = (Collider.make o sigma).nevents.toNat + (N.toNat - o.numberEvents.toNat) := by
      show _ = o.numberEvents.toNat + _
      omega
    rw [hk, runLoop_add]
    cases h1 : runLoop rfuel fuel (Collider.make o sigma) ec debug (Collider.make o sigma).nevents.toNat 0
        ⟨(Collider.make o sigma).nucleusA, (Collider.make o sigma).nucleusB, ev0 ec.nsteps.toNat, seedRand F o.randomSeed w⟩ with
    | error e' => rw [h1] at h; cases h; rfl
    | ok t => rw [h1] at h; cases h

/-- The first of the two proton-proton events of `exampleOptions` is what a run of one event delivers. -/
example : ∃ (n : ℕ) (r0 r1 : EventRecord ℝ n),
    runAll 0 1 exampleOptions 100 true (fun n => (⟨fun _ _ => 0, fun _ _ => 0, fun _ _ => 0, 0, 0, 0, 0, ⟨0, 0, 0, 0⟩⟩ : Event ℝ n)) halfTape = .ok ⟨n, [r0, r1]⟩ ∧
    runAll 0 1 { exampleOptions with numberEvents := 1 } 100 true (fun n => (⟨fun _ _ => 0, fun _ _ => 0, fun _ _ => 0, 0, 0, 0, 0, ⟨0, 0, 0, 0⟩⟩ : Event ℝ n)) halfTape =
      .ok ⟨n, [r0]⟩ := by
  obtain ⟨⟨n, rs⟩, h⟩ := example_run
  have h2 : runAll 0 1 { exampleOptions with numberEvents := 1 } 100 true (fun n => (⟨fun _ _ => 0, fun _ _ => 0, fun _ _ => 0, 0, 0, 0, 0, ⟨0, 0, 0, 0⟩⟩ : Event ℝ n)) halfTape = _ :=
    C121_prefix 0 1 exampleOptions 100 true _ halfTape 1 (by norm_num [exampleOptions]) n rs h
  have hl : rs.length = 2 := by
    have hh := h
    unfold runAll at hh
    split at hh
    · cases hh
    · split at hh
      · cases hh
      · rename_i ec hec rs' hr
        cases hh
        unfold Collider.runEvents at hr
        split at hr
        · cases hr
        · rename_i q s' hq
          cases hr
          exact runLoop_length _ _ _ _ _ _ _ _ _ _ hq
  match rs, hl with
  | [r0, r1], _ => exact ⟨n, r0, r1, h, h2⟩

end Trento
