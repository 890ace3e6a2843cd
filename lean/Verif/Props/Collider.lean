import Verif.Lemmas.Pairs
import Verif.Props.Deuteron

/-!
# C33–C40: the collider
-/

namespace Trento
open Spec MeasureTheory

section generic
variable {F E D : Type} [Arith F] [Rng F E D]

/-- What is known about an event returned by `sample_collision`: the nuclei `A'`, `B'` were sampled with offsets `asym * b` and
`(asym - 1) * b` and then went through one pass over all pairs, with outcome matrix `M`, in which some call returned true. -/
structure CollisionOf (E D : Type) [Rng F E D] (c : Collider F) (b : F) (ncoll : Nat) (A' B' : Nucleus F) : Prop where
  b_eq : ∃ w : Rand E D, b = impactFormula c.bmin c.bmax (canonical w).1
  pass : ∃ (rfuel : Nat) (A0 B0 A1 B1 : Nucleus F) (w0 w1 w2 : Rand E D) (M : List (List Outcome)),
    NucleusHistory E D A0 ∧ NucleusHistory E D B0 ∧
    A0.sampleNucleons rfuel (c.asymmetry * b) w0 = .ok (A1, w1) ∧
    B0.sampleNucleons rfuel ((c.asymmetry - lit 1) * b) w1 = .ok (B1, w2) ∧
    A' = { A1 with nucleons := A'.nucleons } ∧ B' = { B1 with nucleons := B'.nucleons } ∧
    PairSpec c.nc A1.nucleons B1.nucleons A'.nucleons B'.nucleons M ∧
    (M.any fun row => row.any Outcome.returned) = true ∧
    ncoll = if c.calcNcoll then (M.map (List.countP Outcome.returned)).sum else 0

theorem sum_returned_zero {M : List (List Outcome)} (h : (M.any fun row => row.any Outcome.returned) = false) :
    (M.map (List.countP Outcome.returned)).sum = 0 := by
  rw [List.any_eq_false] at h
  induction M with
  | nil => rfl
  | cons row M ih =>
    simp only [List.map_cons, List.sum_cons]
    rw [ih fun r hr => h r (by simp [hr])]
    have := h row (by simp)
    simp only [Bool.not_eq_true, List.any_eq_false] at this
    rw [List.countP_eq_zero.mpr fun o ho => by rw [this o ho]; simp]

theorem collisionLoop_spec (rfuel : Nat) (c : Collider F) (fuel : Nat) (A B A' B' : Nucleus F) (hA : NucleusHistory E D A)
    (hB : NucleusHistory E D B) (w w' : Rand E D) (b : F) (ncoll : Nat)
    (h : collisionLoop rfuel c fuel A B 0 false w = .ok ((b, ncoll, A', B'), w')) :
    CollisionOf E D c b ncoll A' B' ∧ NucleusHistory E D A' ∧ NucleusHistory E D B' ∧
      A'.nucleons.length = A.nucleons.length ∧ B'.nucleons.length = B.nucleons.length ∧
      A'.kind = A.kind ∧ B'.kind = B.kind := by
  induction fuel generalizing A B w with
  | zero => cases h
  | succ fuel ih =>
    rw [collisionLoop] at h
    dsimp only at h
    generalize hu : canonical (F := F) w = uw at h
    split at h
    · cases h
    · rename_i A1 w1 hA1
      split at h
      · cases h
      · rename_i B1 w2 hB1
        obtain ⟨M, hM, hn, hc⟩ := pairLoop_spec (E := E) (D := D) c.nc c.calcNcoll A1.nucleons B1.nucleons 0 false w2
        simp only [Bool.false_or] at hc
        have hlA : (pairLoop c.nc c.calcNcoll A1.nucleons B1.nucleons 0 false w2).1.1.length = A1.nucleons.length := by
          have := congrArg List.length hM.placeA; simpa using this
        have hlB : (pairLoop c.nc c.calcNcoll A1.nucleons B1.nucleons 0 false w2).1.2.1.length = B1.nucleons.length := by
          have := congrArg List.length hM.placeB; simpa using this
        have hHA1 : NucleusHistory E D A1 := .sample _ _ _ _ _ _ hA hA1
        have hHB1 : NucleusHistory E D B1 := .sample _ _ _ _ _ _ hB hB1
        have hlA1 := (C12_sampling_resets A A1 hA _ _ _ _ hA1).1
        have hlB1 := (C12_sampling_resets B B1 hB _ _ _ _ hB1).1
        have hkA : A1.kind = A.kind := (sampleNucleons_reset hA.wf hA1).1
        have hkB : B1.kind = B.kind := (sampleNucleons_reset hB.wf hB1).1
        generalize hres : pairLoop c.nc c.calcNcoll A1.nucleons B1.nucleons 0 false w2 = res at *
        split at h
        · rename_i hcoll
          simp only [Except.ok.injEq, Prod.mk.injEq] at h
          obtain ⟨⟨h1, h2, h3, h4⟩, h5⟩ := h
          subst h1; subst h2; subst h3; subst h4; subst h5
          refine ⟨⟨⟨w, by rw [hu]⟩, rfuel, A, B, A1, B1, _, w1, w2, M, hA, hB, hA1, hB1, rfl, rfl, hM, ?_, ?_⟩, ?_, ?_, ?_, ?_, ?_, ?_⟩
          · rw [← hc]; exact hcoll
          · rw [hn]; simp
          · exact .collide _ _ hHA1 hlA
          · exact .collide _ _ hHB1 hlB
          · rw [← hlA1]; exact hlA
          · rw [← hlB1]; exact hlB
          · exact hkA
          · exact hkB
        · rename_i hcoll
          rw [Bool.not_eq_true] at hcoll
          have hzero : res.1.2.2.1 = 0 := by
            rw [hn, sum_returned_zero (by rw [← hc]; exact hcoll)]; simp
          rw [hzero, hcoll] at h
          have := ih _ _ (.collide _ _ hHA1 hlA) (.collide _ _ hHB1 hlB) _ h
          refine ⟨this.1, this.2.1, this.2.2.1, ?_, ?_, ?_, ?_⟩
          · rw [this.2.2.2.1]; show res.1.1.length = _; rw [hlA, hlA1]
          · rw [this.2.2.2.2.1]; show res.1.2.1.length = _; rw [hlB, hlB1]
          · rw [this.2.2.2.2.2.1]; exact hkA
          · rw [this.2.2.2.2.2.2]; exact hkB

/-- Every record a run hands to the output comes from a collision and from computing the event of the nuclei it left. -/
theorem runLoop_records (rfuel fuel : Nat) (c : Collider F) (ec : EventCfg F) (debug : Bool) {n : Nat} (k num : Nat)
    (s s' : RunState F E D n) (rs : List (EventRecord F n)) (hA : NucleusHistory E D s.A) (hB : NucleusHistory E D s.B)
    (h : runLoop rfuel fuel c ec debug k num s = .ok (rs, s')) :
    rs.map (·.num) = List.range' num k ∧
    ∀ rec ∈ rs, ∃ A B, CollisionOf E D c rec.b rec.ncoll A B ∧ A.nucleons.length = s.A.nucleons.length ∧
      B.nucleons.length = s.B.nucleons.length ∧ A.kind = s.A.kind ∧ B.kind = s.B.kind ∧
      ∀ ev : Event F n, ev.compute ec c.nc debug A.nucleons B.nucleons = .ok rec.event := by
  induction k generalizing num s s' rs with
  | zero =>
    simp only [runLoop, Except.ok.injEq, Prod.mk.injEq] at h
    rw [← h.1]; simp
  | succ k ih =>
    rw [runLoop] at h
    split at h
    · cases h
    · rename_i b ncoll A B w hsc
      split at h
      · cases h
      · rename_i ev hev
        split at h
        · cases h
        · rename_i rs' s2 hrl
          simp only [Except.ok.injEq, Prod.mk.injEq] at h
          obtain ⟨hcol, hhA, hhB, hlA, hlB, hkA, hkB⟩ := collisionLoop_spec rfuel c fuel s.A s.B A B hA hB s.rand w b ncoll hsc
          obtain ⟨ih1, ih2⟩ := ih (num+1) ⟨A, B, ev, w⟩ s2 rs' hhA hhB hrl
          rw [← h.1]
          constructor
          · rw [List.map_cons, ih1, List.range'_succ]
          · intro rec hrec
            rcases List.mem_cons.mp hrec with rfl | hrec
            · exact ⟨A, B, hcol, hlA, hlB, hkA, hkB, fun ev' => by rw [C24_history_independent _ _ _ _ ev' s.event]; exact hev⟩
            · obtain ⟨A2, B2, k1, k2, k3, k4, k5, k6⟩ := ih2 rec hrec
              exact ⟨A2, B2, k1, k2.trans hlA, k3.trans hlB, k4.trans hkA, k5.trans hkB, k6⟩

/-- The hypotheses on a collider: its nuclei come from `Nucleus::create`, and the two copies of the `ncoll` switch agree (both
are the value of the option, `Collider.make`). -/
structure Collider.Valid (E D : Type) [Rng F E D] (c : Collider F) : Prop where
  histA : NucleusHistory E D c.nucleusA
  histB : NucleusHistory E D c.nucleusB
  switch : c.nc.calcNcoll = c.calcNcoll

theorem runEvents_records {rfuel fuel : Nat} {c : Collider F} (hc : c.Valid E D) {ec : EventCfg F} {debug : Bool} {n : Nat}
    {ev : Event F n} {w : Rand E D} {rs : List (EventRecord F n)} (h : c.runEvents rfuel fuel ec debug ev w = .ok rs) :
    rs.map (·.num) = List.range c.nevents.toNat ∧
    ∀ rec ∈ rs, ∃ A B, CollisionOf E D c rec.b rec.ncoll A B ∧ A.nucleons.length = c.nucleusA.nucleons.length ∧
      B.nucleons.length = c.nucleusB.nucleons.length ∧ A.kind = c.nucleusA.kind ∧ B.kind = c.nucleusB.kind ∧
      ∀ ev : Event F n, ev.compute ec c.nc debug A.nucleons B.nucleons = .ok rec.event := by
  unfold Collider.runEvents at h
  split at h
  · cases h
  · rename_i rs' s' hrl
    simp only [Except.ok.injEq] at h
    subst h
    have := runLoop_records rfuel fuel c ec debug _ 0 _ _ _ hc.histA hc.histB hrl
    rw [List.range_eq_range']
    exact this

/-- **C40 (records).** A run over `N` events hands exactly `N` records to the output, numbered 0, …, N−1 in this order;
none if `N ≤ 0`. -/
theorem C40_records_in_order {rfuel fuel : Nat} {c : Collider F} (hc : c.Valid E D) {ec : EventCfg F} {debug : Bool} {n : Nat}
    {ev : Event F n} {w : Rand E D} {rs : List (EventRecord F n)} (h : c.runEvents rfuel fuel ec debug ev w = .ok rs) :
    rs.map (·.num) = List.range c.nevents.toNat ∧ rs.length = c.nevents.toNat := by
  have h1 := (runEvents_records hc h).1
  refine ⟨h1, ?_⟩
  have := congrArg List.length h1
  simpa using this

/-! ## C36 -/

/-- In a collision both nuclei have a participant and every participant has a participating partner in range. -/
theorem CollisionOf.participants {c : Collider F} {b : F} {ncoll : Nat} {A B : Nucleus F}
    (h : CollisionOf E D c b ncoll A B) :
    (∃ a ∈ A.nucleons, a.isParticipant = true) ∧ (∃ b ∈ B.nucleons, b.isParticipant = true) ∧
    (∀ a ∈ A.nucleons, a.isParticipant = true → ∃ b ∈ B.nucleons, b.isParticipant = true ∧ InRange c.nc a b) ∧
    (∀ b ∈ B.nucleons, b.isParticipant = true → ∃ a ∈ A.nucleons, a.isParticipant = true ∧ InRange c.nc a b) := by
  obtain ⟨-, rfuel, A0, B0, A1, B1, w0, w1, w2, M, hA0, hB0, hA1, hB1, -, -, hM, hret, -⟩ := h
  have hfA := (C12_sampling_resets A0 A1 hA0 _ _ _ _ hA1).2
  have hfB := (C12_sampling_resets B0 B1 hB0 _ _ _ _ hB1).2
  obtain ⟨i, j, row, hi, hj⟩ := hM.exists_hit (fun a ha => (hfA a ha).1) hret
  refine ⟨?_, ?_, ?_, ?_⟩
  · obtain ⟨a, b, a', b', h1, h2, h3, h4, h5, h6, h7, h8, h9⟩ := hM.hit_participants hi hj
    exact ⟨a', List.mem_of_getElem? h3, h7⟩
  · obtain ⟨a, b, a', b', h1, h2, h3, h4, h5, h6, h7, h8, h9⟩ := hM.hit_participants hi hj
    exact ⟨b', List.mem_of_getElem? h4, h8⟩
  · intro a'' ha hp
    obtain ⟨i, hi⟩ := List.mem_iff_getElem?.mp ha
    obtain ⟨row, j, hr, hj⟩ := hM.partnerA (fun a ha => (hfA a ha).1) hi hp
    obtain ⟨a, b, a', b', h1, h2, h3, h4, h5, h6, h7, h8, h9⟩ := hM.hit_participants hr hj
    rw [hi] at h3
    simp only [Option.some.injEq] at h3
    subst h3
    exact ⟨b', List.mem_of_getElem? h4, h8, (inRange_congr c.nc h5 h6).mpr h9⟩
  · intro b'' hb hp
    obtain ⟨j, hj⟩ := List.mem_iff_getElem?.mp hb
    obtain ⟨i, row, hr, hj'⟩ := hM.partnerB (fun b hb => (hfB b hb).1) hj hp
    obtain ⟨a, b, a', b', h1, h2, h3, h4, h5, h6, h7, h8, h9⟩ := hM.hit_participants hr hj'
    rw [hj] at h4
    simp only [Option.some.injEq] at h4
    subst h4
    exact ⟨a', List.mem_of_getElem? h3, h7, (inRange_congr c.nc h5 h6).mpr h9⟩

/-- **C36.** For every arithmetic: every event handed to the output has `npart ≥ 2`, and its grids are computed from nuclei in
which each side has a participant and every participant has a participating partner on the other side that is in range. -/
theorem C36_every_event_collides {rfuel fuel : Nat} {c : Collider F} (hc : c.Valid E D) {ec : EventCfg F} {debug : Bool}
    {n : Nat} {ev : Event F n} {w : Rand E D} {rs : List (EventRecord F n)}
    (h : c.runEvents rfuel fuel ec debug ev w = .ok rs) :
    ∀ rec ∈ rs, 2 ≤ rec.event.npart ∧ ∃ A B : Nucleus F,
      (∀ ev : Event F n, ev.compute ec c.nc debug A.nucleons B.nucleons = .ok rec.event) ∧
      (∃ a ∈ A.nucleons, a.isParticipant = true) ∧ (∃ b ∈ B.nucleons, b.isParticipant = true) ∧
      (∀ a ∈ A.nucleons, a.isParticipant = true → ∃ b ∈ B.nucleons, b.isParticipant = true ∧ InRange c.nc a b) ∧
      (∀ b ∈ B.nucleons, b.isParticipant = true → ∃ a ∈ A.nucleons, a.isParticipant = true ∧ InRange c.nc a b) := by
  intro rec hrec
  obtain ⟨A, B, hcol, -, -, -, -, hev⟩ := (runEvents_records hc h).2 rec hrec
  have hp := hcol.participants
  refine ⟨?_, A, B, hev, hp⟩
  obtain ⟨⟨a, ha, hpa⟩, ⟨b, hb, hpb⟩, -⟩ := hp
  have h1 := (C23_npart ec c.nc debug n ev rec.event A.nucleons B.nucleons (hev ev)).1
  have h2 : 0 < (A.nucleons.filter (·.isParticipant)).length :=
    List.length_pos_of_mem (List.mem_filter.mpr ⟨ha, hpa⟩)
  have h3 : 0 < (B.nucleons.filter (·.isParticipant)).length :=
    List.length_pos_of_mem (List.mem_filter.mpr ⟨hb, hpb⟩)
  omega

/-! ## C37 -/

/-- **C37.** For every arithmetic: without `--ncoll` the reported number of binary collisions is 0; with `--ncoll` it is at
least 1, at most the number of nucleon pairs, and at least half the number of participants. -/
theorem C37_ncoll_bounds {rfuel fuel : Nat} {c : Collider F} (hc : c.Valid E D) {ec : EventCfg F} {debug : Bool}
    {n : Nat} {ev : Event F n} {w : Rand E D} {rs : List (EventRecord F n)}
    (h : c.runEvents rfuel fuel ec debug ev w = .ok rs) :
    ∀ rec ∈ rs, (c.calcNcoll = false → rec.ncoll = 0) ∧
      (c.calcNcoll = true → 1 ≤ rec.ncoll ∧ rec.ncoll ≤ c.nucleusA.nucleons.length * c.nucleusB.nucleons.length ∧
        rec.event.npart ≤ 2 * rec.ncoll) := by
  intro rec hrec
  obtain ⟨A, B, hcol, hlA, hlB, -, -, hev⟩ := (runEvents_records hc h).2 rec hrec
  have hnp := (C23_npart ec c.nc debug n ev rec.event A.nucleons B.nucleons (hev ev)).1
  have h2 := (C36_every_event_collides hc h rec hrec).1
  obtain ⟨-, rfuel, A0, B0, A1, B1, w0, w1, w2, M, hA0, hB0, hA1, hB1, hA', hB', hM, hret, hn⟩ := hcol
  refine ⟨fun hf => by rw [hn, hf]; simp, fun ht => ?_⟩
  rw [ht] at hn
  simp only [if_true] at hn
  have hfA := (C12_sampling_resets A0 A1 hA0 _ _ _ _ hA1).2
  have hfB := (C12_sampling_resets B0 B1 hB0 _ _ _ _ hB1).2
  have cA := hM.countA
  have cB := hM.countB
  have zA : A1.nucleons.countP (·.isParticipant) = 0 := List.countP_eq_zero.mpr (fun a ha => by simp [(hfA a ha).1])
  have zB : B1.nucleons.countP (·.isParticipant) = 0 := List.countP_eq_zero.mpr (fun a ha => by simp [(hfB a ha).1])
  rw [zA] at cA
  rw [zB] at cB
  have hle := hits_le_returned M
  have hmul := hM.returned_le
  have e1 : A1.nucleons.length = A.nucleons.length := by
    have := congrArg List.length hM.placeA; simp at this; omega
  have e2 : B1.nucleons.length = B.nucleons.length := by
    have := congrArg List.length hM.placeB; simp at this; omega
  rw [e1, e2, hlA, hlB] at hmul
  rw [List.countP_eq_length_filter] at cA cB
  refine ⟨by omega, by omega, by omega⟩

/-- **C37, what is counted.** With `--ncoll` the reported number is the number of nucleon pairs that collided in the accepted
attempt: there is an assignment of one outcome to every pair, none skipped, such that the hits are in range, the participants are
exactly the nucleons with a hit, and the reported number is the number of hits. -/
theorem C37_ncoll_counts_hits {rfuel fuel : Nat} {c : Collider F} (hc : c.Valid E D) (ht : c.calcNcoll = true)
    {ec : EventCfg F} {debug : Bool} {n : Nat} {ev : Event F n} {w : Rand E D} {rs : List (EventRecord F n)}
    (h : c.runEvents rfuel fuel ec debug ev w = .ok rs) :
    ∀ rec ∈ rs, ∃ (A B : Nucleus F) (hit : Nat → Nat → Bool),
      (∀ ev : Event F n, ev.compute ec c.nc debug A.nucleons B.nucleons = .ok rec.event) ∧
      (∀ i a, A.nucleons[i]? = some a → (a.isParticipant = true ↔ ∃ j, j < B.nucleons.length ∧ hit i j = true)) ∧
      (∀ j b, B.nucleons[j]? = some b → (b.isParticipant = true ↔ ∃ i, i < A.nucleons.length ∧ hit i j = true)) ∧
      (∀ i j a b, A.nucleons[i]? = some a → B.nucleons[j]? = some b → hit i j = true → InRange c.nc a b) ∧
      rec.ncoll = ((List.range A.nucleons.length).map fun i =>
        (List.range B.nucleons.length).countP fun j => hit i j).sum := by
  intro rec hrec
  obtain ⟨A, B, hcol, hlA, hlB, -, -, hev⟩ := (runEvents_records hc h).2 rec hrec
  obtain ⟨-, rfuel, A0, B0, A1, B1, w0, w1, w2, M, hA0, hB0, hA1, hB1, hA', hB', hM, hret, hn⟩ := hcol
  rw [ht] at hn
  simp only [if_true] at hn
  have hfA := (C12_sampling_resets A0 A1 hA0 _ _ _ _ hA1).2
  have hfB := (C12_sampling_resets B0 B1 hB0 _ _ _ _ hB1).2
  have e1 : A.nucleons.length = A1.nucleons.length := by
    have := congrArg List.length hM.placeA; simpa using this
  have e2 : B.nucleons.length = B1.nucleons.length := by
    have := congrArg List.length hM.placeB; simpa using this
  have hit_iff : ∀ i j : Nat, (((M[i]?.bind fun row : List Outcome => row[j]?) = some Outcome.hit) ↔
      ∃ row : List Outcome, M[i]? = some row ∧ row[j]? = some Outcome.hit) := by
    intro i j
    cases M[i]? with
    | none => simp
    | some row => simp
  refine ⟨A, B, fun i j => decide ((M[i]?.bind fun row : List Outcome => row[j]?) = some Outcome.hit), hev, ?_, ?_, ?_, ?_⟩
  · intro i a ha
    constructor
    · intro hp
      obtain ⟨row, j, h1, h2⟩ := hM.partnerA (fun a ha => (hfA a ha).1) ha hp
      refine ⟨j, ?_, by simpa using (hit_iff i j).mpr ⟨row, h1, h2⟩⟩
      rw [e2, ← hM.rows row (List.mem_of_getElem? h1)]
      exact (List.getElem?_eq_some_iff.mp h2).1
    · rintro ⟨j, -, hh⟩
      obtain ⟨row, h1, h2⟩ := (hit_iff i j).mp (by simpa using hh)
      obtain ⟨a1, b1, a', b', k1, k2, k3, k4, k5, k6, k7, k8, k9⟩ := hM.hit_participants h1 h2
      rw [ha] at k3; simp only [Option.some.injEq] at k3; rw [k3]; exact k7
  · intro j b hb
    constructor
    · intro hp
      obtain ⟨i, row, h1, h2⟩ := hM.partnerB (fun a ha => (hfB a ha).1) hb hp
      refine ⟨i, ?_, by simpa using (hit_iff i j).mpr ⟨row, h1, h2⟩⟩
      rw [e1, ← hM.len]
      exact (List.getElem?_eq_some_iff.mp h1).1
    · rintro ⟨i, -, hh⟩
      obtain ⟨row, h1, h2⟩ := (hit_iff i j).mp (by simpa using hh)
      obtain ⟨a1, b1, a', b', k1, k2, k3, k4, k5, k6, k7, k8, k9⟩ := hM.hit_participants h1 h2
      rw [hb] at k4; simp only [Option.some.injEq] at k4; rw [k4]; exact k8
  · intro i j a b ha hb hh
    obtain ⟨row, h1, h2⟩ := (hit_iff i j).mp (by simpa using hh)
    obtain ⟨a1, b1, a', b', k1, k2, k3, k4, k5, k6, k7, k8, k9⟩ := hM.hit_participants h1 h2
    rw [ha] at k3; rw [hb] at k4
    simp only [Option.some.injEq] at k3 k4
    rw [k3, k4]
    exact (inRange_congr c.nc k5 k6).mpr k9
  · have hret_hit : ∀ (i : Nat) (row : List Outcome), M[i]? = some row → ∀ o ∈ row, o.returned = o.isHit := by
      intro i row hi o ho
      cases o with
      | miss => rfl
      | hit => rfl
      | skipped =>
        obtain ⟨j, hj⟩ := List.mem_iff_getElem?.mp ho
        have := (hM.skipped i j row hi hj).1
        rw [hc.switch, ht] at this
        cases this
    have hcount : ∀ (row : List Outcome) (N : Nat), row.length = N →
        row.countP Outcome.isHit = (List.range N).countP fun j => decide (row[j]? = some Outcome.hit) := by
      intro row N hN
      have : row = (List.range N).map fun j => (row[j]?).getD .miss := by
        apply List.ext_getElem?
        intro j
        rw [List.getElem?_map]
        by_cases hj : j < N
        · rw [List.getElem?_range hj]
          simp [List.getElem?_eq_getElem (by omega : j < row.length)]
        · rw [List.getElem?_eq_none (by omega), List.getElem?_eq_none (by simp; omega)]; rfl
      conv_lhs => rw [this]
      rw [List.countP_map]
      apply List.countP_congr
      intro j _
      simp only [Function.comp]
      cases hr : row[j]? with
      | none => simp [Outcome.isHit]
      | some o => cases o <;> simp [Outcome.isHit]
    rw [hn]
    congr 1
    apply List.ext_getElem?
    intro i
    rw [List.getElem?_map, List.getElem?_map]
    by_cases hi : i < A.nucleons.length
    · rw [List.getElem?_range hi]
      have hi' : i < M.length := by rw [hM.len, ← e1]; exact hi
      have hMi := List.getElem?_eq_getElem hi'
      simp only [hMi, Option.map_some, Option.some.injEq, Option.bind_some]
      rw [← hcount M[i] B.nucleons.length (by rw [e2]; exact hM.rows _ (List.getElem_mem hi'))]
      apply List.countP_congr
      intro o ho
      rw [hret_hit i M[i] hMi o ho]
    · rw [List.getElem?_eq_none (by rw [hM.len, ← e1]; omega), List.getElem?_eq_none (by simp; omega)]
      rfl

/-! ## C38 -/

theorem runLoop_event_indep (rfuel fuel : Nat) (c : Collider F) (ec : EventCfg F) (debug : Bool) {n : Nat} (k num : Nat)
    (A B : Nucleus F) (ev ev2 : Event F n) (w : Rand E D) :
    (runLoop rfuel fuel c ec debug k num ⟨A, B, ev, w⟩).map (·.1) =
      (runLoop rfuel fuel c ec debug k num ⟨A, B, ev2, w⟩).map (·.1) := by
  cases k with
  | zero => rfl
  | succ k =>
    rw [runLoop, runLoop]
    simp only
    split
    · rfl
    · rw [C24_history_independent ec c.nc debug n ev ev2]

/-- **C38.** For every arithmetic: with `random-seed > 0` the whole run — outcome and all records — depends only on the options
and the cross section parameter: not on the state the random engine and distributions were in before (for example because
the cross section was fitted by Monte Carlo rather than read from the cache), nor on the uninitialised contents of the
event object. -/
theorem C38_seeded_runs_reproducible (rfuel fuel : Nat) (o : Options F) (hs : 0 < o.randomSeed) (sigma : F) (debug : Bool)
    (ev0 ev1 : (n : Nat) → Event F n) (w w' : Rand E D) :
    runAll rfuel fuel o sigma debug ev0 w = runAll rfuel fuel o sigma debug ev1 w' := by
  unfold runAll
  have hseed : seedRand F o.randomSeed w = seedRand F o.randomSeed w' := by simp [seedRand, hs]
  split
  · rfl
  · rename_i ec hec
    have : (Collider.make o sigma).runEvents rfuel fuel ec debug (ev0 ec.nsteps.toNat) (seedRand F o.randomSeed w) =
        (Collider.make o sigma).runEvents rfuel fuel ec debug (ev1 ec.nsteps.toNat) (seedRand F o.randomSeed w') := by
      rw [hseed]
      unfold Collider.runEvents
      have h := runLoop_event_indep rfuel fuel (Collider.make o sigma) ec debug (Collider.make o sigma).nevents.toNat 0
        (Collider.make o sigma).nucleusA (Collider.make o sigma).nucleusB (ev0 ec.nsteps.toNat) (ev1 ec.nsteps.toNat)
        (seedRand F o.randomSeed w')
      revert h
      generalize runLoop rfuel fuel (Collider.make o sigma) ec debug (Collider.make o sigma).nevents.toNat 0
        ⟨(Collider.make o sigma).nucleusA, (Collider.make o sigma).nucleusB, ev0 ec.nsteps.toNat, seedRand F o.randomSeed w'⟩ = r1
      generalize runLoop rfuel fuel (Collider.make o sigma) ec debug (Collider.make o sigma).nevents.toNat 0
        ⟨(Collider.make o sigma).nucleusA, (Collider.make o sigma).nucleusB, ev1 ec.nsteps.toNat, seedRand F o.randomSeed w'⟩ = r2
      intro h
      cases r1 <;> cases r2 <;> simp_all [Except.map]
    rw [this]

end generic

/-! ## C33 -/

section real
variable {E D : Type} [Rng ℝ E D]

theorem impactFormula_real (bmin bmax u : ℝ) : impactFormula bmin bmax u = Real.sqrt (bmin*bmin + (bmax*bmax - bmin*bmin)*u) := by
  unfold impactFormula; simp

/-- **C33, range.** For limits `0 ≤ b-min ≤ b-max` every `u` in [0,1) gives an impact parameter between the limits; equal
limits give exactly that value; for different limits `b-max` itself is never reached. -/
theorem C33_impact_range {bmin bmax u : ℝ} (h0 : 0 ≤ bmin) (h : bmin ≤ bmax) (hu : 0 ≤ u) (hu1 : u < 1) :
    bmin ≤ impactFormula bmin bmax u ∧ impactFormula bmin bmax u ≤ bmax ∧
    (bmin = bmax → impactFormula bmin bmax u = bmin) ∧ (bmin < bmax → impactFormula bmin bmax u < bmax) := by
  rw [impactFormula_real]
  have hsq : 0 ≤ bmax*bmax - bmin*bmin := by nlinarith
  refine ⟨?_, ?_, ?_, ?_⟩
  · apply Real.le_sqrt_of_sq_le; nlinarith [mul_nonneg hsq hu]
  · apply Real.sqrt_le_iff.mpr; exact ⟨by linarith, by nlinarith⟩
  · rintro rfl
    have : bmin*bmin + (bmin*bmin - bmin*bmin)*u = bmin^2 := by ring
    rw [this, Real.sqrt_sq h0]
  · intro hlt
    rw [Real.sqrt_lt' (by linarith)]
    have : 0 < bmax*bmax - bmin*bmin := by nlinarith
    nlinarith

/-- **C33, distribution.** For `u` uniform in [0,1) and `bmin ≤ β ≤ bmax`, the probability of `b ≤ β` is
`(β² - bmin²)/(bmax² - bmin²)`, the distribution with density proportional to `b`. -/
theorem C33_impact_distribution {bmin bmax β : ℝ} (h0 : 0 ≤ bmin) (h : bmin < bmax) (hβ : bmin ≤ β) (hβ' : β ≤ bmax) :
    (volume {u : ℝ | u ∈ Set.Ico (0:ℝ) 1 ∧ impactFormula bmin bmax u ≤ β}).toReal =
      (β^2 - bmin^2)/(bmax^2 - bmin^2) := by
  have hsq : 0 < bmax*bmax - bmin*bmin := by nlinarith
  have hset : ∀ u : ℝ, impactFormula bmin bmax u ≤ β ↔ u ≤ (β^2 - bmin^2)/(bmax^2 - bmin^2) := by
    intro u
    rw [impactFormula_real, Real.sqrt_le_iff, le_div_iff₀ (by nlinarith)]
    constructor
    · rintro ⟨_, h⟩; nlinarith
    · intro h; exact ⟨by linarith, by nlinarith⟩
  have hp0 : 0 ≤ (β^2 - bmin^2)/(bmax^2 - bmin^2) := div_nonneg (by nlinarith) (by nlinarith)
  have hp1 : (β^2 - bmin^2)/(bmax^2 - bmin^2) ≤ 1 := by rw [div_le_one (by nlinarith)]; nlinarith
  generalize (β^2 - bmin^2)/(bmax^2 - bmin^2) = p at *
  have h1 : {u : ℝ | u ∈ Set.Ico (0:ℝ) 1 ∧ impactFormula bmin bmax u ≤ β} = Set.Ico 0 1 ∩ Set.Iic p := by
    ext u; simp only [Set.mem_ofPred_eq, hset, Set.mem_inter_iff, Set.mem_Iic]
  rw [h1]
  have h2 : volume (Set.Ico (0:ℝ) 1 ∩ Set.Iic p) = ENNReal.ofReal p := by
    rcases hp1.lt_or_eq with hlt | heq
    · have : Set.Ico (0:ℝ) 1 ∩ Set.Iic p = Set.Icc 0 p := by
        ext u; simp only [Set.mem_inter_iff, Set.mem_Ico, Set.mem_Iic, Set.mem_Icc]
        constructor
        · rintro ⟨⟨a, _⟩, c⟩; exact ⟨a, c⟩
        · rintro ⟨a, c⟩; exact ⟨⟨a, by linarith⟩, c⟩
      rw [this, Real.volume_Icc, sub_zero]
    · have : Set.Ico (0:ℝ) 1 ∩ Set.Iic p = Set.Ico 0 1 := by
        ext u; simp only [Set.mem_inter_iff, Set.mem_Ico, Set.mem_Iic]
        constructor
        · rintro ⟨a, _⟩; exact a
        · rintro ⟨a, c⟩; exact ⟨⟨a, c⟩, by linarith⟩
      rw [this, Real.volume_Ico, sub_zero, heq]
  rw [h2, ENNReal.toReal_ofReal hp0]

/-- **C33, events.** Every event handed to the output has an impact parameter within the limits. -/
theorem C33_events_in_range [LawfulRng E D] {rfuel fuel : Nat} {c : Collider ℝ} (hc : c.Valid E D) (h0 : 0 ≤ c.bmin)
    (hle : c.bmin ≤ c.bmax) {ec : EventCfg ℝ} {debug : Bool} {n : Nat} {ev : Event ℝ n} {w : Rand E D}
    {rs : List (EventRecord ℝ n)} (h : c.runEvents rfuel fuel ec debug ev w = .ok rs) :
    ∀ rec ∈ rs, c.bmin ≤ rec.b ∧ rec.b ≤ c.bmax ∧ (c.bmin = c.bmax → rec.b = c.bmin) := by
  intro rec hrec
  obtain ⟨A, B, ⟨⟨w, hb⟩, -⟩, -⟩ := (runEvents_records hc h).2 rec hrec
  have hu := canonical_mem w
  have := C33_impact_range h0 hle hu.1 hu.2
  rw [hb]
  exact ⟨this.1, this.2.1, this.2.2.1⟩

/-! ## C34 -/

/-- **C34.** For non-negative radii: the asymmetry is in [0, 1]; so for every `b ≥ 0` the offsets `α b` and `(α - 1) b` of the
two nuclei differ by exactly `b` and have magnitude at most `b`; nuclei of equal radius get `b/2` and `-b/2`; a point-like
nucleus paired with one of radius at least 0.1 stays at the origin. -/
theorem C34_offsets (A B : Nucleus ℝ) (hA : 0 ≤ A.radius) (hB : 0 ≤ B.radius) (b : ℝ) (hb : 0 ≤ b) :
    let offA := determineAsym A B * b
    let offB := (determineAsym A B - lit 1) * b
    offA - offB = b ∧ |offA| ≤ b ∧ |offB| ≤ b ∧ 0 ≤ offA ∧ offB ≤ 0 ∧
    (A.radius = B.radius → offA = b/2 ∧ offB = -(b/2)) ∧
    (A.radius = 0 → 0.1 ≤ B.radius → offA = 0 ∧ offB = -b) ∧
    (B.radius = 0 → 0.1 ≤ A.radius → offA = b ∧ offB = 0) := by
  have hasym : 0 ≤ determineAsym A B ∧ determineAsym A B ≤ 1 ∧ (A.radius = B.radius → determineAsym A B = 1/2) ∧
      (A.radius = 0 → 0.1 ≤ B.radius → determineAsym A B = 0) ∧ (B.radius = 0 → 0.1 ≤ A.radius → determineAsym A B = 1) := by
    unfold determineAsym
    simp only [lt_real, decide_eq_true_eq, lit_real]
    split
    · rename_i hlt
      norm_num at hlt ⊢
      constructor
      · intro h1; linarith
      · intro h1; linarith
    · rename_i hge
      norm_num at hge
      have hpos : 0 < A.radius + B.radius := by linarith
      refine ⟨div_nonneg hA hpos.le, by rw [div_le_one hpos]; linarith, ?_, ?_, ?_⟩
      · intro h; rw [← h] at hpos ⊢; rw [div_eq_div_iff hpos.ne' (by norm_num)]; ring
      · intro h _; rw [h]; simp
      · intro h _; rw [h, add_zero] at hpos ⊢; exact div_self hpos.ne'
  obtain ⟨h1, h2, h3, h4, h5⟩ := hasym
  generalize determineAsym A B = α at *
  simp only [lit_real]
  push_cast
  have e1 : 0 ≤ α * b := mul_nonneg h1 hb
  have e2 : (α - 1) * b ≤ 0 := mul_nonpos_of_nonpos_of_nonneg (by linarith) hb
  refine ⟨by ring, ?_, ?_, e1, e2, ?_, ?_, ?_⟩
  · rw [abs_of_nonneg e1]; nlinarith
  · rw [abs_of_nonpos e2]; nlinarith
  · intro h; rw [h3 h]; constructor <;> ring
  · intro h h'; rw [h4 h h']; constructor <;> ring
  · intro h h'; rw [h5 h h']; constructor <;> ring

/-- The radii of all nuclei made by `Nucleus::create` are non-negative, so C34 applies to them. -/
theorem C34_radius_nonneg {E D : Type} [Rng ℝ E D] {nuc : Nucleus ℝ} (hh : NucleusHistory E D nuc) : 0 ≤ nuc.radius := by
  induction hh with
  | create hdf5 disk species dmin nuc h =>
    by_cases hs : species ∈ Spec.speciesTable.map Prod.fst
    · unfold Spec.speciesTable at hs
      simp only [List.map_cons, List.map_nil, List.mem_cons, List.not_mem_nil, or_false] at hs
      rcases hs with rfl | rfl | rfl | rfl | rfl | rfl | rfl | rfl | rfl | rfl | rfl | rfl <;>
      (injection h with h; subst h)
      · show (0:ℝ) ≤ ((0:ℚ):ℝ); norm_num
      · show (0:ℝ) ≤ -(Real.log ((0.01:ℚ):ℝ)) / (((2:ℚ):ℝ) * min ((0.457:ℚ):ℝ) ((2.35:ℚ):ℝ))
        have : Real.log ((0.01:ℚ):ℝ) ≤ 0 := Real.log_nonpos (by norm_num) (by norm_num)
        exact div_nonneg (by linarith) (by norm_num)
      all_goals
        unfold Nucleus.radius
        simp only [mkWoodsSaxon, mkDeformed, Nucleus.ofKind, Kind.radius, lit_real, fabs_real]
        norm_num [abs_of_pos, abs_of_neg]
    · obtain ⟨h1, h2⟩ := C11_other_strings hdf5 disk dmin species hs
      by_cases hf : filenameIsHdf5 species = true ∧ hdf5 = true
      · rw [h1 hf.1 hf.2] at h
        unfold manualCreate at h
        split at h
        · cases h
        · cases h
        · split at h
          · cases h
          · split at h
            · cases h
            · split at h
              · cases h
              · split at h
                · cases h
                · dsimp only at h
                  split at h
                  · cases h
                  · injection h with h
                    subst h
                    exact Real.sqrt_nonneg _
          · cases h
      · obtain ⟨msg, h2⟩ := h2 hf
        rw [h2] at h; cases h
  | sample fuel nuc nuc' offset w w' h hs ih =>
    unfold Nucleus.radius at *
    rw [(sampleNucleons_reset h.wf hs).1]; exact ih
  | collide nuc ns h hl ih => exact ih

/-! ## C35 -/

/-- **C35, given maximum.** A non-negative `b-max` is used as given; a negative one is replaced by the sum of the radii and six
nucleon widths. -/
theorem C35_bmax (o : Options ℝ) (hw : 0 ≤ o.nucleonWidth) (sigma : ℝ) :
    (0 ≤ o.bMax → (Collider.make o sigma).bmax = o.bMax) ∧
    (o.bMax < 0 → (Collider.make o sigma).bmax = o.projectileA.radius + o.projectileB.radius + 6 * o.nucleonWidth) := by
  have himp : (NucleonCommon.make o.nucleonWidth o.constitWidth o.constitNumber sigma o.ncoll o.fluctuation).maxImpact =
      6 * o.nucleonWidth := by
    unfold NucleonCommon.maxImpact
    rw [make_maxImpactSq, sqrt_real, Real.sqrt_sq (by positivity)]
  simp only [Collider.make, determineBmax, lt_real, lit_real, himp]
  push_cast
  constructor
  · intro h; rw [if_neg (by simpa using h)]
  · intro h; rw [if_pos (by simpa using h)]

/-- **C35, minimum bias.** Take two nucleons lying within radius `rA` and `rB` of the centres of their nuclei in the transverse
plane, the centres a distance `b` apart along x.  If `b` exceeds `rA + rB + 6w`, the nucleons are out of range: a pair not
both participants already never collides. -/
theorem C35_beyond_bmax_nothing (w v : ℝ) (m : ℕ) (σ : ℝ) (ncoll : Bool) (k : ℝ) (hw : 0 ≤ w) {b α rA rB : ℝ}
    (A B : NucleonData ℝ) (hA : Real.sqrt ((A.x - α*b)^2 + A.y^2) ≤ rA)
    (hB : Real.sqrt ((B.x - (α-1)*b)^2 + B.y^2) ≤ rB) (hb : rA + rB + 6*w < b)
    (hp : ¬ (A.isParticipant = true ∧ B.isParticipant = true)) (r : Rand E D) :
    (NucleonCommon.make w v m σ ncoll k).participate A B r = ((false, A, B), r) := by
  apply C06_out_of_range w v m σ ncoll k hw A B hp
  have h1 : |A.x - α*b| ≤ rA := le_trans (Real.abs_le_sqrt (by nlinarith [sq_nonneg A.y])) hA
  have h2 : |B.x - (α-1)*b| ≤ rB := le_trans (Real.abs_le_sqrt (by nlinarith [sq_nonneg B.y])) hB
  rw [abs_le] at h1 h2
  have h3 : 6*w < A.x - B.x := by linarith [h1.1, h2.2]
  exact lt_of_lt_of_le h3 (Real.le_sqrt_of_sq_le (by nlinarith [sq_nonneg (A.y - B.y)]))

/-- **C36, distances.** With exact arithmetic "in range" means: at most six nucleon widths apart in the transverse plane. -/
theorem C36_inRange_iff (w v : ℝ) (m : ℕ) (σ : ℝ) (ncoll : Bool) (k : ℝ) (hw : 0 ≤ w) (a b : NucleonData ℝ) :
    InRange (NucleonCommon.make w v m σ ncoll k) a b ↔ Real.sqrt ((a.x - b.x)^2 + (a.y - b.y)^2) ≤ 6 * w := by
  unfold InRange
  rw [make_maxImpactSq]
  simp only [sqr_real, lt_real, decide_eq_false_iff_not, not_lt]
  rw [Real.sqrt_le_iff]
  constructor
  · intro h; exact ⟨by positivity, by nlinarith⟩
  · rintro ⟨_, h⟩; nlinarith

end real
end Trento
