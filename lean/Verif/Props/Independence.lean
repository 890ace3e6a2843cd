import Verif.Lemmas.MeasEvent
import Verif.Lemmas.SampleMean
import Verif.Props.Unbiased
import Verif.Props.History
import Verif.Lemmas.FreshTape

/-!
# C92, C93: the events of a run are independent and identically distributed

One run of `N` events and `N` runs of one event each have the same statistics.
-/

namespace Trento
open MeasureTheory Set Spec
open scoped ENNReal

/-- What is observed of an event: impact parameter, number of binary collisions, and the event (thickness grids, number of participants, multiplicity,
eccentricities). -/
abbrev Spec.Observed (n : ℕ) := ℝ × ℕ × Event ℝ n

/-- The observed part of a record (everything but the event number). -/
def Spec.observed {n : ℕ} (r : EventRecord ℝ n) : Observed n := (r.b, r.ncoll, r.event)

variable {E D : Type} [Rng ℝ E D]

/-- one event, computed from a collision of new nuclei -/
noncomputable def eventStep (rfuel fuel : ℕ) (c : Collider ℝ) (ec : EventCfg ℝ) (debug : Bool) {n : ℕ} (ev : Event ℝ n) (A B : Nucleus ℝ) (w : Rand E D) :
    Res (Observed n × Rand E D) :=
  bindR (attempts rfuel c A B fuel w) fun x w =>
    exElim (exElim (ev.compute ec c.nc debug x.2.2.1 x.2.2.2) Except.error fun e => .ok ((x.1, x.2.1, e) : Observed n)) Except.error fun o => .ok (o, w)

theorem map_clear_clear (l : List (NucleonData ℝ)) : (l.map NucleonData.clear).map NucleonData.clear = l.map NucleonData.clear := by
  rw [List.map_map]
  exact List.map_congr_left fun a _ => clear_clear a

/-- the first event of a run -/
theorem eventStep_eq (rfuel fuel : ℕ) (c : Collider ℝ) (ec : EventCfg ℝ) (debug : Bool) {n : ℕ} (ev : Event ℝ n) (A B : Nucleus ℝ)
    (hA : NucleusHistory E D A) (hB : NucleusHistory E D B) (w : Rand E D) :
    eventStep rfuel fuel c ec debug ev A B w = match c.sampleCollision rfuel fuel A B w with
      | .error e => .error e
      | .ok ((b, ncoll, A, B), w) => match ev.compute ec c.nc debug A.nucleons B.nucleons with
        | .error e => .error e
        | .ok ev => .ok ((b, ncoll, ev), w) := by
  unfold eventStep
  rw [← collisionLoop_attempts rfuel c A B hA hB fuel w]
  unfold Collider.sampleCollision
  cases hc : collisionLoop rfuel c fuel A B 0 false w with
  | error e => rfl
  | ok t =>
    obtain ⟨⟨b, m, A1, B1⟩, w1⟩ := t
    obtain ⟨-, c2⟩ := collisionLoop_inv (Q := fun _ => True) trivial (partExist_inv c.nc) (sampling_partExist A.kind _)
      (sampling_partExist B.kind _) rfuel fuel A B hA hB rfl rfl 0 false w
    obtain ⟨-, -, -, -, pA, pB, -⟩ := c2 _ _ _ _ _ hc
    have pc : ∀ {l : List (NucleonData ℝ)}, (∀ a ∈ l, a.isParticipant = true → a.constituentsExist = true) →
        ∀ a ∈ l.map NucleonData.clear, a.isParticipant = true → a.constituentsExist = true := by
      intro l hl a ha
      obtain ⟨a', ha', rfl⟩ := List.mem_map.mp ha
      rw [clear_part, clear_exist]
      exact hl a' ha'
    have he := compute_clear ec c.nc debug ev (map_clear_clear A1.nucleons) (map_clear_clear B1.nucleons) (pc pA) (pc pB) pA pB
    simp only [Except.map, bindR, collided]
    rw [he]
    cases ev.compute ec c.nc debug A1.nucleons B1.nucleons <;> rfl

/-- a run is a repetition of the first event -/
theorem runLoop_iter (rfuel fuel : ℕ) (c : Collider ℝ) (ec : EventCfg ℝ) (debug : Bool) {n : ℕ} (ev : Event ℝ n) (A B : Nucleus ℝ)
    (hA : NucleusHistory E D A) (hB : NucleusHistory E D B) (k num : ℕ) (w : Rand E D) :
    (runLoop rfuel fuel c ec debug k num ⟨A, B, ev, w⟩).map (fun t => (t.1.map observed, t.2.rand)) = iter (eventStep rfuel fuel c ec debug ev A B) k w := by
  induction k generalizing num w with
  | zero => rfl
  | succ k ih =>
    rw [runLoop, iter, eventStep_eq rfuel fuel c ec debug ev A B hA hB]
    dsimp only
    cases hc : c.sampleCollision rfuel fuel A B w with
    | error e => rfl
    | ok t =>
      obtain ⟨⟨b, m, A1, B1⟩, w1⟩ := t
      dsimp only
      cases hev : ev.compute ec c.nc debug A1.nucleons B1.nucleons with
      | error e => rfl
      | ok ev1 =>
        obtain ⟨-, gA, gB, glA, glB, gkA, gkB⟩ := collisionLoop_spec rfuel c fuel A B A1 B1 hA hB w w1 b m hc
        have h88 := C88_run rfuel fuel c ec debug k (num+1) ⟨A1, B1, ev1, w1⟩ ⟨A, B, ev, w1⟩ gA hA gB hB gkA gkB glA glB rfl
        have i := ih (num+1) w1
        simp only [bindR]
        rw [← i]
        rcases map_eq_cases h88 with ⟨e, h1, h2⟩ | ⟨⟨r1, s1⟩, ⟨r2, s2⟩, h1, h2, h3⟩
        · rw [h1, h2]; rfl
        · rw [h1, h2]
          simp only [Prod.mk.injEq] at h3
          obtain ⟨rfl, h3⟩ := h3
          simp only [Except.map, h3, List.map_cons, observed]

/-- the observed parts of the records of a run -/
theorem runEvents_iter (rfuel fuel : ℕ) (c : Collider ℝ) (ec : EventCfg ℝ) (debug : Bool) {n : ℕ} (ev : Event ℝ n)
    (hA : NucleusHistory E D c.nucleusA) (hB : NucleusHistory E D c.nucleusB) (w : Rand E D) :
    (c.runEvents rfuel fuel ec debug ev w).map (List.map observed) =
      (iter (eventStep rfuel fuel c ec debug ev c.nucleusA c.nucleusB) c.nevents.toNat w).map Prod.fst := by
  rw [← runLoop_iter rfuel fuel c ec debug ev _ _ hA hB _ 0 w]
  unfold Collider.runEvents
  cases runLoop rfuel fuel c ec debug c.nevents.toNat 0 ⟨c.nucleusA, c.nucleusB, ev, w⟩ <;> rfl

variable [MeasurableSpace E] [MeasurableSpace D] {I : Type} {μ : I → Measure (Rand E D)}

theorem compute_obs_meas (c : Collider ℝ) (ec : EventCfg ℝ) (debug : Bool) {n : ℕ} (ev : Event ℝ n) :
    Measurable fun x : Collided => (exElim (ev.compute ec c.nc debug x.2.2.1 x.2.2.2) Except.error fun e => .ok ((x.1, x.2.1, e) : Observed n) : Res (Observed n)) :=
  measurable_exBind' (r := fun x : Collided => ev.compute ec c.nc debug x.2.2.1 x.2.2.2)
    (G := fun p : Collided × Event ℝ n => (.ok ((p.1.1, p.1.2.1, p.2) : Observed n) : Res (Observed n)))
    (compute_meas ec c.nc debug ev (by fun_prop) (by fun_prop)) (measurable_ok.comp (by fun_prop))

theorem renews_eventStep (h : FreshSource E D μ) (rfuel fuel : ℕ) (c : Collider ℝ) (ec : EventCfg ℝ) (debug : Bool) {n : ℕ} (ev : Event ℝ n) (A B : Nucleus ℝ) :
    Renews μ fun (_ : Unit) (w : Rand E D) => eventStep rfuel fuel c ec debug ev A B w := by
  have := h.prob
  have h1 := (renews_attempt h rfuel c A B).retry fuel
  have h2 := Renews.ofRes (μ := μ) ((compute_obs_meas c ec debug ev).comp (measurable_snd : Measurable fun p : Unit × Collided => p.2))
  exact (h1.bind h2).congr fun y w => rfl

/-- the same run with one event -/
abbrev Spec.oneEvent (c : Collider ℝ) : Collider ℝ := { c with nevents := 1 }

omit [MeasurableSpace E] [MeasurableSpace D] in
theorem oneEvent_run (rfuel fuel : ℕ) (c : Collider ℝ) (ec : EventCfg ℝ) (debug : Bool) {n : ℕ} (ev : Event ℝ n)
    (hA : NucleusHistory E D c.nucleusA) (hB : NucleusHistory E D c.nucleusB) (w : Rand E D) :
    ((oneEvent c).runEvents rfuel fuel ec debug ev w).map (List.map observed) =
      (eventStep rfuel fuel c ec debug ev c.nucleusA c.nucleusB w).map fun t => [t.1] := by
  rw [runEvents_iter rfuel fuel (oneEvent c) ec debug ev hA hB w]
  show (iter (eventStep rfuel fuel c ec debug ev c.nucleusA c.nucleusB) 1 w).map Prod.fst = _
  rw [iter]
  simp only [iter]
  cases eventStep rfuel fuel c ec debug ev c.nucleusA c.nucleusB w <;> rfl

omit [MeasurableSpace E] [MeasurableSpace D] in
/-- The event computed by a run of one event is in the set `S`. -/
def Spec.Event1 (rfuel fuel : ℕ) (c : Collider ℝ) (ec : EventCfg ℝ) (debug : Bool) {n : ℕ} (ev : Event ℝ n) (S : Set (Observed n)) : Set (Rand E D) :=
  {w | ∃ r, (oneEvent c).runEvents rfuel fuel ec debug ev w = .ok [r] ∧ observed r ∈ S}

omit [MeasurableSpace E] [MeasurableSpace D] in
theorem event1_eq (rfuel fuel : ℕ) (c : Collider ℝ) (ec : EventCfg ℝ) (debug : Bool) {n : ℕ} (ev : Event ℝ n)
    (hA : NucleusHistory E D c.nucleusA) (hB : NucleusHistory E D c.nucleusB) (S : Set (Observed n)) :
    Event1 rfuel fuel c ec debug ev S = {w : Rand E D | ∃ a, (eventStep rfuel fuel c ec debug ev c.nucleusA c.nucleusB w).map Prod.fst = .ok a ∧ a ∈ S} := by
  ext w
  have h1 := oneEvent_run rfuel fuel c ec debug ev hA hB w
  simp only [Event1, mem_ofPred_eq]
  cases h2 : (oneEvent c).runEvents rfuel fuel ec debug ev w with
  | error e =>
    rw [h2] at h1
    cases h3 : eventStep rfuel fuel c ec debug ev c.nucleusA c.nucleusB w with
    | error e' => simp [Except.map]
    | ok t => rw [h3] at h1; cases h1
  | ok rs =>
    rw [h2] at h1
    cases h3 : eventStep rfuel fuel c ec debug ev c.nucleusA c.nucleusB w with
    | error e' => rw [h3] at h1; cases h1
    | ok t =>
      rw [h3] at h1
      simp only [Except.map, Except.ok.injEq] at h1
      obtain ⟨r, hr, hr'⟩ := List.map_eq_singleton_iff.mp h1
      subst hr
      simp only [Except.map, Except.ok.injEq, List.cons.injEq, and_true, exists_eq_left', hr']

/-- The law of the event computed by a run of one event: a measure whose total mass is the probability that this run is completed. -/
noncomputable def Spec.eventLaw (ν : Measure (Rand E D)) (rfuel fuel : ℕ) (c : Collider ℝ) (ec : EventCfg ℝ) (debug : Bool) {n : ℕ} (ev : Event ℝ n) :
    Measure (Observed n) :=
  okLaw ν fun w => (eventStep rfuel fuel c ec debug ev c.nucleusA c.nucleusB w).map Prod.fst

theorem map_fst_meas {α β W : Type} [MeasurableSpace α] [MeasurableSpace β] [MeasurableSpace W] {r : W → Res (α × β)} (hr : Measurable r) :
    Measurable fun w => (r w).map Prod.fst := by
  refine measurable_of_eq (measurable_exBind (r := r) (g := fun _ a => .ok a.1) hr (measurable_ok.comp (by fun_prop))) fun w => ?_
  cases r w <;> rfl

theorem C92_law (h : FreshSource E D μ) (rfuel fuel : ℕ) (c : Collider ℝ) (ec : EventCfg ℝ) (debug : Bool) {n : ℕ} (ev : Event ℝ n)
    (hA : NucleusHistory E D c.nucleusA) (hB : NucleusHistory E D c.nucleusB) (S : Set (Observed n)) (hS : MeasurableSet S) (i : I) :
    eventLaw (μ i) rfuel fuel c ec debug ev S = (μ i) (Event1 rfuel fuel c ec debug ev S) := by
  rw [event1_eq rfuel fuel c ec debug ev hA hB S]
  exact okLaw_apply (map_fst_meas (renews_eventStep h rfuel fuel c ec debug ev c.nucleusA c.nucleusB).meas1) hS

open scoped Classical in
omit [Rng ℝ E D] [MeasurableSpace E] [MeasurableSpace D] in
theorem prodFrom_records {n : ℕ} (S : ℕ → Set (Observed n)) (num : ℕ) (rs : List (EventRecord ℝ n)) (hn : rs.map (·.num) = List.range' num rs.length) :
    prodFrom (fun l => (S l).indicator 1) num (rs.map observed) = if (∀ r ∈ rs, observed r ∈ S r.num) then 1 else 0 := by
  induction rs generalizing num with
  | nil => simp [prodFrom]
  | cons r rs ih =>
    simp only [List.map_cons, List.length_cons, List.range'_succ, List.cons.injEq] at hn
    rw [List.map_cons, prodFrom, ih (num+1) hn.2]
    by_cases h0 : observed r ∈ S num
    · simp [h0, hn.1]
    · simp [h0, hn.1]

omit [MeasurableSpace E] [MeasurableSpace D] in
theorem runEvents_num {rfuel fuel : ℕ} {c : Collider ℝ} {ec : EventCfg ℝ} {debug : Bool} {n : ℕ} {ev : Event ℝ n} {w : Rand E D} {rs : List (EventRecord ℝ n)}
    (hA : NucleusHistory E D c.nucleusA) (hB : NucleusHistory E D c.nucleusB) (h : c.runEvents rfuel fuel ec debug ev w = .ok rs) :
    rs.map (·.num) = List.range c.nevents.toNat := by
  unfold Collider.runEvents at h
  split at h
  · cases h
  · rename_i rs' s' hrl
    simp only [Except.ok.injEq] at h
    subst h
    rw [List.range_eq_range']
    exact (runLoop_records rfuel fuel c ec debug _ 0 _ _ _ hA hB hrl).1

/-- **C92.** In a run of `N` events, for all sets `S 0`, `S 1`, …, the probability that the run is completed and event number `l` is in `S l` for every `l` is the
product of the probabilities that a run of one event is completed with this event in `S l`: the events are independent and have the distribution of the event of a
run of one event (and the law of the random state at the start, whichever of the `μ i` it is, does not matter). -/
theorem C92_independent (h : FreshSource E D μ) (rfuel fuel : ℕ) (c : Collider ℝ) (ec : EventCfg ℝ) (debug : Bool) {n : ℕ} (ev : Event ℝ n)
    (hA : NucleusHistory E D c.nucleusA) (hB : NucleusHistory E D c.nucleusB) (S : ℕ → Set (Observed n)) (hS : ∀ l, MeasurableSet (S l)) (i j : I) :
    (μ i) {w | ∃ rs, c.runEvents rfuel fuel ec debug ev w = .ok rs ∧ ∀ r ∈ rs, observed r ∈ S r.num} =
      ∏ l ∈ Finset.range c.nevents.toNat, (μ j) (Event1 rfuel fuel c ec debug ev (S l)) := by
  classical
  have := h.prob
  set P := eventStep (E := E) (D := D) rfuel fuel c ec debug ev c.nucleusA c.nucleusB with hPdef
  have hP : Renews μ fun (_ : Unit) w => P w := renews_eventStep h rfuel fuel c ec debug ev c.nucleusA c.nucleusB
  have hF : ∀ l, Measurable ((S l).indicator (1 : Observed n → ℝ≥0∞)) := fun l => measurable_one.indicator (hS l)
  have e := iter_prod hP (F := fun l => (S l).indicator 1) hF c.nevents.toNat 0 i j
  simp only [Nat.zero_add] at e
  -- left side
  have hT : ∀ w : Rand E D, ifOk (iter P c.nevents.toNat w) (fun t => prodFrom (fun l => (S l).indicator 1) 0 t.1) =
      {w | ∃ rs, c.runEvents rfuel fuel ec debug ev w = .ok rs ∧ ∀ r ∈ rs, observed r ∈ S r.num}.indicator (1 : Rand E D → ℝ≥0∞) w := by
    intro w
    have h1 := runEvents_iter rfuel fuel c ec debug ev hA hB w
    rw [← hPdef] at h1
    have h2 : ifOk (iter P c.nevents.toNat w) (fun t => prodFrom (fun l => (S l).indicator 1) 0 t.1) =
        ifOk ((iter P c.nevents.toNat w).map Prod.fst) (prodFrom (fun l => (S l).indicator 1) 0) := by rw [ifOk_map]
    rw [h2, ← h1, ifOk_map]
    simp only [indicator, mem_ofPred_eq, Pi.one_apply]
    cases hr : c.runEvents rfuel fuel ec debug ev w with
    | error e => simp [ifOk]
    | ok rs =>
      have hn : rs.map (·.num) = List.range' 0 rs.length := by
        have := runEvents_num hA hB hr
        have hl := congrArg List.length this
        rw [List.length_map, List.length_range] at hl
        rw [this, hl, List.range_eq_range']
      simp only [ifOk, prodFrom_records S 0 rs hn, Except.ok.injEq, exists_eq_left']
  have hmeas : Measurable fun w => ifOk (iter P c.nevents.toNat w) (fun t => prodFrom (fun l => (S l).indicator 1) 0 t.1) :=
    ifOk_meas1 (hP.iter _) ((prodFrom_meas hF 0).comp measurable_fst)
  simp only [hT] at e hmeas
  have hset : MeasurableSet {w | ∃ rs, c.runEvents rfuel fuel ec debug ev w = .ok rs ∧ ∀ r ∈ rs, observed r ∈ S r.num} :=
    (measurable_indicator_const_iff (1:ℝ≥0∞)).mp hmeas
  rw [lintegral_indicator_one hset] at e
  rw [e]
  refine Finset.prod_congr rfl fun l _ => ?_
  rw [← C92_law h rfuel fuel c ec debug ev hA hB (S l) (hS l) j, ← lintegral_indicator_one (hS l), eventLaw, lintegral_okLaw (map_fst_meas hP.meas1) (hF l)]
  refine lintegral_congr fun w => ?_
  rw [ifOk_map]

/-- **C92, one event of many.** In a run of `N` events the probability that the run is completed and event number `k` is in `S` is the probability that a run of one
event is completed with its event in `S`, times the probability that `N - 1` runs of one event are completed. -/
theorem C92_each (h : FreshSource E D μ) (rfuel fuel : ℕ) (c : Collider ℝ) (ec : EventCfg ℝ) (debug : Bool) {n : ℕ} (ev : Event ℝ n)
    (hA : NucleusHistory E D c.nucleusA) (hB : NucleusHistory E D c.nucleusB) (S : Set (Observed n)) (hS : MeasurableSet S) (k : ℕ) (hk : k < c.nevents.toNat)
    (i j : I) :
    (μ i) {w | ∃ rs, c.runEvents rfuel fuel ec debug ev w = .ok rs ∧ ∀ r ∈ rs, r.num = k → observed r ∈ S} =
      (μ j) (Event1 rfuel fuel c ec debug ev S) * (μ j) (Event1 rfuel fuel c ec debug ev univ) ^ (c.nevents.toNat - 1) := by
  have e := C92_independent h rfuel fuel c ec debug ev hA hB (fun l => if l = k then S else univ) (fun l => by
    split; exacts [hS, MeasurableSet.univ]) i j
  have hl : {w : Rand E D | ∃ rs, c.runEvents rfuel fuel ec debug ev w = .ok rs ∧ ∀ r ∈ rs, observed r ∈ (if r.num = k then S else univ)} =
      {w | ∃ rs, c.runEvents rfuel fuel ec debug ev w = .ok rs ∧ ∀ r ∈ rs, r.num = k → observed r ∈ S} := by
    ext w
    refine exists_congr fun rs => and_congr_right fun _ => forall₂_congr fun r _ => ?_
    by_cases hr : r.num = k <;> simp [hr]
  rw [hl] at e
  rw [e, ← Finset.mul_prod_erase _ _ (Finset.mem_range.mpr hk)]
  simp only [if_true]
  congr 1
  rw [Finset.prod_congr rfl (g := fun _ => (μ j) (Event1 rfuel fuel c ec debug ev univ)) fun l hl => by rw [if_neg (Finset.ne_of_mem_erase hl)]]
  rw [Finset.prod_const, Finset.card_erase_of_mem (Finset.mem_range.mpr hk), Finset.card_range]

/-- **C92, attempts.** The distribution of an event does not depend on the number of attempts allowed to find a collision: given that it is completed, a run of one event
with up to `fuel` attempts has the distribution of one attempt that is a collision. -/
theorem C92_attempts (h : FreshSource E D μ) (rfuel fuel : ℕ) (c : Collider ℝ) (ec : EventCfg ℝ) (debug : Bool) {n : ℕ} (ev : Event ℝ n)
    (hA : NucleusHistory E D c.nucleusA) (hB : NucleusHistory E D c.nucleusB) (S : Set (Observed n)) (hS : MeasurableSet S) (i j : I) :
    (μ i) (Event1 rfuel fuel c ec debug ev S) * (μ j) (Event1 rfuel 1 c ec debug ev univ) =
      (μ i) (Event1 rfuel fuel c ec debug ev univ) * (μ j) (Event1 rfuel 1 c ec debug ev S) := by
  have := h.prob
  have key : ∀ (m : ℕ) (T : Set (Observed n)), MeasurableSet T → ∀ i, (μ i) (Event1 rfuel m c ec debug ev T) =
      collisionMean (μ i) rfuel c c.nucleusA c.nucleusB m fun x =>
        ifOk (exElim (ev.compute ec c.nc debug x.2.2.1 x.2.2.2) Except.error fun e => .ok ((x.1, x.2.1, e) : Observed n)) (T.indicator 1) := by
    intro m T hT i
    rw [← C92_law h rfuel m c ec debug ev hA hB T hT i, ← lintegral_indicator_one hT, eventLaw,
      lintegral_okLaw (map_fst_meas (renews_eventStep h rfuel m c ec debug ev c.nucleusA c.nucleusB).meas1) (measurable_one.indicator hT)]
    rw [collisionMean_eq hA hB μ, retryMean]
    refine lintegral_congr fun w => ?_
    rw [ifOk_map, eventStep, ifOk_bindR]
    show ifOk (attempts rfuel c c.nucleusA c.nucleusB m w) _ = _
    unfold attempts
    congr 1
    funext t
    cases ev.compute ec c.nc debug t.1.2.2.1 t.1.2.2.2 <;> rfl
  have hm : ∀ (T : Set (Observed n)), MeasurableSet T → Measurable fun x : Collided =>
        ifOk (exElim (ev.compute ec c.nc debug x.2.2.1 x.2.2.2) Except.error fun e => .ok ((x.1, x.2.1, e) : Observed n)) (T.indicator 1) := fun T hT =>
    measurable_ifOk (g := fun _ => T.indicator 1) (compute_obs_meas c ec debug ev) ((measurable_one.indicator hT).comp measurable_snd)
  obtain ⟨q, P1, -, hq⟩ := C89_attempts h c c.nucleusA c.nucleusB hA hB rfuel
  rw [key fuel S hS i, key 1 univ MeasurableSet.univ j, key fuel univ MeasurableSet.univ i, key 1 S hS j,
    (hq fuel i).2 _ (hm S hS) j, (hq fuel i).2 _ (hm univ MeasurableSet.univ) j]
  ring

/-- **C92, joint law.** For every measurable set `T` of sequences of observed events, the probability that a run of `N` events is completed with the observed events in
`T` is the mass of `T` in the `N`-fold product of the law of one event. -/
theorem C92_joint (h : FreshSource E D μ) (rfuel fuel : ℕ) (c : Collider ℝ) (ec : EventCfg ℝ) (debug : Bool) {n : ℕ} (ev : Event ℝ n)
    (hA : NucleusHistory E D c.nucleusA) (hB : NucleusHistory E D c.nucleusB) (T : Set (List (Observed n))) (hT : MeasurableSet T) (i j : I) :
    (μ i) {w | ∃ rs, c.runEvents rfuel fuel ec debug ev w = .ok rs ∧ rs.map observed ∈ T} =
      Measure.pi (fun _ : Fin c.nevents.toNat => eventLaw (μ j) rfuel fuel c ec debug ev) {v | List.ofFn v ∈ T} := by
  have := h.prob
  have e := iter_event (renews_eventStep h rfuel fuel c ec debug ev c.nucleusA c.nucleusB) c.nevents.toNat i j hT
  rw [eventLaw, ← e]
  congr 1
  ext w
  simp only [mem_ofPred_eq, ← runEvents_iter rfuel fuel c ec debug ev hA hB w]
  cases c.runEvents rfuel fuel ec debug ev w <;> simp [Except.map]

open ProbabilityTheory in
/-- **C93.** The average of a quantity `f` over the events of a run estimates its mean with a standard error that decreases as `1 / √N`: among the completed runs of `N`
events, at most the fraction `Var f / (N ε²)` has an average which deviates by `ε` or more from the mean of `f` over single events.  (`ρ[|univ]` is the
law of a single completed event; `ρ univ ^ N` is the probability that the run is completed.) -/
theorem C93_standard_error (h : FreshSource E D μ) (rfuel fuel : ℕ) (c : Collider ℝ) (ec : EventCfg ℝ) (debug : Bool) {n : ℕ} (ev : Event ℝ n)
    (hA : NucleusHistory E D c.nucleusA) (hB : NucleusHistory E D c.nucleusB) (hN : 0 < c.nevents) (f : Observed n → ℝ) (hf : Measurable f)
    (ρ : Measure (Observed n)) (j : I) (hρ : ρ = eventLaw (μ j) rfuel fuel c ec debug ev) (hp : ρ univ ≠ 0) (hf2 : MemLp f 2 (ρ[|univ]))
    (ε : ℝ) (hε : 0 < ε) (i : I) :
    (μ i) {w | ∃ rs, c.runEvents rfuel fuel ec debug ev w = .ok rs ∧ ε ≤ |(rs.map fun r => f (observed r)).sum / c.nevents - ∫ x, f x ∂(ρ[|univ])|} ≤
      (μ i) {w | ∃ rs, c.runEvents rfuel fuel ec debug ev w = .ok rs} * ENNReal.ofReal (Var[f; ρ[|univ]] / (c.nevents * ε ^ 2)) := by
  have := h.prob
  have hfin : IsFiniteMeasure ρ := by rw [hρ]; unfold eventLaw; infer_instance
  have hN' : ((c.nevents.toNat : ℕ) : ℝ) = (c.nevents : ℝ) := by exact_mod_cast Int.toNat_of_nonneg hN.le
  have hsum : Measurable fun l : List (Observed n) => (l.map f).sum := by
    have := measurable_list_rec (Y := Unit) (α := Observed n) (f := fun _ l => (l.map f).sum) (by simp) (fun m ih => by
      simp only [List.map_cons, List.sum_cons]
      exact (hf.comp (by fun_prop)).add (ih (Z := Unit × Observed n × (Fin m → Observed n)) (y := fun p => p.1) (v := fun p => p.2.2) (by fun_prop) (by fun_prop)))
    exact this.comp ((measurable_const (a := ())).prodMk measurable_id)
  have hT : MeasurableSet {l : List (Observed n) | ε ≤ |(l.map f).sum / c.nevents - ∫ x, f x ∂(ρ[|univ])|} :=
    measurableSet_le measurable_const (((hsum.div_const _).sub_const _).abs)
  have e1 := C92_joint h rfuel fuel c ec debug ev hA hB _ hT i j
  have e2 := C92_joint h rfuel fuel c ec debug ev hA hB univ MeasurableSet.univ i j
  simp only [mem_ofPred_eq, List.map_map, Function.comp_def, mem_univ, and_true, ofPred_true] at e1 e2
  rw [e1, e2, ← hρ, Measure.pi_univ]
  have hb := sampleMean_dev ρ hp hf2 (k := c.nevents.toNat) (by omega) hε
  rw [hN'] at hb
  simp only [Finset.prod_const, Finset.card_univ, Fintype.card_fin]
  refine le_trans (le_of_eq ?_) hb
  congr 1
  ext v
  simp [List.map_ofFn, List.sum_ofFn]

end Trento
