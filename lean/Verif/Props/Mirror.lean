import Verif.Lemmas.TurnCollision
import Verif.Props.Independence
import Verif.Props.LibraryLaw
import Verif.Props.Terminates

/-!
# C100: events are mirror symmetric about the reaction plane

The impact parameter is along x.  Nothing in the program prefers one sense of rotation: half a turn about the x axis maps the collisions to collisions with the same
probability, and the reported event to its mirror image in y.
-/

namespace Trento
open MeasureTheory Set Spec
open scoped ENNReal

/-- What the program reports of an event: impact parameter, number of binary collisions, number of participants, multiplicity, the four eccentricities and the grid. -/
abbrev Spec.Reported (n : ℕ) := ℝ × ℕ × ℕ × ℝ × (ℝ × ℝ × ℝ × ℝ) × Grid ℝ n

/-- The report of an observed event. -/
def Spec.report {n : ℕ} (o : Observed n) : Reported n :=
  (o.1, o.2.1, o.2.2.npart, o.2.2.multiplicity, (o.2.2.ecc.e2, o.2.2.ecc.e3, o.2.2.ecc.e4, o.2.2.ecc.e5), o.2.2.TR)

/-- The report with the grid mirrored in y: row `iy` and row `n - 1 - iy` exchanged, everything else the same. -/
def Spec.mirrorReport {n : ℕ} (r : Reported n) : Reported n := (r.1, r.2.1, r.2.2.1, r.2.2.2.1, r.2.2.2.2.1, fun iy ix => r.2.2.2.2.2 iy.rev ix)

/-- No participant has a constituent farther than `L` from the origin in x or y. -/
def Spec.Within (L : ℝ) (A B : List (NucleonData ℝ)) : Prop := ∀ a ∈ A ++ B, a.isParticipant = true → ∀ q ∈ a.constituents, |q.x| ≤ L ∧ |q.y| ≤ L

variable {E D : Type} [Rng ℝ E D]

/-- a participant has constituents, they have non-negative weights; a nucleon without constituents has none left over -/
def Sound (n : NucleonData ℝ) : Prop :=
  (n.isParticipant = true → n.constituentsExist = true) ∧ (n.constituentsExist = true → n.constituents ≠ [] ∧ ∀ q ∈ n.constituents, 0 ≤ q.fluctuation)

theorem sound_inv [LawfulRng E D] (nc : NucleonCommon ℝ) (hm : 0 < nc.constituentNumber) : NucleonInvariant E D nc Sound := by
  refine ⟨fun n w hn => ?_, fun n he hn => ⟨fun _ => he, hn.2⟩⟩
  unfold NucleonCommon.sampleConstituents
  split
  · exact hn
  · refine ⟨fun _ => rfl, fun _ => ⟨?_, ?_⟩⟩
    · obtain ⟨h1, -, -⟩ := drawConstituents_spec (E := E) (D := D) nc nc.constituentNumber (lit 0) (lit 0) w
      intro hnil
      have := congrArg List.length hnil
      simp at this
      simp [this] at h1
      omega
    · intro q hq
      obtain ⟨c, hc, rfl⟩ := List.mem_map.mp hq
      exact drawConstituents_fluct nc nc.constituentNumber _ _ w c hc

theorem sampling_sound (kind : Kind ℝ) (off : ℝ → Prop) : SamplingInvariant E D kind off Sound (fun _ => True) := by
  intro nuc rfuel x w hh hk hx
  refine ⟨fun _ _ => trivial, ?_⟩
  intro nuc' w' hs n hn
  have := (C12_sampling_resets nuc nuc' hh _ _ _ _ hs).2 n hn
  exact ⟨fun h => absurd h (by rw [this.1]; simp), fun h => absurd h (by rw [this.2]; simp)⟩

theorem sound_clear {n : NucleonData ℝ} (h : Sound n) : Sound n.clear := by
  unfold NucleonData.clear
  split
  · exact h
  · rename_i he
    exact ⟨fun hp => absurd (h.1 hp) he, fun h' => absurd h' he⟩

/-- the nucleon turned, whether its constituents are current or not -/
noncomputable def turnAll (n : NucleonData ℝ) : NucleonData ℝ := { n with y := -n.y, z := -n.z, constituents := n.constituents.map turnC }

theorem turn_of_clear (n : NucleonData ℝ) : turn n.clear = turnAll n.clear := by
  unfold NucleonData.clear turn turnAll
  split
  · rename_i h; simp [h]
  · rename_i h; simp [h]

omit [Rng ℝ E D] in
/-- the event of a turned collision -/
theorem compute_turn (w v : ℝ) (m : ℕ) (σ : ℝ) (ncoll : Bool) (k : ℝ) (hv : 0 < v)
    (norm dxy gmax p : ℝ) (hd : 0 < dxy) (hg : 0 < gmax) (c : EventCfg ℝ) (hc : EventCfg.make norm dxy gmax p = .ok c)
    (debug : Bool) (A B : List (NucleonData ℝ)) (hA : ∀ a ∈ A, Sound a ∧ turn a = turnAll a) (hB : ∀ b ∈ B, Sound b ∧ turn b = turnAll b)
    (L : ℝ) (hW : Within L A B) (hL : (L + 5 * v + |c.xymax|) / c.dxy < 2147483648) (ev : Event ℝ c.nsteps.toNat) (b : ℝ) (nb : ℕ) :
    ∃ e e', ev.compute c (NucleonCommon.make w v m σ ncoll k) debug A B = .ok e ∧
      ev.compute c (NucleonCommon.make w v m σ ncoll k) debug (A.map turn) (B.map turn) = .ok e' ∧
      report (b, nb, e') = mirrorReport (report (b, nb, e)) := by
  obtain ⟨g1, hdxy, g3, g4, g5, hcen⟩ := C20_grid_geometry norm dxy gmax p hd hg.le c hc
  have hd' : 0 < c.dxy := by rw [hdxy]; exact hd
  have hpos : 0 < c.nsteps := by rw [g1]; exact Int.ceil_pos.mpr (by positivity)
  have hn : c.nsteps = (c.nsteps.toNat : ℤ) := by omega
  have hn1 : 1 ≤ c.nsteps.toNat := by omega
  have eA : A.map turn = A.map turnAll := List.map_congr_left fun a ha => (hA a ha).2
  have eB : B.map turn = B.map turnAll := List.map_congr_left fun a ha => (hB a ha).2
  have hS : ∀ a ∈ A ++ B, Sound a := fun a ha => (List.mem_append.mp ha).elim (fun h => (hA a h).1) fun h => (hB a h).1
  have hok : ∀ a ∈ A ++ B, a.isParticipant = true → a.constituents ≠ [] ∧ ∀ q ∈ a.constituents, 0 ≤ q.fluctuation ∧ |q.x| ≤ L ∧ |q.y| ≤ L := by
    intro a ha hp
    obtain ⟨s1, s2⟩ := (hS a ha).2 ((hS a ha).1 hp)
    exact ⟨s1, fun q hq => ⟨s2 q hq, hW a ha hp q hq⟩⟩
  have hok' : ∀ a ∈ A.map turnAll ++ B.map turnAll, a.isParticipant = true →
      a.constituents ≠ [] ∧ ∀ q ∈ a.constituents, 0 ≤ q.fluctuation ∧ |q.x| ≤ L ∧ |q.y| ≤ L := by
    intro a ha hp
    rw [← List.map_append] at ha
    obtain ⟨a0, ha0, rfl⟩ := List.mem_map.mp ha
    obtain ⟨h1, h2⟩ := hok a0 ha0 hp
    refine ⟨by simpa [turnAll] using h1, fun q hq => ?_⟩
    obtain ⟨q0, hq0, rfl⟩ := List.mem_map.mp hq
    have := h2 q0 hq0
    exact ⟨this.1, this.2.1, by simpa [turnC] using this.2.2⟩
  obtain ⟨e, he⟩ := C22_deposition_in_bounds w v m σ ncoll k hv c hd' debug _ hn hn1 A B L hok hL ev
  obtain ⟨e', he'⟩ := C22_deposition_in_bounds w v m σ ncoll k hv c hd' debug _ hn hn1 _ _ L hok' hL ev
  refine ⟨e, e', he, by rw [eA, eB]; exact he', ?_⟩
  have hrev : ∀ i : Fin c.nsteps.toNat, c.center i.rev.val = - c.center i.val := by
    intro i
    rw [(hcen i.rev.val).1]
    congr 2
    rw [Fin.val_rev]; have := i.isLt; omega
  have fA : ∀ a ∈ A, a.isParticipant = true → ∀ q ∈ a.constituents, 0 ≤ q.fluctuation := fun a ha hp q hq => ((hok a (by simp [ha]) hp).2 q hq).1
  have fB : ∀ a ∈ B, a.isParticipant = true → ∀ q ∈ a.constituents, 0 ≤ q.fluctuation := fun a ha hp q hq => ((hok a (by simp [ha]) hp).2 q hq).1
  have hno := C30_no_cancellation w v m σ ncoll k hv c hd' debug _ hn A B fA fB ev e he
  obtain ⟨h1, h2⟩ := event_transform w v m σ ncoll k hv c hd' debug _ hn A B fA fB ev e e' he
    turnC turnAll (fun a => ⟨rfl, rfl⟩) (fun i => (i.1.rev, i.2)) (fun q i => ⟨rfl, by rw [hrev]; simp only [turnC]; ring⟩) he'
  have hTR : e'.TR = e.TR.mirrorY := by funext iy ix; exact h1 (iy, ix)
  obtain ⟨h3, h4⟩ := event_of_grid he he' (by rw [hTR]; exact gridSum_mirrorY _) (fun k => by rw [hTR]; exact (C30_grid_mirror_y _ hno k).2.1)
  simp only [report, mirrorReport, h2, h3, h4, hTR]
  rfl

/-- what is known about a collision -/
theorem attempts_sound [LawfulRng E D] (rfuel : ℕ) (c : Collider ℝ) (hm : 0 < c.nc.constituentNumber) (A B : Nucleus ℝ) (hA : NucleusHistory E D A)
    (hB : NucleusHistory E D B) (n : ℕ) (w w' : Rand E D) (x : Collided) (h : attempts rfuel c A B n w = .ok (x, w')) :
    (∀ a ∈ x.2.2.1, Sound a ∧ turn a = turnAll a) ∧ ∀ a ∈ x.2.2.2, Sound a ∧ turn a = turnAll a := by
  rw [← collisionLoop_attempts rfuel c A B hA hB] at h
  cases hc : collisionLoop rfuel c n A B 0 false w with
  | error e => rw [hc] at h; cases h
  | ok t =>
    obtain ⟨⟨b, m, A1, B1⟩, w1⟩ := t
    rw [hc] at h
    simp only [Except.map, Except.ok.injEq, Prod.mk.injEq] at h
    obtain ⟨-, c2⟩ := collisionLoop_inv (Q := fun _ => True) trivial (sound_inv c.nc hm) (sampling_sound A.kind _)
      (sampling_sound B.kind _) rfuel n A B hA hB rfl rfl 0 false w
    obtain ⟨-, -, -, -, pA, pB, -⟩ := c2 _ _ _ _ _ hc
    rw [← h.1]
    have key : ∀ l : List (NucleonData ℝ), (∀ a ∈ l, Sound a) → ∀ a ∈ l.map NucleonData.clear, Sound a ∧ turn a = turnAll a := by
      intro l hl a ha
      obtain ⟨a0, ha0, rfl⟩ := List.mem_map.mp ha
      exact ⟨sound_clear (hl a0 ha0), turn_of_clear a0⟩
    exact ⟨key _ pA, key _ pB⟩

variable [MeasurableSpace E] [MeasurableSpace D] {I : Type} {μ : I → Measure (Rand E D)}

/-- **C100, collisions.** The collisions found in at most `n` attempts and the same collisions turned by half a turn about the x axis (`y` and `z` of every nucleon and
constituent negated; impact parameter, number of binary collisions, participants and weights of constituents kept) have the same distribution: every measurable
function has the same mean over both. -/
theorem C100_collision (h : FreshSource E D μ) (hn : SymmetricNormal μ) (c : Collider ℝ) (A B : Nucleus ℝ) (hA : NucleusHistory E D A) (hB : NucleusHistory E D B)
    (rfuel n : ℕ) (f : Collided → ℝ≥0∞) (hf : Measurable f) (i : I) :
    collisionMean (μ i) rfuel c A B n (fun x => f (turned x)) = collisionMean (μ i) rfuel c A B n f := by
  have e : ∀ f, collisionMean (μ i) rfuel c A B n f = ∫⁻ w, ifOk (attempts rfuel c A B n w) (fun t => f t.1) ∂(μ i) := by
    intro f
    rw [collisionMean_eq hA hB μ]
    rfl
  rw [e, e]
  exact ((equi_attempts h hn rfuel c A B hA hB n).law () f hf i).symm

theorem report_meas {n : ℕ} : Measurable (report : Observed n → Reported n) := by
  refine Measurable.prodMk (by fun_prop) (Measurable.prodMk (by fun_prop) (Measurable.prodMk (event_npart.comp (by fun_prop)) (Measurable.prodMk
    (event_mult.comp (by fun_prop)) (Measurable.prodMk (event_ecc.comp (by fun_prop)) (event_TR.comp (by fun_prop))))))

theorem mirrorReport_meas {n : ℕ} : Measurable (mirrorReport : Reported n → Reported n) := by
  unfold mirrorReport
  fun_prop

/-- the constituents lie within `L` -/
noncomputable def insideC (L : ℝ) (l : List (Constituent ℝ)) : Bool := l.foldl (fun b q => b && (decide (|q.x| ≤ L) && decide (|q.y| ≤ L))) true

theorem insideC_meas (L : ℝ) : Measurable (insideC L) := by
  have hg : Measurable fun p : Unit × Bool × Constituent ℝ => p.2.1 && (decide (|p.2.2.x| ≤ L) && decide (|p.2.2.y| ≤ L)) := by
    have h1 : Measurable fun p : Unit × Bool × Constituent ℝ => decide (|p.2.2.x| ≤ L) :=
      measurable_decide' (measurableSet_le (measurable_norm.comp (constituent_x.comp (by fun_prop))) measurable_const)
    have h2 : Measurable fun p : Unit × Bool × Constituent ℝ => decide (|p.2.2.y| ≤ L) :=
      measurable_decide' (measurableSet_le (measurable_norm.comp (constituent_y.comp (by fun_prop))) measurable_const)
    exact (measurable_of_countable fun b : Bool × Bool × Bool => b.1 && (b.2.1 && b.2.2)).comp
      (Measurable.prodMk (f := fun p : Unit × Bool × Constituent ℝ => p.2.1) (by fun_prop) (h1.prodMk h2))
  exact Measurable.listFoldl (Y := Unit) (α := Constituent ℝ) (β := Bool) (g := fun _ b q => b && (decide (|q.x| ≤ L) && decide (|q.y| ≤ L)))
    hg (y := fun _ => ()) measurable_const measurable_const measurable_id

theorem insideC_iff (L : ℝ) (l : List (Constituent ℝ)) : insideC L l = true ↔ ∀ q ∈ l, |q.x| ≤ L ∧ |q.y| ≤ L := by
  have : ∀ (l : List (Constituent ℝ)) (b : Bool), l.foldl (fun b q => b && (decide (|q.x| ≤ L) && decide (|q.y| ≤ L))) b = true ↔
      b = true ∧ ∀ q ∈ l, |q.x| ≤ L ∧ |q.y| ≤ L := by
    intro l
    induction l with
    | nil => simp
    | cons q l ih => intro b; rw [List.foldl_cons, ih]; simp [and_assoc]
  rw [insideC, this]
  simp

/-- the participants lie within `L` -/
noncomputable def insideN (L : ℝ) (l : List (NucleonData ℝ)) : Bool := l.foldl (fun b a => b && (!a.isParticipant || insideC L a.constituents)) true

theorem insideN_meas (L : ℝ) : Measurable (insideN L) := by
  have h1 : Measurable fun p : Unit × Bool × NucleonData ℝ => p.2.2.isParticipant := nucleon_part.comp (by fun_prop)
  have h2 : Measurable fun p : Unit × Bool × NucleonData ℝ => insideC L p.2.2.constituents := (insideC_meas L).comp (nucleon_cs.comp (by fun_prop))
  have h3 : Measurable fun p : Unit × Bool × NucleonData ℝ => p.2.1 := by fun_prop
  have hg : Measurable fun p : Unit × Bool × NucleonData ℝ => p.2.1 && (!p.2.2.isParticipant || insideC L p.2.2.constituents) :=
    (measurable_of_countable fun b : Bool × Bool × Bool => b.1 && (!b.2.1 || b.2.2)).comp (h3.prodMk (h1.prodMk h2))
  exact Measurable.listFoldl (Y := Unit) (α := NucleonData ℝ) (β := Bool) (g := fun _ b a => b && (!a.isParticipant || insideC L a.constituents))
    hg (y := fun _ => ()) measurable_const measurable_const measurable_id

theorem insideN_iff (L : ℝ) (l : List (NucleonData ℝ)) : insideN L l = true ↔ ∀ a ∈ l, a.isParticipant = true → ∀ q ∈ a.constituents, |q.x| ≤ L ∧ |q.y| ≤ L := by
  have : ∀ (l : List (NucleonData ℝ)) (b : Bool), l.foldl (fun b a => b && (!a.isParticipant || insideC L a.constituents)) b = true ↔
      b = true ∧ ∀ a ∈ l, a.isParticipant = true → ∀ q ∈ a.constituents, |q.x| ≤ L ∧ |q.y| ≤ L := by
    intro l
    induction l with
    | nil => simp
    | cons a l ih =>
      intro b
      rw [List.foldl_cons, ih]
      simp only [Bool.and_eq_true, Bool.or_eq_true, Bool.not_eq_true', insideC_iff, List.forall_mem_cons, and_assoc]
      refine and_congr_right fun _ => and_congr_left fun _ => ?_
      cases a.isParticipant <;> simp
  rw [insideN, this]
  simp

theorem within_meas (L : ℝ) : MeasurableSet {x : Collided | Within L x.2.2.1 x.2.2.2} := by
  have hm : Measurable fun x : Collided => insideN L (x.2.2.1 ++ x.2.2.2) :=
    (insideN_meas L).comp (Measurable.append (f := fun x : Collided => x.2.2.1) (by fun_prop) (by fun_prop))
  convert hm (measurableSet_singleton true) using 1
  ext x
  simp only [mem_preimage, mem_singleton_iff, insideN_iff, mem_ofPred_eq, Within]

theorem within_turned (L : ℝ) (x : Collided) : Within L (turned x).2.2.1 (turned x).2.2.2 ↔ Within L x.2.2.1 x.2.2.2 := by
  unfold Within turned
  dsimp only
  rw [← List.map_append, List.forall_mem_map]
  refine forall₂_congr fun a _ => ?_
  unfold turn
  dsimp only
  refine forall_congr' fun _ => ?_
  split
  · rw [List.forall_mem_map]
    simp [turnC]
  · rfl

/-- The event of one collision, found in at most `fuel` attempts, is computed and its report is in `S`; no participant has a constituent farther than `L` out. -/
def Spec.EventWithin (rfuel fuel : ℕ) (c : Collider ℝ) (ec : EventCfg ℝ) (debug : Bool) {n : ℕ} (ev : Event ℝ n) (L : ℝ) (S : Set (Reported n)) : Set (Rand E D) :=
  {w | ∃ b nb A B w' e, c.sampleCollision rfuel fuel c.nucleusA c.nucleusB w = .ok ((b, nb, A, B), w') ∧ Within L A.nucleons B.nucleons ∧
    ev.compute ec c.nc debug A.nucleons B.nucleons = .ok e ∧ report (b, nb, e) ∈ S}

/-- the collisions with such an event -/
def withinSet (c : Collider ℝ) (ec : EventCfg ℝ) (debug : Bool) {n : ℕ} (ev : Event ℝ n) (L : ℝ) (S : Set (Reported n)) : Set Collided :=
  {x | Within L x.2.2.1 x.2.2.2 ∧ ∃ e, ev.compute ec c.nc debug x.2.2.1 x.2.2.2 = .ok e ∧ report (x.1, x.2.1, e) ∈ S}

theorem withinSet_meas (c : Collider ℝ) (ec : EventCfg ℝ) (debug : Bool) {n : ℕ} (ev : Event ℝ n) (L : ℝ) {S : Set (Reported n)} (hS : MeasurableSet S) :
    MeasurableSet (withinSet c ec debug ev L S) := by
  refine (within_meas L).inter ?_
  have h1 := compute_obs_meas c ec debug ev (embedding_ok.measurableSet_image.mpr (report_meas hS))
  refine (congrArg MeasurableSet ?_).mpr h1
  ext x
  show (∃ e, ev.compute ec c.nc debug x.2.2.1 x.2.2.2 = .ok e ∧ report (x.1, x.2.1, e) ∈ S) ↔ _
  simp only [mem_preimage, mem_image]
  cases ev.compute ec c.nc debug x.2.2.1 x.2.2.2 with
  | error e => simp [exElim]
  | ok e => simp [exElim]

omit [MeasurableSpace E] [MeasurableSpace D] in
theorem eventWithin_eq (rfuel fuel : ℕ) (c : Collider ℝ) (ec : EventCfg ℝ) (debug : Bool) {n : ℕ} (ev : Event ℝ n) (L : ℝ)
    (hA : NucleusHistory E D c.nucleusA) (hB : NucleusHistory E D c.nucleusB) (S : Set (Reported n)) :
    (EventWithin rfuel fuel c ec debug ev L S : Set (Rand E D)) =
      {w | ∃ x, (attempts rfuel c c.nucleusA c.nucleusB fuel w).map Prod.fst = .ok x ∧ x ∈ withinSet c ec debug ev L S} := by
  ext w
  simp only [EventWithin, mem_ofPred_eq, ← collisionLoop_attempts rfuel c c.nucleusA c.nucleusB hA hB fuel w, Collider.sampleCollision]
  cases hc : collisionLoop rfuel c fuel c.nucleusA c.nucleusB 0 false w with
  | error e => simp [Except.map]
  | ok t =>
    obtain ⟨⟨b, m, A1, B1⟩, w1⟩ := t
    obtain ⟨-, c2⟩ := collisionLoop_inv (Q := fun _ => True) trivial (partExist_inv c.nc) (sampling_partExist c.nucleusA.kind _)
      (sampling_partExist c.nucleusB.kind _) rfuel fuel c.nucleusA c.nucleusB hA hB rfl rfl 0 false w
    obtain ⟨-, -, -, -, pA, pB, -⟩ := c2 _ _ _ _ _ hc
    have pc : ∀ {l : List (NucleonData ℝ)}, (∀ a ∈ l, a.isParticipant = true → a.constituentsExist = true) →
        ∀ a ∈ l.map NucleonData.clear, a.isParticipant = true → a.constituentsExist = true := by
      intro l hl a ha
      obtain ⟨a', ha', rfl⟩ := List.mem_map.mp ha
      rw [clear_part, clear_exist]
      exact hl a' ha'
    have he := compute_clear ec c.nc debug ev (map_clear_clear A1.nucleons) (map_clear_clear B1.nucleons) (pc pA) (pc pB) pA pB
    have hw : Within L (A1.nucleons.map NucleonData.clear) (B1.nucleons.map NucleonData.clear) ↔ Within L A1.nucleons B1.nucleons := by
      unfold Within
      rw [← List.map_append, List.forall_mem_map]
      refine forall₂_congr fun a ha => ?_
      rw [clear_part]
      refine forall_congr' fun hp => ?_
      have hex : a.constituentsExist = true := (List.mem_append.mp ha).elim (fun h => pA a h hp) fun h => pB a h hp
      have : a.clear = a := by unfold NucleonData.clear; rw [if_pos hex]
      rw [this]
    simp only [Except.map, Except.ok.injEq, exists_eq_left', withinSet, collided, mem_ofPred_eq, he, hw, Prod.mk.injEq]
    constructor
    · rintro ⟨b', m', A', B', w', e, ⟨⟨rfl, rfl, rfl, rfl⟩, rfl⟩, h1, h2, h3⟩
      exact ⟨h1, e, h2, h3⟩
    · rintro ⟨h1, e, h2, h3⟩
      exact ⟨_, _, _, _, _, e, ⟨⟨rfl, rfl, rfl, rfl⟩, rfl⟩, h1, h2, h3⟩

theorem eventWithin_mean (h : FreshSource E D μ) (rfuel fuel : ℕ) (c : Collider ℝ) (ec : EventCfg ℝ) (debug : Bool) {n : ℕ} (ev : Event ℝ n) (L : ℝ)
    (hA : NucleusHistory E D c.nucleusA) (hB : NucleusHistory E D c.nucleusB) {S : Set (Reported n)} (hS : MeasurableSet S) (i : I) :
    (μ i) (EventWithin rfuel fuel c ec debug ev L S) =
      ∫⁻ w, ifOk (attempts rfuel c c.nucleusA c.nucleusB fuel w) (fun t => (withinSet c ec debug ev L S).indicator 1 t.1) ∂(μ i) := by
  have := h.prob
  have hm : Measurable fun w : Rand E D => (attempts rfuel c c.nucleusA c.nucleusB fuel w).map Prod.fst :=
    map_fst_meas ((renews_attempt h rfuel c c.nucleusA c.nucleusB).retry fuel).meas1
  have hT := withinSet_meas c ec debug ev L hS
  rw [eventWithin_eq rfuel fuel c ec debug ev L hA hB S, ← okLaw_apply hm hT, ← lintegral_indicator_one hT, lintegral_okLaw hm (measurable_one.indicator hT)]
  refine lintegral_congr fun w => ?_
  rw [ifOk_map]

/-- **C100, events.** Take any run configuration with positive constituent width, at least one constituent and a grid of positive step and size.  For every set `S` of
reports (impact parameter, number of binary collisions, number of participants, multiplicity, eccentricities, grid), an event with its report in `S` is as
probable as an event with the report mirrored in y in `S`.  (`L` bounds the constituents so that the grid indices of the event fit an `int`.) -/
theorem C100_event [LawfulRng E D] (h : FreshSource E D μ) (hn : SymmetricNormal μ) (o : Options ℝ) (sigma : ℝ) (hA : NucleusHistory E D o.projectileA)
    (hB : NucleusHistory E D o.projectileB) (hv : 0 < o.constitWidth) (hm : 1 ≤ o.constitNumber) (hstep : 0 < o.gridStep) (hmax : 0 < o.gridMax)
    (ec : EventCfg ℝ) (hec : EventCfg.make o.normalization o.gridStep o.gridMax o.reducedThickness = .ok ec)
    (L : ℝ) (hL : (L + 5 * o.constitWidth + |ec.xymax|) / ec.dxy < 2147483648)
    (debug : Bool) (rfuel fuel : ℕ) (ev : Event ℝ ec.nsteps.toNat) (S : Set (Reported ec.nsteps.toNat)) (hS : MeasurableSet S) (i : I) :
    (μ i) (EventWithin rfuel fuel (Collider.make o sigma) ec debug ev L S) =
      (μ i) (EventWithin rfuel fuel (Collider.make o sigma) ec debug ev L {r | mirrorReport r ∈ S}) := by
  have hS' : MeasurableSet {r : Reported ec.nsteps.toNat | mirrorReport r ∈ S} := mirrorReport_meas hS
  rw [eventWithin_mean h rfuel fuel _ ec debug ev L hA hB hS, eventWithin_mean h rfuel fuel _ ec debug ev L hA hB hS']
  have hT := withinSet_meas (Collider.make o sigma) ec debug ev L hS
  have key := (equi_attempts h hn rfuel (Collider.make o sigma) _ _ hA hB fuel).law () ((withinSet (Collider.make o sigma) ec debug ev L S).indicator 1)
    (measurable_one.indicator hT) i
  refine key.trans (lintegral_congr fun w => ?_)
  show ifOk (attempts rfuel (Collider.make o sigma) o.projectileA o.projectileB fuel w) _ = ifOk (attempts rfuel (Collider.make o sigma) o.projectileA o.projectileB fuel w) _
  cases ha : attempts rfuel (Collider.make o sigma) o.projectileA o.projectileB fuel w with
  | error e => rfl
  | ok t =>
    obtain ⟨x, w'⟩ := t
    obtain ⟨sA, sB⟩ := attempts_sound rfuel (Collider.make o sigma) hm o.projectileA o.projectileB hA hB fuel w w' x ha
    show (withinSet (Collider.make o sigma) ec debug ev L S).indicator 1 (turned x) =
      (withinSet (Collider.make o sigma) ec debug ev L {r | mirrorReport r ∈ S}).indicator 1 x
    have hiff : turned x ∈ withinSet (Collider.make o sigma) ec debug ev L S ↔ x ∈ withinSet (Collider.make o sigma) ec debug ev L {r | mirrorReport r ∈ S} := by
      simp only [withinSet, mem_ofPred_eq, within_turned]
      refine and_congr_right fun hW => ?_
      obtain ⟨e, e', h1, h2, h3⟩ := compute_turn o.nucleonWidth o.constitWidth o.constitNumber sigma o.ncoll o.fluctuation hv o.normalization o.gridStep o.gridMax
        o.reducedThickness hstep hmax ec hec debug x.2.2.1 x.2.2.2 sA sB L hW hL ev x.1 x.2.1
      have h1' : ev.compute ec (Collider.make o sigma).nc debug x.2.2.1 x.2.2.2 = .ok e := h1
      have h2' : ev.compute ec (Collider.make o sigma).nc debug (turned x).2.2.1 (turned x).2.2.2 = .ok e' := h2
      rw [h1', h2']
      simp only [Except.ok.injEq, exists_eq_left']
      show report (x.1, x.2.1, e') ∈ S ↔ _
      rw [h3]
    by_cases hx : turned x ∈ withinSet (Collider.make o sigma) ec debug ev L S
    · rw [indicator_of_mem hx, indicator_of_mem (hiff.mp hx)]; rfl
    · rw [indicator_of_notMem hx, indicator_of_notMem fun h' => hx (hiff.mpr h')]

omit [MeasurableSpace E] [MeasurableSpace D] in
/-- with bounded normal random numbers every event is within bounds -/
theorem event1_within [LawfulRng E D] {K : ℝ} (hK : NormalBounded E D K) (o : Options ℝ) (sigma : ℝ) {rA rB : ℝ}
    (hA : Usable E D o.projectileA rA) (hB : Usable E D o.projectileB rB) (hm : 1 ≤ o.constitNumber)
    (h0 : 0 ≤ o.bMin) (hmin : o.bMin ≤ (Collider.make o sigma).bmax) (ec : EventCfg ℝ) (debug : Bool) (rfuel fuel : ℕ) {n : ℕ} (ev : Event ℝ n)
    (S : Set (Reported n)) :
    (Event1 rfuel fuel (Collider.make o sigma) ec debug ev (report ⁻¹' S) : Set (Rand E D)) =
      EventWithin rfuel fuel (Collider.make o sigma) ec debug ev
        (max rA rB + (Collider.make o sigma).bmax + 2 * (K * calcSamplingWidth o.nucleonWidth o.constitWidth o.constitNumber)) S := by
  have hasym := C34_offsets o.projectileA o.projectileB (C34_radius_nonneg hA.hist) (C34_radius_nonneg hB.hist) 1 (by norm_num)
  have hasym' : 0 ≤ (Collider.make o sigma).asymmetry ∧ (Collider.make o sigma).asymmetry ≤ 1 := by
    obtain ⟨-, h1, -, h3, -⟩ := hasym
    have e : (Collider.make o sigma).asymmetry = determineAsym o.projectileA o.projectileB := rfl
    rw [e]
    rw [mul_one] at h1 h3
    exact ⟨h3, (le_abs_self _).trans h1⟩
  have hsw := calcSamplingWidth_nonneg o.nucleonWidth o.constitWidth o.constitNumber
  have hbm : 0 ≤ (Collider.make o sigma).bmax := h0.trans hmin
  ext w
  rw [event1_eq rfuel fuel (Collider.make o sigma) ec debug ev hA.hist hB.hist]
  simp only [mem_ofPred_eq, EventWithin, eventStep_eq rfuel fuel (Collider.make o sigma) ec debug ev (Collider.make o sigma).nucleusA (Collider.make o sigma).nucleusB hA.hist hB.hist]
  rcases collisionLoop_safe hK hsw hm h0 hmin hasym' rfuel fuel o.projectileA o.projectileB hA hB 0 false w with
    hc | ⟨b, nb, A', B', w', hc, -, -, pA, pB⟩
  · have hc' : (Collider.make o sigma).sampleCollision rfuel fuel (Collider.make o sigma).nucleusA (Collider.make o sigma).nucleusB w = .error .fuel := hc
    simp only [hc']
    simp [Except.map]
  · have hc' : (Collider.make o sigma).sampleCollision rfuel fuel (Collider.make o sigma).nucleusA (Collider.make o sigma).nucleusB w =
        .ok ((b, nb, A', B'), w') := hc
    simp only [hc']
    have hW : Within (max rA rB + (Collider.make o sigma).bmax + 2 * (K * calcSamplingWidth o.nucleonWidth o.constitWidth o.constitNumber))
        A'.nucleons B'.nucleons := by
      intro a ha hp q hq
      have key : ∀ r, r ≤ max rA rB → Depositable (2 * (K * (Collider.make o sigma).nc.samplingWidth)) a →
          |a.x| ≤ r + (Collider.make o sigma).bmax → |a.y| ≤ r →
          |q.x| ≤ max rA rB + (Collider.make o sigma).bmax + 2 * (K * calcSamplingWidth o.nucleonWidth o.constitWidth o.constitNumber) ∧
          |q.y| ≤ max rA rB + (Collider.make o sigma).bmax + 2 * (K * calcSamplingWidth o.nucleonWidth o.constitWidth o.constitNumber) := by
        intro r hr hd hx hy
        have hc := hd.2 (hd.1 hp)
        have esw : (Collider.make o sigma).nc.samplingWidth = calcSamplingWidth o.nucleonWidth o.constitWidth o.constitNumber := rfl
        rw [esw] at hc
        obtain ⟨-, q2, q3⟩ := hc.2 q hq
        constructor
        · have := abs_add_le (q.x - a.x) a.x
          rw [sub_add_cancel] at this
          linarith
        · have := abs_add_le (q.y - a.y) a.y
          rw [sub_add_cancel] at this
          linarith
      rcases List.mem_append.mp ha with ha | ha
      · exact key rA (le_max_left _ _) (pA a ha).1 (pA a ha).2.1 (pA a ha).2.2
      · exact key rB (le_max_right _ _) (pB a ha).1 (pB a ha).2.1 (pB a ha).2.2
    constructor
    · rintro ⟨x, h1, h2⟩
      cases he : ev.compute ec (Collider.make o sigma).nc debug A'.nucleons B'.nucleons with
      | error e => rw [he] at h1; cases h1
      | ok e =>
        rw [he] at h1
        simp only [Except.map, Except.ok.injEq] at h1
        exact ⟨b, nb, A', B', w', e, rfl, hW, he, by rw [← h1] at h2; exact h2⟩
    · rintro ⟨b1, nb1, A1, B1, w1, e, h1, h2, h3, h4⟩
      simp only [Except.ok.injEq, Prod.mk.injEq] at h1
      obtain ⟨⟨rfl, rfl, rfl, rfl⟩, rfl⟩ := h1
      exact ⟨_, by rw [h3]; rfl, h4⟩

/-- **C100, runs.** If the normal random numbers are bounded (as those of a program are), mirroring in y does not change the law of the report of an event in a run:
for every set `S` of reports, the run of one event is completed with a report in `S` as often as with the mirrored report in `S`. -/
theorem C100_run [LawfulRng E D] (h : FreshSource E D μ) (hn : SymmetricNormal μ) {K : ℝ} (hK : NormalBounded E D K) (o : Options ℝ) (sigma : ℝ) {rA rB : ℝ}
    (hA : Usable E D o.projectileA rA) (hB : Usable E D o.projectileB rB) (hv : 0 < o.constitWidth) (hm : 1 ≤ o.constitNumber)
    (h0 : 0 ≤ o.bMin) (hmin : o.bMin ≤ (Collider.make o sigma).bmax) (hstep : 0 < o.gridStep) (hmax : 0 < o.gridMax)
    (hmod : (max rA rB + (Collider.make o sigma).bmax +
      2 * (K * calcSamplingWidth o.nucleonWidth o.constitWidth o.constitNumber) +
      5 * o.constitWidth + (o.gridMax + o.gridStep)) / o.gridStep < 2147483648)
    (ec : EventCfg ℝ) (hec : EventCfg.make o.normalization o.gridStep o.gridMax o.reducedThickness = .ok ec)
    (debug : Bool) (rfuel fuel : ℕ) (ev : Event ℝ ec.nsteps.toNat) (S : Set (Reported ec.nsteps.toNat)) (hS : MeasurableSet S) (i : I) :
    (μ i) (Event1 rfuel fuel (Collider.make o sigma) ec debug ev {x | report x ∈ S}) =
      (μ i) (Event1 rfuel fuel (Collider.make o sigma) ec debug ev {x | mirrorReport (report x) ∈ S}) := by
  obtain ⟨g1, g2, g3, g4, g5, -⟩ := C20_grid_geometry o.normalization o.gridStep o.gridMax o.reducedThickness hstep hmax.le ec hec
  have e1 := event1_within hK o sigma hA hB hm h0 hmin ec debug rfuel fuel ev S
  have e2 := event1_within hK o sigma hA hB hm h0 hmin ec debug rfuel fuel ev {r | mirrorReport r ∈ S}
  show (μ i) (Event1 rfuel fuel (Collider.make o sigma) ec debug ev (report ⁻¹' S)) = (μ i) (Event1 rfuel fuel (Collider.make o sigma) ec debug ev (report ⁻¹' {r | mirrorReport r ∈ S}))
  rw [e1, e2]
  refine C100_event h hn o sigma hA.hist hB.hist hv hm hstep hmax ec hec _ ?_ debug rfuel fuel ev S hS i
  rw [g2]
  refine lt_of_le_of_lt ?_ hmod
  apply div_le_div_of_nonneg_right _ hstep.le
  have hx : |ec.xymax| ≤ o.gridMax + o.gridStep := by
    rw [abs_of_nonneg (by linarith)]
    linarith
  linarith

/-- **C100, means.** Under the same conditions every non-negative function of the report has the same mean over events and over mirrored events; in particular the mean
entropy in a cell of the grid is the mean entropy in the mirrored cell. -/
theorem C100_mean [LawfulRng E D] (h : FreshSource E D μ) (hn : SymmetricNormal μ) {K : ℝ} (hK : NormalBounded E D K) (o : Options ℝ) (sigma : ℝ) {rA rB : ℝ}
    (hA : Usable E D o.projectileA rA) (hB : Usable E D o.projectileB rB) (hv : 0 < o.constitWidth) (hm : 1 ≤ o.constitNumber)
    (h0 : 0 ≤ o.bMin) (hmin : o.bMin ≤ (Collider.make o sigma).bmax) (hstep : 0 < o.gridStep) (hmax : 0 < o.gridMax)
    (hmod : (max rA rB + (Collider.make o sigma).bmax +
      2 * (K * calcSamplingWidth o.nucleonWidth o.constitWidth o.constitNumber) +
      5 * o.constitWidth + (o.gridMax + o.gridStep)) / o.gridStep < 2147483648)
    (ec : EventCfg ℝ) (hec : EventCfg.make o.normalization o.gridStep o.gridMax o.reducedThickness = .ok ec)
    (debug : Bool) (rfuel fuel : ℕ) (ev : Event ℝ ec.nsteps.toNat) (i : I) :
    (∀ f : Reported ec.nsteps.toNat → ℝ≥0∞, Measurable f →
      ∫⁻ x, f (report x) ∂eventLaw (μ i) rfuel fuel (Collider.make o sigma) ec debug ev =
        ∫⁻ x, f (mirrorReport (report x)) ∂eventLaw (μ i) rfuel fuel (Collider.make o sigma) ec debug ev) ∧
    ∀ iy ix, ∫⁻ x, ENNReal.ofReal (x.2.2.TR iy ix) ∂eventLaw (μ i) rfuel fuel (Collider.make o sigma) ec debug ev =
      ∫⁻ x, ENNReal.ofReal (x.2.2.TR iy.rev ix) ∂eventLaw (μ i) rfuel fuel (Collider.make o sigma) ec debug ev := by
  have main : ∀ f : Reported ec.nsteps.toNat → ℝ≥0∞, Measurable f →
      ∫⁻ x, f (report x) ∂eventLaw (μ i) rfuel fuel (Collider.make o sigma) ec debug ev =
        ∫⁻ x, f (mirrorReport (report x)) ∂eventLaw (μ i) rfuel fuel (Collider.make o sigma) ec debug ev := by
    intro f hf
    have hmr : Measurable fun x : Observed ec.nsteps.toNat => mirrorReport (report x) := mirrorReport_meas.comp report_meas
    have e : (eventLaw (μ i) rfuel fuel (Collider.make o sigma) ec debug ev).map report =
        (eventLaw (μ i) rfuel fuel (Collider.make o sigma) ec debug ev).map fun x => mirrorReport (report x) := by
      ext S hS
      rw [Measure.map_apply report_meas hS, Measure.map_apply hmr hS,
        C92_law h rfuel fuel _ ec debug ev hA.hist hB.hist _ (report_meas hS) i,
        C92_law h rfuel fuel _ ec debug ev hA.hist hB.hist _ (hmr hS) i]
      exact C100_run h hn hK o sigma hA hB hv hm h0 hmin hstep hmax hmod ec hec debug rfuel fuel ev S hS i
    rw [← lintegral_map hf report_meas, e, lintegral_map hf hmr]
  refine ⟨main, fun iy ix => ?_⟩
  have hf : Measurable fun r : Reported ec.nsteps.toNat => ENNReal.ofReal (r.2.2.2.2.2 iy ix) := by
    have : Measurable fun r : Reported ec.nsteps.toNat => r.2.2.2.2.2 iy ix := by fun_prop
    exact this.ennreal_ofReal
  exact main _ hf

/-! ### Sources with symmetric normal random numbers -/

/-- **C100, libstdc++.** Normal random numbers of libstdc++ with an ideal engine have a symmetric law (in every state of the source, with or without a saved value), so
C100 holds for them. -/
theorem C100_library : SymmetricNormal libMix := by
  intro s i
  obtain ⟨hm, hl⟩ := lib_normal 0 s
  obtain ⟨j, hj⟩ := hl i
  have hg : IsProbabilityMeasure (gauss.map fun z => z * s + 0) := Measure.isProbabilityMeasure_map (by fun_prop)
  have e1 : (libMix i).map (fun w => (drawNormal (F := ℝ) 0 s w).1) = gauss.map fun z => z * s + 0 := by
    have : (libMix i).map (fun w => (drawNormal (F := ℝ) 0 s w).1) = ((libMix i).map fun w => drawNormal (F := ℝ) 0 s w).map Prod.fst := by
      rw [Measure.map_map measurable_fst hm]; rfl
    rw [this, hj]
    have := libMix_source.prob j
    exact Measure.fst_prod
  have e2 : (libMix i).map (fun w => -(drawNormal (F := ℝ) 0 s w).1) = ((libMix i).map fun w => (drawNormal (F := ℝ) 0 s w).1).map fun x => -x := by
    have hm' : Measurable fun w => (drawNormal (F := ℝ) (E := Tape) (D := LibDist ℝ) 0 s w).1 := measurable_fst.comp hm
    rw [Measure.map_map measurable_neg hm']; rfl
  rw [e2, e1, gauss_affine, ProbabilityTheory.gaussianReal_map_neg, neg_zero]

theorem tape_symmetric : SymmetricNormal freshTape := by
  intro s i
  have h1 := freshTape_draw (g := fun u => (0:ℝ) + s * (2 * u - 1)) (by fun_prop) i
  have e1 : (freshTape i).map (fun w => (drawNormal (F := ℝ) 0 s w).1) = unif.map fun u => (0:ℝ) + s * (2 * u - 1) := by
    have : (freshTape i).map (fun w => (drawNormal (F := ℝ) 0 s w).1) = ((freshTape i).map
        fun w : Rand Tape Unit => ((0:ℝ) + s * (2 * w.eng.val 0 - 1), (⟨w.eng.next, ()⟩ : Rand Tape Unit))).map Prod.fst := by
      rw [Measure.map_map measurable_fst h1.1]; rfl
    rw [this, h1.2.2]
    have := h1.2.1
    exact Measure.fst_prod
  have hm : Measurable fun w : Rand Tape Unit => (drawNormal (F := ℝ) 0 s w).1 := measurable_fst.comp h1.1
  have e2 : (freshTape i).map (fun w => -(drawNormal (F := ℝ) 0 s w).1) = ((freshTape i).map fun w => (drawNormal (F := ℝ) 0 s w).1).map fun x => -x := by
    rw [Measure.map_map measurable_neg hm]; rfl
  rw [e2, e1, Measure.map_map measurable_neg (by fun_prop)]
  refine Measure.ext_of_lintegral _ fun g hg => ?_
  have hneg := equi_cosTheta (Y := Unit) (σ := id) freshTape_fresh
  have k1 : ∀ g : ℝ → ℝ≥0∞, Measurable g → ∫⁻ u in Ico (0:ℝ) 1, g (2 * u - 1) = ∫⁻ u in Ico (0:ℝ) 1, g (-(2 * u - 1)) := by
    intro g hg
    have := hneg.law () g hg ()
    have e : ∀ w : Rand Tape Unit, (cosTheta (F := ℝ) w).1 = 2 * (canonical (F := ℝ) w).1 - 1 := fun w => by simp [cosTheta]
    rw [← lintegral_canonical freshTape_fresh () (g := fun u => g (2 * u - 1)) (hg.comp (by fun_prop)),
      ← lintegral_canonical freshTape_fresh () (g := fun u => g (-(2 * u - 1))) (hg.comp (by fun_prop))]
    simp only [← e]
    exact this
  rw [lintegral_map hg (by fun_prop), lintegral_map hg (by fun_prop)]
  have := k1 (fun c => g (0 + s * c)) (hg.comp (by fun_prop))
  refine Eq.trans ?_ this.symm
  refine lintegral_congr fun u => ?_
  show g (-(0 + s * (2 * u - 1))) = g (0 + s * -(2 * u - 1))
  congr 1; ring

/-- Non-vacuity: the proton-proton run of `exampleOptions`, which can deliver events, meets all hypotheses. -/
example (iy ix : Fin 100) : ∃ (ec : EventCfg ℝ) (hn : ec.nsteps.toNat = 100), ∀ ev : Event ℝ ec.nsteps.toNat,
    ∫⁻ x, ENNReal.ofReal (x.2.2.TR (iy.cast hn.symm) (ix.cast hn.symm)) ∂eventLaw (freshTape ()) 1 1 (Collider.make exampleOptions 100) ec true ev =
      ∫⁻ x, ENNReal.ofReal (x.2.2.TR (iy.cast hn.symm).rev (ix.cast hn.symm)) ∂eventLaw (freshTape ()) 1 1 (Collider.make exampleOptions 100) ec true ev := by
  obtain ⟨ec, hec⟩ := C20_grid_exists exampleOptions.normalization exampleOptions.gridStep exampleOptions.gridMax exampleOptions.reducedThickness
    (by norm_num [exampleOptions]) (by norm_num [exampleOptions]) (by norm_num [exampleOptions])
  obtain ⟨g1, -⟩ := C20_grid_geometry exampleOptions.normalization exampleOptions.gridStep exampleOptions.gridMax exampleOptions.reducedThickness
    (by norm_num [exampleOptions]) (by norm_num [exampleOptions]) ec hec
  have hn : ec.nsteps.toNat = 100 := by
    rw [g1]
    norm_num [exampleOptions]
    rfl
  have hu : Usable Tape Unit (mkProton : Nucleus ℝ) 0 := by
    have hh : NucleusHistory Tape Unit (mkProton : Nucleus ℝ) := .create false (fun _ => .missing) "p" 0 _ rfl
    exact ⟨hh, trivial, reach_proton⟩
  have hbm : (Collider.make exampleOptions 100).bmax = 1 := (C35_bmax exampleOptions (by norm_num [exampleOptions]) 100).1 (by norm_num [exampleOptions])
  have hsw : calcSamplingWidth exampleOptions.nucleonWidth exampleOptions.constitWidth exampleOptions.constitNumber = 0 :=
    C09_sampling_width_zero _ _ 1 (.inl rfl)
  refine ⟨ec, hn, fun ev => ?_⟩
  refine (C100_mean freshTape_fresh tape_symmetric tape_normalBounded exampleOptions 100 hu hu (by norm_num [exampleOptions]) (by norm_num [exampleOptions])
    (by norm_num [exampleOptions]) (by rw [hbm]; norm_num [exampleOptions])
    (by norm_num [exampleOptions]) (by norm_num [exampleOptions]) (by rw [hbm, hsw]; norm_num [exampleOptions]) ec hec true 1 1 ev ()).2 _ _

end Trento
