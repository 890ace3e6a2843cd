import Verif.Lemmas.WeightThickness
import Verif.Props.Independence
import Verif.Props.GenMean
import Verif.Props.Observables

/-!
# C105: mean thickness functions and multiplicity do not depend on the fluctuation parameter

The fluctuations of the constituents change the mean of no nuclear thickness function, and at `p = 1` not the mean reduced thickness and multiplicity; they change nothing in the
joint distribution of impact parameter, number of participants and number of binary collisions.
-/

namespace Trento
open MeasureTheory Set Spec ProbabilityTheory
open scoped ENNReal

/-- the mean of `φ` over the events made from a collision found in at most `fuel` attempts (no event counts `0`) -/
noncomputable def eventMean (ν : Measure LibState) (rfuel fuel : ℕ) (o : Options ℝ) (sigma : ℝ) (ec : EventCfg ℝ) (debug : Bool) {n : ℕ} (ev : Event ℝ n)
    (φ : Observed n → ℝ≥0∞) : ℝ≥0∞ :=
  ∫⁻ w, ifOk ((Collider.make o sigma).sampleCollision rfuel fuel o.projectileA o.projectileB w) (fun t =>
    ifOk (ev.compute ec (Collider.make o sigma).nc debug t.1.2.2.1.nucleons t.1.2.2.2.nucleons) fun e => φ (t.1.1, t.1.2.1, e)) ∂ν

/-- the event as a function of the collision -/
noncomputable def onEvent (ec : EventCfg ℝ) (nc : NucleonCommon ℝ) (debug : Bool) {n : ℕ} (ev : Event ℝ n) (φ : Observed n → ℝ≥0∞) (x : Collided) : ℝ≥0∞ :=
  ifOk (ev.compute ec nc debug x.2.2.1 x.2.2.2) fun e => φ (x.1, x.2.1, e)

theorem onEvent_meas (ec : EventCfg ℝ) (nc : NucleonCommon ℝ) (debug : Bool) {n : ℕ} (ev : Event ℝ n) {φ : Observed n → ℝ≥0∞} (hφ : Measurable φ) : Measurable (onEvent ec nc debug ev φ) := by
  unfold onEvent
  refine measurable_ifOk (g := fun (x : Collided) (e : Event ℝ n) => φ (x.1, x.2.1, e)) (compute_meas ec nc debug ev (by fun_prop) (by fun_prop)) ?_
  exact hφ.comp (by fun_prop)

theorem eventMean_eq (ν : Measure LibState) (rfuel fuel : ℕ) (o : Options ℝ) (sigma : ℝ) (hA : NucleusHistory Tape (LibDist ℝ) o.projectileA) (hB : NucleusHistory Tape (LibDist ℝ) o.projectileB)
    (ec : EventCfg ℝ) (debug : Bool) {n : ℕ} (ev : Event ℝ n) (φ : Observed n → ℝ≥0∞) :
    eventMean ν rfuel fuel o sigma ec debug ev φ = collisionMean ν rfuel (Collider.make o sigma) o.projectileA o.projectileB fuel (onEvent ec (Collider.make o sigma).nc debug ev φ) := by
  unfold eventMean collisionMean
  refine lintegral_congr fun w => ifOk_congr' fun t ht => ?_
  obtain ⟨⟨b, m, A1, B1⟩, w1⟩ := t
  obtain ⟨-, c2⟩ := collisionLoop_inv (Q := fun _ => True) trivial (partExist_inv (Collider.make o sigma).nc) (sampling_partExist o.projectileA.kind _)
    (sampling_partExist o.projectileB.kind _) rfuel fuel o.projectileA o.projectileB hA hB rfl rfl 0 false w
  obtain ⟨-, -, -, -, pA, pB, -⟩ := c2 _ _ _ _ _ ht
  have pc : ∀ {l : List (NucleonData ℝ)}, (∀ a ∈ l, a.isParticipant = true → a.constituentsExist = true) →
      ∀ a ∈ l.map NucleonData.clear, a.isParticipant = true → a.constituentsExist = true := by
    intro l hl a ha
    obtain ⟨a', ha', rfl⟩ := List.mem_map.mp ha
    rw [clear_part, clear_exist]
    exact hl a' ha'
  have he := compute_clear ec (Collider.make o sigma).nc debug ev (map_clear_clear A1.nucleons) (map_clear_clear B1.nucleons) (pc pA) (pc pB) pA pB
  unfold onEvent
  simp only [collided]
  rw [he]

theorem eventMean_law (rfuel fuel : ℕ) (o : Options ℝ) (sigma : ℝ) (hA : NucleusHistory Tape (LibDist ℝ) o.projectileA) (hB : NucleusHistory Tape (LibDist ℝ) o.projectileB)
    (ec : EventCfg ℝ) (debug : Bool) {n : ℕ} (ev : Event ℝ n) {φ : Observed n → ℝ≥0∞} (hφ : Measurable φ) (i : LibMix) :
    ∫⁻ x, φ x ∂eventLaw (libMix i) rfuel fuel (Collider.make o sigma) ec debug ev = eventMean (libMix i) rfuel fuel o sigma ec debug ev φ := by
  have hm : Measurable fun w : LibState => eventStep rfuel fuel (Collider.make o sigma) ec debug ev o.projectileA o.projectileB w :=
    (renews_eventStep C97_fresh.1 rfuel fuel (Collider.make o sigma) ec debug ev o.projectileA o.projectileB).meas.comp (f := fun w : LibState => ((), w)) (by fun_prop)
  unfold eventLaw
  refine (lintegral_okLaw (map_fst_meas hm) hφ).trans ?_
  unfold eventMean
  refine lintegral_congr fun w => ?_
  rw [ifOk_map, eventStep_eq rfuel fuel (Collider.make o sigma) ec debug ev _ _ hA hB]
  cases (Collider.make o sigma).sampleCollision rfuel fuel o.projectileA o.projectileB w with
  | error e => rfl
  | ok t =>
    obtain ⟨⟨b, m, A1, B1⟩, w1⟩ := t
    dsimp only [ifOk]
    cases ev.compute ec (Collider.make o sigma).nc debug A1.nucleons B1.nucleons <;> rfl

/-! ### Success does not depend on the weights -/

/-- whether the event can be computed -/
def AllFit (ec : EventCfg ℝ) (nc : NucleonCommon ℝ) (x : Collided) : Prop := ∀ a ∈ x.2.2.1 ++ x.2.2.2, a.isParticipant = true → Fits ec nc a

theorem compute_fits {w v : ℝ} {m : ℕ} {σ : ℝ} {ncoll : Bool} {k : ℝ} (hv : 0 < v) {c : EventCfg ℝ} (hd : 0 < c.dxy) {debug : Bool} {n : ℕ} (hn : c.nsteps = n) (hn1 : 1 ≤ n)
    (ev : Event ℝ n) {x : Collided} (hx : NonnegWeights x) :
    (∃ e, ev.compute c (NucleonCommon.make w v m σ ncoll k) debug x.2.2.1 x.2.2.2 = .ok e) ↔ AllFit c (NucleonCommon.make w v m σ ncoll k) x := by
  have h1 := depositAll_fits (w := w) (m := m) (σ := σ) (ncoll := ncoll) (k := k) hv hd (debug := debug) hn hn1 x.2.2.1 (fun a ha => hx a (by simp [ha]))
  have h2 := depositAll_fits (w := w) (m := m) (σ := σ) (ncoll := ncoll) (k := k) hv hd (debug := debug) hn hn1 x.2.2.2 (fun a ha => hx a (by simp [ha]))
  constructor
  · rintro ⟨e, he⟩ a ha
    obtain ⟨TA, TB, npA, npB, e1, e2, -⟩ := compute_ok he
    rcases List.mem_append.mp ha with ha | ha
    · exact (h1 _).mp ⟨_, e1⟩ a ha
    · exact (h2 _).mp ⟨_, e2⟩ a ha
  · intro h
    obtain ⟨⟨TA, npA⟩, e1⟩ := (h1 (fun _ _ => lit 0, 0)).mpr fun a ha => h a (by simp [ha])
    obtain ⟨⟨TB, npB⟩, e2⟩ := (h2 (fun _ _ => lit 0, npA)).mpr fun a ha => h a (by simp [ha])
    unfold Event.compute computeNuclearThickness
    dsimp only
    rw [e1]
    dsimp only
    rw [e2]
    exact ⟨_, rfl⟩

theorem allFit_set (ec : EventCfg ℝ) (nc : NucleonCommon ℝ) (x : Collided) (q : Label) (f : ℝ) : AllFit ec nc (setWeight q f x) ↔ AllFit ec nc x := by
  have key : ∀ (l : List (NucleonData ℝ)) (a j : ℕ), (∀ n ∈ l.modify a (NucleonData.reweigh j f), n.isParticipant = true → Fits ec nc n) ↔ ∀ n ∈ l, n.isParticipant = true → Fits ec nc n := by
    intro l a j
    have hr : ∀ n : NucleonData ℝ, Fits ec nc (n.reweigh j f) ↔ Fits ec nc n := fun n => fits_revise ec nc (keeps_modify j f) n
    induction l generalizing a with
    | nil => cases a <;> simp
    | cons n l ih =>
      cases a with
      | zero =>
        simp only [List.modify_zero_cons, List.forall_mem_cons, hr]
        exact Iff.rfl
      | succ a => simp only [List.modify_succ_cons, List.forall_mem_cons, ih]
  have split : ∀ x : Collided, AllFit ec nc x ↔ (∀ n ∈ x.2.2.1, n.isParticipant = true → Fits ec nc n) ∧ ∀ n ∈ x.2.2.2, n.isParticipant = true → Fits ec nc n := by
    intro x
    unfold AllFit
    exact List.forall_mem_append
  rw [split, split]
  unfold setWeight
  cases q.1
  · simp only [Bool.false_eq_true, if_false, key]
  · simp only [if_true, key]

theorem allFit_unit (ec : EventCfg ℝ) (nc : NucleonCommon ℝ) (x : Collided) : AllFit ec nc (unitWeights x) ↔ AllFit ec nc x := by
  have hr : ∀ n : NucleonData ℝ, Fits ec nc n.unweigh ↔ Fits ec nc n := fun n => fits_revise ec nc keeps_unit n
  unfold AllFit unitWeights
  simp only [List.forall_mem_append, List.forall_mem_map, hr]
  exact Iff.rfl

/-! ### Functions of the thickness grids -/

/-- A function of the two thickness grids that is affine in each of them. -/
def Spec.Biaffine {n : ℕ} (H : Grid ℝ n → Grid ℝ n → ℝ≥0∞) : Prop :=
  (∀ U V T : Grid ℝ n, (∀ i j, 0 ≤ U i j) → (∀ i j, 0 ≤ V i j) → (∀ i j, 0 ≤ T i j) →
    ∃ α β : ℝ≥0∞, ∀ f : ℝ, 0 ≤ f → H (fun i j => U i j + f * V i j) T = α + ENNReal.ofReal f * β) ∧
  ∀ U V T : Grid ℝ n, (∀ i j, 0 ≤ U i j) → (∀ i j, 0 ≤ V i j) → (∀ i j, 0 ≤ T i j) →
    ∃ α β : ℝ≥0∞, ∀ f : ℝ, 0 ≤ f → H T (fun i j => U i j + f * V i j) = α + ENNReal.ofReal f * β

theorem affine_event {w v : ℝ} {m : ℕ} {σ : ℝ} {ncoll : Bool} {k : ℝ} (hv : 0 < v) {c : EventCfg ℝ} (hd : 0 < c.dxy) (debug : Bool) {n : ℕ} (hn : c.nsteps = n) (hn1 : 1 ≤ n)
    (ev : Event ℝ n) {H : Grid ℝ n → Grid ℝ n → ℝ≥0∞} (hH : Biaffine H) : AffineInWeights (onEvent c (NucleonCommon.make w v m σ ncoll k) debug ev fun e => H e.2.2.TA e.2.2.TB) := by
  intro x hx q
  by_cases hfit : AllFit c (NucleonCommon.make w v m σ ncoll k) x
  · -- the grids
    have grids : ∀ f : ℝ, 0 ≤ f → onEvent c (NucleonCommon.make w v m σ ncoll k) debug ev (fun e => H e.2.2.TA e.2.2.TB) (setWeight q f x) =
        H (fun iy ix => directThickness (NucleonCommon.make w v m σ ncoll k) debug (setWeight q f x).2.2.1 (c.center ix.val) (c.center iy.val))
          (fun iy ix => directThickness (NucleonCommon.make w v m σ ncoll k) debug (setWeight q f x).2.2.2 (c.center ix.val) (c.center iy.val)) := by
      intro f hf
      have hx' := nonneg_set hx q hf
      obtain ⟨e, he⟩ := (compute_fits hv hd (debug := debug) hn hn1 ev hx').mpr ((allFit_set c _ x q f).mpr hfit)
      unfold onEvent
      rw [he]
      have hc := fun iy ix => C21_thickness_is_direct_sum w v m σ ncoll k hv c hd debug n hn _ _ (fun a ha _ => hx' a (by simp [ha])) (fun a ha _ => hx' a (by simp [ha])) ev e he iy ix
      simp only [ifOk]
      congr 1
      · funext iy ix; exact (hc iy ix).1
      · funext iy ix; exact (hc iy ix).2
    have nn : ∀ (l : List (NucleonData ℝ)) (s t : ℝ), (∀ n ∈ l, ∀ c ∈ n.constituents, 0 ≤ c.fluctuation) → 0 ≤ directThickness (NucleonCommon.make w v m σ ncoll k) debug l s t := by
      intro l s t hl
      unfold directThickness
      apply List.sum_nonneg
      intro u hu
      obtain ⟨a, ha, rfl⟩ := List.mem_map.mp hu
      exact thicknessAt_nonneg w v m σ ncoll k hv debug a (hl a (List.mem_filter.mp ha).1) s t
    have h1 : ∀ n ∈ x.2.2.1, ∀ c ∈ n.constituents, 0 ≤ c.fluctuation := fun n hn => hx n (by simp [hn])
    have h2 : ∀ n ∈ x.2.2.2, ∀ c ∈ n.constituents, 0 ≤ c.fluctuation := fun n hn => hx n (by simp [hn])
    obtain ⟨s, a, j⟩ := q
    cases s
    · have hd2 := fun s t : ℝ => direct_reweigh w v m σ ncoll k hv debug s t x.2.2.2 h2 a j
      choose u r hu hr hur using hd2
      obtain ⟨α, β, hab⟩ := hH.2 (fun iy ix => u (c.center ix.val) (c.center iy.val)) (fun iy ix => r (c.center ix.val) (c.center iy.val))
        (fun iy ix => directThickness (NucleonCommon.make w v m σ ncoll k) debug x.2.2.1 (c.center ix.val) (c.center iy.val)) (fun _ _ => hu _ _) (fun _ _ => hr _ _) (fun _ _ => nn _ _ _ h1)
      refine ⟨α, β, fun f hf => ?_⟩
      rw [grids f hf, ← hab f hf]
      congr 1
      funext iy ix
      exact hur _ _ f
    · have hd1 := fun s t : ℝ => direct_reweigh w v m σ ncoll k hv debug s t x.2.2.1 h1 a j
      choose u r hu hr hur using hd1
      obtain ⟨α, β, hab⟩ := hH.1 (fun iy ix => u (c.center ix.val) (c.center iy.val)) (fun iy ix => r (c.center ix.val) (c.center iy.val))
        (fun iy ix => directThickness (NucleonCommon.make w v m σ ncoll k) debug x.2.2.2 (c.center ix.val) (c.center iy.val)) (fun _ _ => hu _ _) (fun _ _ => hr _ _) (fun _ _ => nn _ _ _ h2)
      refine ⟨α, β, fun f hf => ?_⟩
      rw [grids f hf, ← hab f hf]
      congr 1
      funext iy ix
      exact hur _ _ f
  · refine ⟨0, 0, fun f hf => ?_⟩
    have hno := (compute_fits hv hd (debug := debug) hn hn1 ev (nonneg_set hx q hf)).not.mpr ((allFit_set c (NucleonCommon.make w v m σ ncoll k) x q f).not.mpr hfit)
    unfold onEvent
    cases he : ev.compute c (NucleonCommon.make w v m σ ncoll k) debug (setWeight q f x).2.2.1 (setWeight q f x).2.2.2 with
    | error e => simp [ifOk]
    | ok e => exact absurd ⟨e, he⟩ hno

/-- a function of the two nuclear thickness grids that is affine in each of them -/
theorem mean_biaffine (o : Options ℝ) (sigma : ℝ) (hk : 0 < o.fluctuation) (hv : 0 < o.constitWidth) (hA : NucleusHistory Tape (LibDist ℝ) o.projectileA)
    (hB : NucleusHistory Tape (LibDist ℝ) o.projectileB) (rfuel fuel : ℕ) (ec : EventCfg ℝ) (hd : 0 < ec.dxy) (debug : Bool) {n : ℕ} (hn : ec.nsteps = n) (hn1 : 1 ≤ n) (ev : Event ℝ n)
    {H : Grid ℝ n → Grid ℝ n → ℝ≥0∞} (hm : Measurable fun p : Grid ℝ n × Grid ℝ n => H p.1 p.2) (hH : Biaffine H) {k' : ℝ} (hk' : 0 < k') (i : LibMix) :
    eventMean (libMix i) rfuel fuel { o with fluctuation := k' } sigma ec debug ev (fun e => H e.2.2.TA e.2.2.TB) =
      eventMean (libMix i) rfuel fuel o sigma ec debug ev fun e => H e.2.2.TA e.2.2.TB := by
  have hφ : Measurable fun e : Observed n => H e.2.2.TA e.2.2.TB :=
    hm.comp (Measurable.prodMk (event_TA.comp (measurable_snd.comp measurable_snd)) (event_TB.comp (measurable_snd.comp measurable_snd)))
  rw [eventMean_eq (libMix i) rfuel fuel o sigma hA hB, eventMean_eq (libMix i) rfuel fuel { o with fluctuation := k' } sigma hA hB]
  have hF : Measurable (onEvent ec (Collider.make o sigma).nc debug ev fun e => H e.2.2.TA e.2.2.TB) := onEvent_meas ec _ debug ev hφ
  have haff : AffineInWeights (onEvent ec (Collider.make o sigma).nc debug ev fun e => H e.2.2.TA e.2.2.TB) := affine_event hv hd debug hn hn1 ev hH
  have e : onEvent ec (Collider.make { o with fluctuation := k' } sigma).nc debug ev (fun e => H e.2.2.TA e.2.2.TB) = onEvent ec (Collider.make o sigma).nc debug ev fun e => H e.2.2.TA e.2.2.TB := by
    funext x
    unfold onEvent
    have := compute_gamma ec o.nucleonWidth o.constitWidth o.constitNumber sigma o.ncoll o.fluctuation k' debug ev x.2.2.1 x.2.2.2
    exact congrArg (fun r => ifOk r _) this
  rw [e]
  exact (C105_mean o sigma hk hA hB rfuel fuel hF haff i).2 k' hk'

/-- functions of impact parameter, number of binary collisions and number of participants -/
theorem mean_counts (o : Options ℝ) (sigma : ℝ) (hk : 0 < o.fluctuation) (hv : 0 < o.constitWidth) (hA : NucleusHistory Tape (LibDist ℝ) o.projectileA)
    (hB : NucleusHistory Tape (LibDist ℝ) o.projectileB) (rfuel fuel : ℕ) (ec : EventCfg ℝ) (hd : 0 < ec.dxy) (debug : Bool) {n : ℕ} (hn : ec.nsteps = n) (hn1 : 1 ≤ n) (ev : Event ℝ n)
    {g : ℝ × ℕ × ℕ → ℝ≥0∞} (hg : Measurable g) {k' : ℝ} (hk' : 0 < k') (i : LibMix) :
    eventMean (libMix i) rfuel fuel { o with fluctuation := k' } sigma ec debug ev (fun e => g (e.1, e.2.1, e.2.2.npart)) =
      eventMean (libMix i) rfuel fuel o sigma ec debug ev fun e => g (e.1, e.2.1, e.2.2.npart) := by
  have hφ : Measurable fun e : Observed n => g (e.1, e.2.1, e.2.2.npart) :=
    hg.comp (Measurable.prodMk measurable_fst (Measurable.prodMk (measurable_fst.comp measurable_snd) (event_npart.comp (measurable_snd.comp measurable_snd))))
  rw [eventMean_eq (libMix i) rfuel fuel o sigma hA hB, eventMean_eq (libMix i) rfuel fuel { o with fluctuation := k' } sigma hA hB]
  have hF : Measurable (onEvent ec (Collider.make o sigma).nc debug ev fun e => g (e.1, e.2.1, e.2.2.npart)) := onEvent_meas ec _ debug ev hφ
  have e : onEvent ec (Collider.make { o with fluctuation := k' } sigma).nc debug ev (fun e => g (e.1, e.2.1, e.2.2.npart)) =
      onEvent ec (Collider.make o sigma).nc debug ev fun e => g (e.1, e.2.1, e.2.2.npart) := by
    funext x
    unfold onEvent
    have := compute_gamma ec o.nucleonWidth o.constitWidth o.constitNumber sigma o.ncoll o.fluctuation k' debug ev x.2.2.1 x.2.2.2
    exact congrArg (fun r => ifOk r _) this
  -- the value for collisions without negative weights
  have val : ∀ x, NonnegWeights x → ∀ y, y = onEvent ec (Collider.make o sigma).nc debug ev (fun e => g (e.1, e.2.1, e.2.2.npart)) x →
      (AllFit ec (Collider.make o sigma).nc x → y = g (x.1, x.2.1, x.2.2.1.countP (·.isParticipant) + x.2.2.2.countP (·.isParticipant))) ∧
      (¬ AllFit ec (Collider.make o sigma).nc x → y = 0) := by
    intro x hx y hy
    have hfit := compute_fits (w := o.nucleonWidth) (m := o.constitNumber) (σ := sigma) (ncoll := o.ncoll) (k := o.fluctuation) hv hd (debug := debug) hn hn1 ev hx
    unfold onEvent at hy
    constructor
    · intro h
      obtain ⟨e, he⟩ := hfit.mpr h
      rw [show (Collider.make o sigma).nc = NucleonCommon.make o.nucleonWidth o.constitWidth o.constitNumber sigma o.ncoll o.fluctuation from rfl, he] at hy
      obtain ⟨TA, TB, npA, npB, e1, e2, rfl⟩ := compute_ok he
      have n1 := depositAll_npart e1
      have n2 := depositAll_npart e2
      rw [hy]
      have hs : npB = x.2.2.1.countP (·.isParticipant) + x.2.2.2.countP (·.isParticipant) := by omega
      show g (x.1, x.2.1, npB) = _
      rw [hs]
    · intro h
      have hno := hfit.not.mpr h
      rw [hy]
      cases he : ev.compute ec (Collider.make o sigma).nc debug x.2.2.1 x.2.2.2 with
      | error e => rfl
      | ok e => exact absurd ⟨e, he⟩ hno
  have unit : ∀ (o' : Options ℝ), NucleusHistory Tape (LibDist ℝ) o'.projectileA → NucleusHistory Tape (LibDist ℝ) o'.projectileB →
      collisionMean (libMix i) rfuel (Collider.make o' sigma) o'.projectileA o'.projectileB fuel (onEvent ec (Collider.make o sigma).nc debug ev fun e => g (e.1, e.2.1, e.2.2.npart)) =
        collisionMean (libMix i) rfuel (Collider.make o' sigma) o'.projectileA o'.projectileB fuel
          (fun x => onEvent ec (Collider.make o sigma).nc debug ev (fun e => g (e.1, e.2.1, e.2.2.npart)) (unitWeights x)) := by
    intro o' hA hB
    unfold collisionMean
    refine lintegral_congr fun w => ifOk_congr' fun t ht => ?_
    obtain ⟨⟨b, nc, A', B'⟩, w'⟩ := t
    have hx := (collided_weights _ hA hB ht).1
    generalize collided (b, nc, A', B') = x at *
    have hu : NonnegWeights (unitWeights x) := by
      intro n hn c hc
      simp only [unitWeights, List.mem_append, List.mem_map] at hn
      have : ∀ n' : NucleonData ℝ, n = n'.unweigh → 0 ≤ c.fluctuation := by
        rintro n' rfl
        simp only [NucleonData.unweigh, NucleonData.revise, List.mem_map] at hc
        obtain ⟨d, -, rfl⟩ := hc
        exact zero_le_one
      rcases hn with ⟨n', -, rfl⟩ | ⟨n', -, rfl⟩ <;> exact this n' rfl
    obtain ⟨v1, v2⟩ := val x hx _ rfl
    obtain ⟨u1, u2⟩ := val (unitWeights x) hu _ rfl
    have cnt : ∀ l : List (NucleonData ℝ), (l.map NucleonData.unweigh).countP (·.isParticipant) = l.countP (·.isParticipant) := by
      intro l
      rw [List.countP_map]
      rfl
    dsimp only
    by_cases h : AllFit ec (Collider.make o sigma).nc x
    · rw [v1 h, u1 ((allFit_unit _ _ x).mpr h)]
      simp only [unitWeights, cnt]
    · rw [v2 h, u2 ((allFit_unit _ _ x).not.mpr h)]
  rw [e, unit { o with fluctuation := k' } hA hB, unit o hA hB]
  exact C105_positions o sigma hk hA hB hk' rfuel fuel hF i

/-! ### The thickness functions, and the reduced thickness at `p = 1` -/

theorem biaffine_A {n : ℕ} (iy ix : Fin n) : Biaffine fun TA _ : Grid ℝ n => ENNReal.ofReal (TA iy ix) := by
  refine ⟨fun U V T hU hV _ => ⟨ENNReal.ofReal (U iy ix), ENNReal.ofReal (V iy ix), fun f hf => ?_⟩, fun U V T _ _ hT => ⟨ENNReal.ofReal (T iy ix), 0, fun f _ => by simp⟩⟩
  dsimp only
  rw [ENNReal.ofReal_add (hU _ _) (mul_nonneg hf (hV _ _)), ENNReal.ofReal_mul hf]

theorem biaffine_B {n : ℕ} (iy ix : Fin n) : Biaffine fun _ TB : Grid ℝ n => ENNReal.ofReal (TB iy ix) := by
  refine ⟨fun U V T _ _ hT => ⟨ENNReal.ofReal (T iy ix), 0, fun f _ => by simp⟩, fun U V T hU hV _ => ⟨ENNReal.ofReal (U iy ix), ENNReal.ofReal (V iy ix), fun f hf => ?_⟩⟩
  dsimp only
  rw [ENNReal.ofReal_add (hU _ _) (mul_nonneg hf (hV _ _)), ENNReal.ofReal_mul hf]

theorem biaffine_mul {n : ℕ} (iy ix jy jx : Fin n) : Biaffine fun TA TB : Grid ℝ n => ENNReal.ofReal (TA iy ix) * ENNReal.ofReal (TB jy jx) := by
  refine ⟨fun U V T hU hV _ => ⟨ENNReal.ofReal (U iy ix) * ENNReal.ofReal (T jy jx), ENNReal.ofReal (V iy ix) * ENNReal.ofReal (T jy jx), fun f hf => ?_⟩,
    fun U V T hU hV _ => ⟨ENNReal.ofReal (T iy ix) * ENNReal.ofReal (U jy jx), ENNReal.ofReal (T iy ix) * ENNReal.ofReal (V jy jx), fun f hf => ?_⟩⟩
  · dsimp only
    rw [ENNReal.ofReal_add (hU _ _) (mul_nonneg hf (hV _ _)), ENNReal.ofReal_mul hf]
    ring
  · dsimp only
    rw [ENNReal.ofReal_add (hU _ _) (mul_nonneg hf (hV _ _)), ENNReal.ofReal_mul hf]
    ring

theorem biaffine_add {n : ℕ} {H H' : Grid ℝ n → Grid ℝ n → ℝ≥0∞} (h : Biaffine H) (h' : Biaffine H') : Biaffine fun TA TB => H TA TB + H' TA TB := by
  refine ⟨fun U V T hU hV hT => ?_, fun U V T hU hV hT => ?_⟩
  · obtain ⟨α, β, e⟩ := h.1 U V T hU hV hT
    obtain ⟨α', β', e'⟩ := h'.1 U V T hU hV hT
    exact ⟨α + α', β + β', fun f hf => by dsimp only; rw [e f hf, e' f hf]; ring⟩
  · obtain ⟨α, β, e⟩ := h.2 U V T hU hV hT
    obtain ⟨α', β', e'⟩ := h'.2 U V T hU hV hT
    exact ⟨α + α', β + β', fun f hf => by dsimp only; rw [e f hf, e' f hf]; ring⟩

theorem biaffine_smul {n : ℕ} {H : Grid ℝ n → Grid ℝ n → ℝ≥0∞} (h : Biaffine H) (s : ℝ≥0∞) : Biaffine fun TA TB => s * H TA TB := by
  refine ⟨fun U V T hU hV hT => ?_, fun U V T hU hV hT => ?_⟩
  · obtain ⟨α, β, e⟩ := h.1 U V T hU hV hT
    exact ⟨s * α, s * β, fun f hf => by dsimp only; rw [e f hf]; ring⟩
  · obtain ⟨α, β, e⟩ := h.2 U V T hU hV hT
    exact ⟨s * α, s * β, fun f hf => by dsimp only; rw [e f hf]; ring⟩

theorem biaffine_zero {n : ℕ} : Biaffine fun _ _ : Grid ℝ n => (0 : ℝ≥0∞) :=
  ⟨fun _ _ _ _ _ _ => ⟨0, 0, fun _ _ => by simp⟩, fun _ _ _ _ _ _ => ⟨0, 0, fun _ _ => by simp⟩⟩

theorem biaffine_sum {n : ℕ} {ι : Type} [DecidableEq ι] (s : Finset ι) {H : ι → Grid ℝ n → Grid ℝ n → ℝ≥0∞} (h : ∀ i, Biaffine (H i)) : Biaffine fun TA TB => ∑ i ∈ s, H i TA TB := by
  induction s using Finset.induction_on with
  | empty => simpa using biaffine_zero
  | insert a s ha ih =>
    simp only [Finset.sum_insert ha]
    exact biaffine_add (h a) ih

/-- the reduced thickness at `p = 1` -/
theorem trentoMean_one {a b : ℝ} : trentoMean 1 a b = (a + b) / 2 := by
  rw [C25_trentoMean_eq 1 a b (.inl ⟨by norm_num, .inl one_pos⟩), powerMean_pos one_pos]
  unfold pm
  norm_num

/-- **C105, counts.** With the library's distributions and an ideal engine, the joint distribution of impact parameter, number of binary collisions and number of participants of the
events does not depend on the fluctuation parameter. -/
theorem C105_counts (o : Options ℝ) (sigma : ℝ) (hk : 0 < o.fluctuation) (hv : 0 < o.constitWidth) (hA : NucleusHistory Tape (LibDist ℝ) o.projectileA)
    (hB : NucleusHistory Tape (LibDist ℝ) o.projectileB) (rfuel fuel : ℕ) (ec : EventCfg ℝ) (hd : 0 < ec.dxy) (debug : Bool) {n : ℕ} (hn : ec.nsteps = n) (hn1 : 1 ≤ n) (ev : Event ℝ n)
    {k' : ℝ} (hk' : 0 < k') (i : LibMix) :
    (eventLaw (libMix i) rfuel fuel (Collider.make { o with fluctuation := k' } sigma) ec debug ev).map (fun e => (e.1, e.2.1, e.2.2.npart)) =
      (eventLaw (libMix i) rfuel fuel (Collider.make o sigma) ec debug ev).map fun e => (e.1, e.2.1, e.2.2.npart) := by
  have hc : Measurable fun e : Observed n => (e.1, e.2.1, e.2.2.npart) :=
    Measurable.prodMk measurable_fst (Measurable.prodMk (measurable_fst.comp measurable_snd) (event_npart.comp (measurable_snd.comp measurable_snd)))
  refine Measure.ext_of_lintegral _ fun g hg => ?_
  rw [lintegral_map hg hc, lintegral_map hg hc, eventMean_law rfuel fuel o sigma hA hB ec debug ev (φ := fun e => g (e.1, e.2.1, e.2.2.npart)) (hg.comp hc) i,
    eventMean_law rfuel fuel { o with fluctuation := k' } sigma hA hB ec debug ev (φ := fun e => g (e.1, e.2.1, e.2.2.npart)) (hg.comp hc) i]
  exact mean_counts o sigma hk hv hA hB rfuel fuel ec hd debug hn hn1 ev hg hk' i

/-- **C105, initial condition.** With the library's distributions and an ideal engine: the mean nuclear thickness functions at every point, and the mean of the product of a thickness
of the projectile and one of the target, do not depend on the fluctuation parameter; for the arithmetic mean (`p = 1`) the same holds for the reduced thickness and the multiplicity. -/
theorem C105_events (o : Options ℝ) (sigma : ℝ) (hk : 0 < o.fluctuation) (hv : 0 < o.constitWidth) (hA : NucleusHistory Tape (LibDist ℝ) o.projectileA)
    (hB : NucleusHistory Tape (LibDist ℝ) o.projectileB) (rfuel fuel : ℕ) (ec : EventCfg ℝ) (hd : 0 < ec.dxy) (debug : Bool) {n : ℕ} (hn : ec.nsteps = n) (hn1 : 1 ≤ n) (ev : Event ℝ n)
    {k' : ℝ} (hk' : 0 < k') (i : LibMix) :
    let Same : (Observed n → ℝ≥0∞) → Prop := fun φ => ∫⁻ x, φ x ∂eventLaw (libMix i) rfuel fuel (Collider.make { o with fluctuation := k' } sigma) ec debug ev =
      ∫⁻ x, φ x ∂eventLaw (libMix i) rfuel fuel (Collider.make o sigma) ec debug ev
    (∀ iy ix, Same (fun e => ENNReal.ofReal (e.2.2.TA iy ix)) ∧ Same (fun e => ENNReal.ofReal (e.2.2.TB iy ix)) ∧
      ∀ jy jx, Same fun e => ENNReal.ofReal (e.2.2.TA iy ix) * ENNReal.ofReal (e.2.2.TB jy jx)) ∧
    (ec.p = 1 → 0 ≤ ec.norm → (∀ iy ix, Same fun e => ENNReal.ofReal (e.2.2.TR iy ix)) ∧ Same fun e => ENNReal.ofReal e.2.2.multiplicity) := by
  intro Same'
  let Same : (Observed n → ℝ≥0∞) → Prop := fun φ => eventMean (libMix i) rfuel fuel { o with fluctuation := k' } sigma ec debug ev φ = eventMean (libMix i) rfuel fuel o sigma ec debug ev φ
  have tr : ∀ {φ : Observed n → ℝ≥0∞}, Measurable φ → Same φ → Same' φ := by
    intro φ hφ h
    show ∫⁻ x, φ x ∂_ = ∫⁻ x, φ x ∂_
    rw [eventMean_law rfuel fuel o sigma hA hB ec debug ev hφ i, eventMean_law rfuel fuel { o with fluctuation := k' } sigma hA hB ec debug ev hφ i]
    exact h
  have oe : Measurable fun e : Observed n => e.2.2 := measurable_snd.comp measurable_snd
  have gA : ∀ iy ix, Measurable fun e : Observed n => ENNReal.ofReal (e.2.2.TA iy ix) := fun iy ix => (cell_meas (event_TA.comp oe) iy ix).ennreal_ofReal
  have gB : ∀ iy ix, Measurable fun e : Observed n => ENNReal.ofReal (e.2.2.TB iy ix) := fun iy ix => (cell_meas (event_TB.comp oe) iy ix).ennreal_ofReal
  have gR : ∀ iy ix, Measurable fun e : Observed n => ENNReal.ofReal (e.2.2.TR iy ix) := fun iy ix => (cell_meas (event_TR.comp oe) iy ix).ennreal_ofReal
  have use : ∀ {H : Grid ℝ n → Grid ℝ n → ℝ≥0∞}, (Measurable fun p : Grid ℝ n × Grid ℝ n => H p.1 p.2) → Biaffine H → Same fun e => H e.2.2.TA e.2.2.TB :=
    fun hm hH => mean_biaffine o sigma hk hv hA hB rfuel fuel ec hd debug hn hn1 ev hm hH hk' i
  have mA : ∀ iy ix, Measurable fun p : Grid ℝ n × Grid ℝ n => ENNReal.ofReal (p.1 iy ix) := fun iy ix => (cell_meas measurable_fst iy ix).ennreal_ofReal
  have mB : ∀ iy ix, Measurable fun p : Grid ℝ n × Grid ℝ n => ENNReal.ofReal (p.2 iy ix) := fun iy ix => (cell_meas measurable_snd iy ix).ennreal_ofReal
  refine ⟨fun iy ix => ⟨tr (gA iy ix) (use (mA iy ix) (biaffine_A iy ix)), tr (gB iy ix) (use (mB iy ix) (biaffine_B iy ix)),
    fun jy jx => tr ((gA iy ix).mul (gB jy jx)) (use ((mA iy ix).mul (mB jy jx)) (biaffine_mul iy ix jy jx))⟩, fun hp hnorm => ?_⟩
  -- observables given by the grids
  have via : ∀ {φ : Observed n → ℝ≥0∞} {H : Grid ℝ n → Grid ℝ n → ℝ≥0∞}, (Measurable fun p : Grid ℝ n × Grid ℝ n => H p.1 p.2) → Biaffine H →
      (∀ (A B : List (NucleonData ℝ)) (k : ℝ) (e : Event ℝ n) (b : ℝ) (m : ℕ), ev.compute ec (NucleonCommon.make o.nucleonWidth o.constitWidth o.constitNumber sigma o.ncoll k) debug A B = .ok e →
        (∀ a ∈ A, a.isParticipant = true → ∀ c ∈ a.constituents, 0 ≤ c.fluctuation) → (∀ a ∈ B, a.isParticipant = true → ∀ c ∈ a.constituents, 0 ≤ c.fluctuation) →
        φ (b, m, e) = H e.TA e.TB) → Same φ := by
    intro φ H hm hH hφ
    have e : ∀ o' : Options ℝ, o'.projectileA = o.projectileA → o'.projectileB = o.projectileB →
        (∃ k, (Collider.make o' sigma).nc = NucleonCommon.make o.nucleonWidth o.constitWidth o.constitNumber sigma o.ncoll k) →
        eventMean (libMix i) rfuel fuel o' sigma ec debug ev φ = eventMean (libMix i) rfuel fuel o' sigma ec debug ev fun e => H e.2.2.TA e.2.2.TB := by
      rintro o' eA eB ⟨k, hnc⟩
      unfold eventMean
      refine lintegral_congr fun w => ifOk_congr' fun t ht => ifOk_congr' fun e he => ?_
      obtain ⟨⟨b, m, A', B'⟩, w'⟩ := t
      obtain ⟨q1, q2, -, -⟩ := collision_weights _ (by rw [eA]; exact hA) (by rw [eB]; exact hB) ht
      obtain ⟨-, c2⟩ := collisionLoop_inv (Q := fun _ => True) trivial (partExist_inv (Collider.make o' sigma).nc) (sampling_partExist o'.projectileA.kind _)
        (sampling_partExist o'.projectileB.kind _) rfuel fuel o'.projectileA o'.projectileB (by rw [eA]; exact hA) (by rw [eB]; exact hB) rfl rfl 0 false w
      obtain ⟨-, -, -, -, pA, pB, -⟩ := c2 _ _ _ _ _ ht
      rw [hnc] at he
      exact hφ _ _ k e b m he (fun a ha hap => ((q1 a ha).2 (pA a ha hap)).2) (fun a ha hap => ((q2 a ha).2 (pB a ha hap)).2)
    have e1 := e o rfl rfl ⟨o.fluctuation, rfl⟩
    have e2 := e { o with fluctuation := k' } rfl rfl ⟨k', rfl⟩
    show eventMean _ _ _ _ _ _ _ _ _ = eventMean _ _ _ _ _ _ _ _ _
    rw [e1, e2]
    exact use hm hH
  -- the reduced thickness
  have hTR : ∀ (A B : List (NucleonData ℝ)) (k : ℝ) (e : Event ℝ n), ev.compute ec (NucleonCommon.make o.nucleonWidth o.constitWidth o.constitNumber sigma o.ncoll k) debug A B = .ok e →
      (∀ a ∈ A, a.isParticipant = true → ∀ c ∈ a.constituents, 0 ≤ c.fluctuation) → (∀ a ∈ B, a.isParticipant = true → ∀ c ∈ a.constituents, 0 ≤ c.fluctuation) →
      ∀ iy ix, 0 ≤ e.TR iy ix ∧ ENNReal.ofReal (e.TR iy ix) = ENNReal.ofReal (ec.norm / 2) * (ENNReal.ofReal (e.TA iy ix) + ENNReal.ofReal (e.TB iy ix)) := by
    intro A B k e he hA hB iy ix
    obtain ⟨nA, nB⟩ := C21_thickness_nonneg _ _ _ _ _ _ hv ec hd debug n hn A B hA hB ev e he iy ix
    have := C25_reduced_thickness ec _ debug n A B ev e he iy ix
    rw [hp, trentoMean_one] at this
    have e2 : e.TR iy ix = ec.norm / 2 * (e.TA iy ix + e.TB iy ix) := by rw [this]; ring
    refine ⟨by rw [e2]; positivity, ?_⟩
    rw [e2, ENNReal.ofReal_mul (by positivity), ENNReal.ofReal_add nA nB]
  refine ⟨fun iy ix => ?_, ?_⟩
  · refine tr (gR iy ix) (via (H := fun TA TB => ENNReal.ofReal (ec.norm / 2) * (ENNReal.ofReal (TA iy ix) + ENNReal.ofReal (TB iy ix))) ?_
      (biaffine_smul (biaffine_add (biaffine_A iy ix) (biaffine_B iy ix)) _) fun A B k e b m he hA hB => (hTR A B k e he hA hB iy ix).2)
    exact ((mA iy ix).add (mB iy ix)).const_mul _
  · refine tr (event_mult.comp oe).ennreal_ofReal (via (H := fun TA TB => ENNReal.ofReal (ec.dxy ^ 2) * ∑ iy, ∑ ix, ENNReal.ofReal (ec.norm / 2) * (ENNReal.ofReal (TA iy ix) + ENNReal.ofReal (TB iy ix))) ?_
      (biaffine_smul (biaffine_sum _ fun iy => biaffine_sum _ fun ix => biaffine_smul (biaffine_add (biaffine_A iy ix) (biaffine_B iy ix)) _) _) fun A B k e b m he hA hB => ?_)
    · exact (Finset.measurable_sum _ fun iy _ => Finset.measurable_sum _ fun ix _ => ((mA iy ix).add (mB iy ix)).const_mul _).const_mul _
    · dsimp only
      rw [C27_multiplicity ec _ debug n ev e A B he, ENNReal.ofReal_mul (by positivity)]
      congr 1
      unfold gridSum
      rw [ENNReal.ofReal_sum_of_nonneg fun iy _ => Finset.sum_nonneg fun ix _ => (hTR A B k e he hA hB iy ix).1]
      refine Finset.sum_congr rfl fun iy _ => ?_
      rw [ENNReal.ofReal_sum_of_nonneg fun ix _ => (hTR A B k e he hA hB iy ix).1]
      exact Finset.sum_congr rfl fun ix _ => (hTR A B k e he hA hB iy ix).2

/-- The hypotheses are met: lead on lead with the default grid and `p = 1`, fluctuation parameters 1 and 2: the mean multiplicity is the same. -/
example : ∃ nPb : Nucleus ℝ, createNucleus false (fun _ => .missing) "Pb" 0.5 = .ok nPb ∧ ∃ (ec : EventCfg ℝ) (n : ℕ), EventCfg.make 1 0.2 10 1 = .ok ec ∧ ec.nsteps = n ∧ ∀ (ev : Event ℝ n) (i : LibMix),
    let o := { exampleOptions with projectileA := nPb, projectileB := nPb, constitNumber := 3, constitWidth := 1/2, reducedThickness := 1 }
    ∫⁻ x, ENNReal.ofReal x.2.2.multiplicity ∂eventLaw (libMix i) 1000 1000 (Collider.make { o with fluctuation := 2 } 3) ec true ev =
      ∫⁻ x, ENNReal.ofReal x.2.2.multiplicity ∂eventLaw (libMix i) 1000 1000 (Collider.make o 3) ec true ev := by
  obtain ⟨ec, hec⟩ := C20_grid_exists 1 0.2 10 1 (by norm_num) (by norm_num) (by norm_num)
  obtain ⟨g1, g2, -⟩ := C20_grid_geometry 1 0.2 10 1 (by norm_num) (by norm_num) ec hec
  have hp : ec.p = 1 ∧ ec.norm = 1 := by
    unfold EventCfg.make at hec
    split at hec
    · cases hec
    · split at hec
      · cases hec
      · rw [← Except.ok.inj hec]; exact ⟨rfl, rfl⟩
  have hn : ec.nsteps = (100 : ℕ) := by
    rw [g1]
    have : (2 * 10 / 0.2 : ℝ) = ((100:ℤ) : ℝ) := by norm_num
    rw [this, Int.ceil_intCast]
    rfl
  refine ⟨_, rfl, ec, 100, hec, hn, fun ev i => ?_⟩
  intro o
  have hh : NucleusHistory Tape (LibDist ℝ) o.projectileA := .create false (fun _ => .missing) "Pb" 0.5 _ rfl
  have := C105_events o 3 (by norm_num [o, exampleOptions]) (by norm_num [o]) hh hh 1000 1000 ec (by rw [g2]; norm_num) true hn (by norm_num) ev (k' := 2) (by norm_num) i
  exact (this.2 hp.1 (by rw [hp.2]; norm_num)).2

/-- The thickness is not the same in all events, and constants are not the only functions covered: in the thicknesses of both nuclei the product is affine, its square is not. -/
example : ¬ Biaffine fun TA _ : Grid ℝ 1 => ENNReal.ofReal (TA 0 0) ^ 2 := by
  intro h
  obtain ⟨α, β, e⟩ := h.1 (fun _ _ => 0) (fun _ _ => 1) (fun _ _ => 0) (by simp) (by simp) (by simp)
  have e0 := e 0 le_rfl
  have e1 := e 1 zero_le_one
  have e2 := e 2 zero_le_two
  norm_num at e0 e1 e2
  rw [← e0] at e1 e2
  rw [zero_add] at e1 e2
  rw [← e1] at e2
  norm_num at e2

end Trento
