import Verif.Props.Independence
import Verif.Props.ExampleRun
import Verif.Lemmas.CanAttempt

/-!
# C94: runs end

`sample_collision` and the rejection loops inside it have no limit on the number of iterations.  With ideal random numbers they end with probability one, and so does
a run.
-/

namespace Trento
open MeasureTheory Set Spec Filter Topology
open scoped ENNReal

variable {E D : Type} [Rng ℝ E D] [MeasurableSpace E] [MeasurableSpace D] {I : Type} {μ : I → Measure (Rand E D)}

omit [MeasurableSpace E] [MeasurableSpace D] in
theorem hasConfigs_samplable {nuc : Nucleus ℝ} (hh : NucleusHistory E D nuc) (hc : HasConfigs nuc.kind) : Samplable nuc.kind :=
  history_samplable hh fun configs rmax hk => by rw [hk] at hc; exact hc

/-- **C94, a collision is found.** For every pair of nuclei made by `Nucleus::create` (a nucleus file must contain a configuration, and nucleons), positive widths, at least one
constituent, a positive partonic cross section and a minimum impact parameter within the reach of two nucleons, `0 ≤ b-min < 6 w`: with probability one
`sample_collision` returns. -/
theorem C94_collision [LawfulRng E D] (h : FreshSource E D μ) (o : Options ℝ) (sigma : ℝ) (A B : Nucleus ℝ) (hA : NucleusHistory E D A) (hB : NucleusHistory E D B)
    (cA : HasConfigs A.kind) (cB : HasConfigs B.kind) (nA : A.nucleons ≠ []) (nB : B.nucleons ≠ [])
    (hv : 0 < o.constitWidth) (hm : 1 ≤ o.constitNumber) (hσ : 0 < sigma) (h0 : 0 ≤ o.bMin) (hb : o.bMin < 6 * o.nucleonWidth) (i : I) :
    ∀ᵐ w ∂(μ i), ∃ (rfuel n : ℕ) (t : (ℝ × ℕ × Nucleus ℝ × Nucleus ℝ) × Rand E D), (Collider.make o sigma).sampleCollision rfuel n A B w = .ok t := by
  have sA := hasConfigs_samplable hA cA
  have sB := hasConfigs_samplable hB cB
  refine C89_terminates h _ A B hA hB sA sB 1 i ?_ i
  refine collisionMean_pos h _ A B hA hB sA sB nA nB (by show o.constitNumber ≠ 0; omega) hσ ?_ (R := 6 * o.nucleonWidth) (make_maxImpactSq _ _ _ _ _ _) h0 hb 1 le_rfl i
  show 0 < (NucleonCommon.make o.nucleonWidth o.constitWidth o.constitNumber sigma o.ncoll o.fluctuation).prefactor
  rw [make_prefactor]
  have : (0:ℝ) < o.constitNumber := by exact_mod_cast hm
  have := Real.pi_pos
  positivity

omit [MeasurableSpace E] [MeasurableSpace D] in
/-- the runs of one event with more fuel -/
theorem event1_mono (c : Collider ℝ) (ec : EventCfg ℝ) (debug : Bool) {n : ℕ} (ev : Event ℝ n) :
    Monotone fun m : ℕ => (Event1 m m c ec debug ev univ : Set (Rand E D)) := by
  intro m m' hmm w hw
  obtain ⟨r, hr, -⟩ := hw
  refine ⟨r, ?_, mem_univ _⟩
  unfold Collider.runEvents at hr ⊢
  rw [runLoop_settles (oneEvent c) ec debug m m' hmm m m' hmm]
  · exact hr
  · intro hc
    rw [hc] at hr; cases hr

/-- **C94, a run is completed.** Under these hypotheses and those of C61 (which exclude undefined behaviour), a run of any number of events is completed with probability one. -/
theorem C94_events [LawfulRng E D] (h : FreshSource E D μ) {K : ℝ} (hK : NormalBounded E D K) (o : Options ℝ) (sigma : ℝ) {rA rB : ℝ}
    (hA : Usable E D o.projectileA rA) (hB : Usable E D o.projectileB rB) (nA : o.projectileA.nucleons ≠ []) (nB : o.projectileB.nucleons ≠ [])
    (hv : 0 < o.constitWidth) (hm : 1 ≤ o.constitNumber) (hσ : 0 < sigma)
    (h0 : 0 ≤ o.bMin) (hmin : o.bMin ≤ (Collider.make o sigma).bmax) (hb : o.bMin < 6 * o.nucleonWidth)
    (hstep : 0 < o.gridStep) (hmax : 0 < o.gridMax)
    (hmod : (max rA rB + (Collider.make o sigma).bmax +
      2 * (K * calcSamplingWidth o.nucleonWidth o.constitWidth o.constitNumber) +
      5 * o.constitWidth + (o.gridMax + o.gridStep)) / o.gridStep < 2147483648)
    (debug : Bool) (ec : EventCfg ℝ) (hec : EventCfg.make o.normalization o.gridStep o.gridMax o.reducedThickness = .ok ec)
    (ev : Event ℝ ec.nsteps.toNat) (i : I) :
    ∀ᵐ w ∂(μ i), ∃ (rfuel fuel : ℕ) (rs : List (EventRecord ℝ ec.nsteps.toNat)), (Collider.make o sigma).runEvents rfuel fuel ec debug ev w = .ok rs := by
  have := h.prob
  set c := Collider.make o sigma with hc
  -- a run of one event
  have one : ∀ᵐ w ∂(μ i), w ∈ ⋃ m : ℕ, Event1 m m c ec debug ev univ := by
    filter_upwards [C94_collision h o sigma o.projectileA o.projectileB hA.hist hB.hist hA.configs hB.configs nA nB hv hm hσ h0 hb i] with w hw
    obtain ⟨r, f, t, ht⟩ := hw
    refine mem_iUnion.mpr ⟨max r f, ?_⟩
    have ht' : c.sampleCollision (max r f) (max r f) o.projectileA o.projectileB w = .ok t := by
      have := collisionLoop_settles c r (max r f) (le_max_left _ _) f (max r f) (le_max_right _ _) o.projectileA o.projectileB 0 false w (by
        show c.sampleCollision r f o.projectileA o.projectileB w ≠ _
        rw [ht]; simp)
      exact this.trans ht
    have safe := runEvents_safe hK { o with numberEvents := 1 } sigma (rA := rA) (rB := rB) hA hB hv hm h0 hmin hstep hmax hmod debug (max r f) (max r f) ec hec ev w
    obtain ⟨⟨b, ncoll, A', B'⟩, w'⟩ := t
    have hst := eventStep_eq (max r f) (max r f) c ec debug ev o.projectileA o.projectileB hA.hist hB.hist w
    have hone := oneEvent_run (max r f) (max r f) c ec debug ev (hA.hist : NucleusHistory E D c.nucleusA) (hB.hist : NucleusHistory E D c.nucleusB) w
    change _ = (eventStep (max r f) (max r f) c ec debug ev o.projectileA o.projectileB w).map _ at hone
    simp only [ht'] at hst
    cases hev : ev.compute ec c.nc debug A'.nucleons B'.nucleons with
    | ok ev' =>
      simp only [hev] at hst
      rw [hst] at hone
      cases hr : (oneEvent c).runEvents (max r f) (max r f) ec debug ev w with
      | error e => rw [hr] at hone; cases hone
      | ok rs =>
        rw [hr] at hone
        simp only [Except.map, Except.ok.injEq] at hone
        obtain ⟨r0, rfl⟩ := List.length_eq_one_iff.mp (by simpa using congrArg List.length hone : rs.length = 1)
        exact ⟨r0, hr, mem_univ _⟩
    | error e =>
      exfalso
      simp only [hev] at hst
      rw [hst] at hone
      have hrun : (oneEvent c).runEvents (max r f) (max r f) ec debug ev w = .error e := by
        cases hr : (oneEvent c).runEvents (max r f) (max r f) ec debug ev w with
        | error e' => rw [hr] at hone; simp only [Except.map, Except.error.injEq] at hone; rw [hone]
        | ok rs => rw [hr] at hone; cases hone
      have hne : e ≠ .fuel := fun he => compute_not_fuel ec c.nc debug ev A'.nucleons B'.nucleons (by rw [hev, he])
      rcases safe with ⟨rs, hs⟩ | hs
      · have : (.error e : Res (List (EventRecord ℝ ec.nsteps.toNat))) = .ok rs := hrun.symm.trans hs
        cases this
      · have : (.error e : Res (List (EventRecord ℝ ec.nsteps.toNat))) = .error .fuel := hrun.symm.trans hs
        injection this with this
        exact hne this
  have lim : Tendsto (fun m : ℕ => (μ i) (Event1 m m c ec debug ev univ)) atTop (𝓝 1) := by
    have := tendsto_measure_iUnion_atTop (μ := μ i) (event1_mono c ec debug ev)
    have e1 : (μ i) (⋃ m : ℕ, Event1 m m c ec debug ev univ) = (μ i) univ := measure_congr (eventuallyEq_univ.2 one)
    rwa [e1, measure_univ] at this
  have limN := ENNReal.Tendsto.pow (n := c.nevents.toNat) lim
  rw [one_pow] at limN
  -- a run of all events
  set S : Set (Rand E D) := {w | ∃ (rfuel fuel : ℕ) (rs : List (EventRecord ℝ ec.nsteps.toNat)), c.runEvents rfuel fuel ec debug ev w = .ok rs} with hS
  have hall : ∀ m : ℕ, (μ i) (Event1 m m c ec debug ev univ) ^ c.nevents.toNat ≤ (μ i) S := by
    intro m
    have e := C92_independent h m m c ec debug ev hA.hist hB.hist (fun _ => univ) (fun _ => MeasurableSet.univ) i i
    simp only [mem_univ, implies_true, and_true, Finset.prod_const, Finset.card_range] at e
    rw [← e]
    exact measure_mono fun w ⟨rs, hrs⟩ => ⟨m, m, rs, hrs⟩
  have hone : 1 ≤ (μ i) S := le_of_tendsto' limN hall
  have hmeas : MeasurableSet S := by
    have : S = ⋃ r : ℕ, ⋃ f : ℕ, {w : Rand E D | ∃ rs, c.runEvents r f ec debug ev w = .ok rs ∧ rs.map observed ∈ (univ : Set (List (Observed ec.nsteps.toNat)))} := by
      ext w; simp [hS]
    rw [this]
    refine MeasurableSet.iUnion fun r => MeasurableSet.iUnion fun f => ?_
    have hm := ifOk_meas1 ((renews_eventStep h r f c ec debug ev c.nucleusA c.nucleusB).iter c.nevents.toNat) (measurable_const (a := (1:ℝ≥0∞)))
    have e1 : {w : Rand E D | ∃ rs, c.runEvents r f ec debug ev w = .ok rs ∧ rs.map observed ∈ (univ : Set (List (Observed ec.nsteps.toNat)))} =
        (fun w => ifOk (iter (eventStep r f c ec debug ev c.nucleusA c.nucleusB) c.nevents.toNat w) (fun _ => (1:ℝ≥0∞))) ⁻¹' {1} := by
      ext w
      have h1 := runEvents_iter r f c ec debug ev hA.hist hB.hist w
      simp only [mem_ofPred_eq, mem_univ, and_true, mem_preimage, mem_singleton_iff]
      cases h3 : iter (eventStep r f c ec debug ev c.nucleusA c.nucleusB) c.nevents.toNat w with
      | error e =>
        rw [h3] at h1
        constructor
        · rintro ⟨rs, hrs⟩
          rw [hrs] at h1; cases h1
        · intro h0; simp [ifOk] at h0
      | ok t =>
        rw [h3] at h1
        refine ⟨fun _ => rfl, fun _ => ?_⟩
        generalize c.runEvents r f ec debug ev w = x at h1 ⊢
        cases x with
        | error e => cases h1
        | ok rs => exact ⟨rs, rfl⟩
    rw [e1]
    exact hm (measurableSet_singleton 1)
  exact (prob_compl_eq_zero_iff hmeas).2 (le_antisymm prob_le_one hone)

/-- **C94, the whole run.** As `C94_events`, for the run made from the options, grid and seed included.  (`hq`: the law of the random state when the events start, after the distributions
are constructed and, if a seed is given, the engine is seeded, is one of the ideal laws.) -/
theorem C94_run [LawfulRng E D] (h : FreshSource E D μ) {K : ℝ} (hK : NormalBounded E D K) (o : Options ℝ) (sigma : ℝ) {rA rB : ℝ}
    (hA : Usable E D o.projectileA rA) (hB : Usable E D o.projectileB rB) (nA : o.projectileA.nucleons ≠ []) (nB : o.projectileB.nucleons ≠ [])
    (hv : 0 < o.constitWidth) (hm : 1 ≤ o.constitNumber) (hσ : 0 < sigma)
    (h0 : 0 ≤ o.bMin) (hmin : o.bMin ≤ (Collider.make o sigma).bmax) (hb : o.bMin < 6 * o.nucleonWidth)
    (hstep : 0 < o.gridStep) (hmax : 0 < o.gridMax) (hfit : 2 * o.gridMax / o.gridStep ≤ 2147483647)
    (hmod : (max rA rB + (Collider.make o sigma).bmax +
      2 * (K * calcSamplingWidth o.nucleonWidth o.constitWidth o.constitNumber) +
      5 * o.constitWidth + (o.gridMax + o.gridStep)) / o.gridStep < 2147483648)
    (debug : Bool) (ev0 : (n : ℕ) → Event ℝ n) (ν : Measure (Rand E D)) (i : I) (hq : Measure.QuasiMeasurePreserving (seedRand ℝ o.randomSeed) ν (μ i)) :
    ∀ᵐ w ∂ν, ∃ (rfuel fuel : ℕ) (res : (n : ℕ) × List (EventRecord ℝ n)), runAll rfuel fuel o sigma debug ev0 w = .ok res := by
  obtain ⟨ec, hec⟩ := C20_grid_exists o.normalization o.gridStep o.gridMax o.reducedThickness hstep hmax.le hfit
  filter_upwards [hq.ae (C94_events h hK o sigma hA hB nA nB hv hm hσ h0 hmin hb hstep hmax hmod debug ec hec (ev0 ec.nsteps.toNat) i)] with w hw
  obtain ⟨r, f, rs, hrs⟩ := hw
  refine ⟨r, f, ⟨_, rs⟩, ?_⟩
  unfold runAll
  simp only [hec, hrs]

omit [MeasurableSpace E] [MeasurableSpace D] in
/-- The projectiles of the table have nucleons and, except for the deuteron, a finite extent. -/
theorem C94_species [LawfulRng E D] {hdf5 : Bool} {disk : String → H5View ℝ} {species : String} {dmin : ℝ} (hs : species ∈ speciesTable.map Prod.fst)
    {nuc : Nucleus ℝ} (hc : createNucleus hdf5 disk species dmin = .ok nuc) :
    NucleusHistory E D nuc ∧ HasConfigs nuc.kind ∧ nuc.nucleons ≠ [] ∧ (species ≠ "d" → ∃ r, Usable E D nuc r) := by
  have hh : NucleusHistory E D nuc := .create hdf5 disk species dmin nuc hc
  have hcf : HasConfigs nuc.kind ∧ nuc.nucleons ≠ [] := by
    simp only [speciesTable, List.map_cons, List.map_nil, List.mem_cons, List.not_mem_nil, or_false] at hs
    rcases hs with rfl | rfl | rfl | rfl | rfl | rfl | rfl | rfl | rfl | rfl | rfl | rfl <;>
      (injection hc with hc; subst hc; exact ⟨trivial, List.cons_ne_nil _ _⟩)
  refine ⟨hh, hcf.1, hcf.2, fun hd => ?_⟩
  obtain ⟨r, hr⟩ := C62_reach_of_species (E := E) (D := D) hc hd
  exact ⟨r, hh, hcf.1, hr⟩

/-! ### Examples -/

theorem tape_normalBounded : NormalBounded Tape Unit 1 := by
  intro s d e hs
  show |0 + s * (2 * e.val 0 - 1)| ≤ 1 * s
  have := e.mem 0
  rw [zero_add, one_mul, abs_mul, abs_of_nonneg hs]
  have : |2 * e.val 0 - 1| ≤ 1 := by rw [abs_le]; constructor <;> linarith
  nlinarith

/-- The hypotheses of C94 are met: two protons, independent uniform numbers. -/
theorem example_terminates (ev0 : (n : ℕ) → Event ℝ n) : ∀ᵐ w ∂(freshTape ()), ∃ (rfuel fuel : ℕ) (res : (n : ℕ) × List (EventRecord ℝ n)),
    runAll rfuel fuel exampleOptions 100 true ev0 w = .ok res := by
  have hh : NucleusHistory Tape Unit (mkProton : Nucleus ℝ) := .create false (fun _ => .missing) "p" 0 _ rfl
  have hu : Usable Tape Unit (mkProton : Nucleus ℝ) 0 := ⟨hh, trivial, reach_proton⟩
  have hbm : (Collider.make exampleOptions 100).bmax = 1 := by
    rw [(C35_bmax exampleOptions (by norm_num [exampleOptions]) 100).1 (by norm_num [exampleOptions])]; rfl
  have hsw : calcSamplingWidth exampleOptions.nucleonWidth exampleOptions.constitWidth exampleOptions.constitNumber = 0 :=
    C09_sampling_width_zero _ _ 1 (.inl rfl)
  have hseed : (seedRand ℝ exampleOptions.randomSeed : Rand Tape Unit → Rand Tape Unit) = id := by
    funext w
    unfold seedRand
    rw [if_neg (by decide)]
    rfl
  refine C94_run freshTape_fresh tape_normalBounded exampleOptions 100 (rA := 0) (rB := 0) hu hu (List.cons_ne_nil _ _) (List.cons_ne_nil _ _) (by norm_num [exampleOptions])
    (by norm_num [exampleOptions]) (by norm_num) (by norm_num [exampleOptions]) (by rw [hbm]; norm_num [exampleOptions]) (by norm_num [exampleOptions])
    (by norm_num [exampleOptions]) (by norm_num [exampleOptions]) (by norm_num [exampleOptions])
    (by rw [hbm, hsw]; norm_num [exampleOptions]) true ev0 _ () ?_
  rw [hseed]
  exact Measure.QuasiMeasurePreserving.id _

/-- Lead on deuteron: a collision is found. -/
example (A B : Nucleus ℝ) (hA : createNucleus false (fun _ => .missing) "Pb" 1 = .ok A) (hB : createNucleus false (fun _ => .missing) "d" 0 = .ok B) :
    ∀ᵐ w ∂(freshTape ()), ∃ (rfuel n : ℕ) (t : (ℝ × ℕ × Nucleus ℝ × Nucleus ℝ) × Rand Tape Unit),
      (Collider.make { exampleOptions with projectileA := A, projectileB := B } 100).sampleCollision rfuel n A B w = .ok t := by
  obtain ⟨h1, h2, h3, -⟩ := C94_species (E := Tape) (D := Unit) (by simp [speciesTable]) hA
  obtain ⟨g1, g2, g3, -⟩ := C94_species (E := Tape) (D := Unit) (by simp [speciesTable]) hB
  exact C94_collision freshTape_fresh _ 100 A B h1 g1 h2 g2 h3 g3 (by norm_num [exampleOptions]) (by norm_num [exampleOptions]) (by norm_num) (by norm_num [exampleOptions])
    (by norm_num [exampleOptions]) ()

/-- The hypotheses of C92 are met; by C94 the factors are not trivial: with enough attempts the probability that an event is computed is as close to one as wanted. -/
noncomputable example (ec : EventCfg ℝ) (n : ℕ) (ev : Event ℝ n) (S : ℕ → Set (Observed n)) (hS : ∀ l, MeasurableSet (S l)) :
    (freshTape ()) {w | ∃ rs, (Collider.make exampleOptions 100).runEvents 1 5 ec true ev w = .ok rs ∧ ∀ r ∈ rs, observed r ∈ S r.num} =
      (freshTape ()) (Event1 1 5 (Collider.make exampleOptions 100) ec true ev (S 0)) * (freshTape ()) (Event1 1 5 (Collider.make exampleOptions 100) ec true ev (S 1)) := by
  have hh : NucleusHistory Tape Unit (mkProton : Nucleus ℝ) := .create false (fun _ => .missing) "p" 0 _ rfl
  rw [C92_independent freshTape_fresh 1 5 (Collider.make exampleOptions 100) ec true ev hh hh S hS () ()]
  have : (Collider.make exampleOptions 100).nevents.toNat = 2 := rfl
  rw [this, Finset.prod_range_succ, Finset.prod_range_one]

/-- The hypotheses of C93 are met: the impact parameter (or any other bounded quantity) in collisions of two protons, events found in the first attempt allowed with positive probability. -/
theorem example_mass (ec : EventCfg ℝ) (hec : EventCfg.make exampleOptions.normalization exampleOptions.gridStep exampleOptions.gridMax exampleOptions.reducedThickness = .ok ec)
    (ev : Event ℝ ec.nsteps.toNat) : ∃ m, eventLaw (freshTape ()) m m (Collider.make exampleOptions 100) ec true ev univ ≠ 0 := by
  have hh : NucleusHistory Tape Unit (mkProton : Nucleus ℝ) := .create false (fun _ => .missing) "p" 0 _ rfl
  by_contra hcon
  push Not at hcon
  have := freshTape_fresh.prob ()
  have e0 : ∀ m, (freshTape ()) (Event1 m m (Collider.make exampleOptions 100) ec true ev univ) = 0 := fun m => by
    rw [← C92_law freshTape_fresh m m (Collider.make exampleOptions 100) ec true ev hh hh univ MeasurableSet.univ ()]; exact hcon m
  have hbm : (Collider.make exampleOptions 100).bmax = 1 := by
    rw [(C35_bmax exampleOptions (by norm_num [exampleOptions]) 100).1 (by norm_num [exampleOptions])]; rfl
  have hsw : calcSamplingWidth exampleOptions.nucleonWidth exampleOptions.constitWidth exampleOptions.constitNumber = 0 :=
    C09_sampling_width_zero _ _ 1 (.inl rfl)
  have hu : Usable Tape Unit (mkProton : Nucleus ℝ) 0 := ⟨hh, trivial, reach_proton⟩
  have h1 := C94_events freshTape_fresh tape_normalBounded { exampleOptions with numberEvents := 1 } 100 (rA := 0) (rB := 0) hu hu (List.cons_ne_nil _ _) (List.cons_ne_nil _ _)
    (by norm_num [exampleOptions]) (by norm_num [exampleOptions]) (by norm_num) (by norm_num [exampleOptions])
    (by show _ ≤ (Collider.make exampleOptions 100).bmax; rw [hbm]; norm_num [exampleOptions]) (by norm_num [exampleOptions])
    (by norm_num [exampleOptions]) (by norm_num [exampleOptions])
    (by
      show (max 0 0 + (Collider.make exampleOptions 100).bmax +
        2 * (1 * calcSamplingWidth exampleOptions.nucleonWidth exampleOptions.constitWidth exampleOptions.constitNumber) +
        5 * exampleOptions.constitWidth + (exampleOptions.gridMax + exampleOptions.gridStep)) / exampleOptions.gridStep < 2147483648
      rw [hbm, hsw]; norm_num [exampleOptions]) true ec hec ev ()
  have h2 : ∀ᵐ w ∂(freshTape ()), w ∈ ⋃ m : ℕ, Event1 m m (Collider.make exampleOptions 100) ec true ev univ := by
    filter_upwards [h1] with w hw
    obtain ⟨r, f, rs, hrs⟩ := hw
    refine mem_iUnion.mpr ⟨max r f, ?_⟩
    have hl : rs.length = 1 := by
      have := congrArg List.length (runEvents_num (c := oneEvent (Collider.make exampleOptions 100)) hh hh hrs)
      rw [List.length_map, List.length_range] at this
      exact this
    obtain ⟨r0, rfl⟩ := List.length_eq_one_iff.mp hl
    refine ⟨r0, ?_, mem_univ _⟩
    replace hrs : (oneEvent (Collider.make exampleOptions 100)).runEvents r f ec true ev w = .ok [r0] := hrs
    unfold Collider.runEvents at hrs ⊢
    rw [runLoop_settles (oneEvent (Collider.make exampleOptions 100)) ec true r _ (le_max_left _ _) f _ (le_max_right _ _)]
    · exact hrs
    · intro hc
      rw [hc] at hrs; cases hrs
  have h3 : (freshTape ()) (⋃ m : ℕ, Event1 m m (Collider.make exampleOptions 100) ec true ev univ) = 0 := measure_iUnion_null e0
  have h4 : (freshTape ()) (⋃ m : ℕ, Event1 m m (Collider.make exampleOptions 100) ec true ev univ) = (freshTape ()) univ := measure_congr (eventuallyEq_univ.2 h2)
  rw [h4, measure_univ] at h3
  exact one_ne_zero h3

open ProbabilityTheory in
noncomputable example (ec : EventCfg ℝ) (hec : EventCfg.make exampleOptions.normalization exampleOptions.gridStep exampleOptions.gridMax exampleOptions.reducedThickness = .ok ec)
    (ev : Event ℝ ec.nsteps.toNat) (ε : ℝ) (hε : 0 < ε) (f : Observed ec.nsteps.toNat → ℝ) (hf : Measurable f) (C : ℝ) (hC : ∀ x, |f x| ≤ C) :
    ∃ (m : ℕ) (ρ : Measure (Observed ec.nsteps.toNat)), ρ univ ≠ 0 ∧
    (freshTape ()) {w | ∃ rs, (Collider.make exampleOptions 100).runEvents m m ec true ev w = .ok rs ∧
        ε ≤ |(rs.map fun r => f (observed r)).sum / (Collider.make exampleOptions 100).nevents - ∫ x, f x ∂(ρ[|univ])|} ≤
      (freshTape ()) {w | ∃ rs, (Collider.make exampleOptions 100).runEvents m m ec true ev w = .ok rs} *
        ENNReal.ofReal (Var[f; ρ[|univ]] / ((Collider.make exampleOptions 100).nevents * ε ^ 2)) := by
  have hh : NucleusHistory Tape Unit (mkProton : Nucleus ℝ) := .create false (fun _ => .missing) "p" 0 _ rfl
  obtain ⟨m, hm⟩ := example_mass ec hec ev
  refine ⟨m, _, hm, C93_standard_error freshTape_fresh m m (Collider.make exampleOptions 100) ec true ev hh hh (by show (0:ℤ) < 2; norm_num) f hf _ () rfl hm ?_ ε hε ()⟩
  have := freshTape_fresh.prob ()
  have : IsFiniteMeasure (eventLaw (freshTape ()) m m (Collider.make exampleOptions 100) ec true ev) := by unfold eventLaw; infer_instance
  have : IsProbabilityMeasure ((eventLaw (freshTape ()) m m (Collider.make exampleOptions 100) ec true ev)[|univ]) := cond_isProbabilityMeasure hm
  exact MemLp.of_bound hf.aestronglyMeasurable C (ae_of_all _ hC)

end Trento
