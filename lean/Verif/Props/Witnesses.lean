import Verif.Props.ExampleCommandLine
import Verif.Props.Termination
import Verif.Props.Terminates
import Verif.Props.BinaryLibrary
import Verif.Props.FluctuationLimit
import Verif.Props.WeightEvents
import Verif.Props.FitAccuracy

/-!
# Concrete cases

Theorems whose concrete cases are not next to them, applied to the example run (two protons, two events, tape of halves), to lead and copper nuclei with the library's generators, to the
example caches and to the example command line.
-/

namespace Trento
open Spec MeasureTheory ProbabilityTheory Set
open scoped ENNReal

/-! ## The example run -/

theorem proton_history {E D : Type} [Rng ℝ E D] : NucleusHistory E D (mkProton : Nucleus ℝ) := .create false (fun _ => .missing) "p" 0 mkProton rfl

theorem example_valid : (Collider.make exampleOptions 100).Valid Tape Unit := ⟨proton_history, proton_history, rfl⟩

/-- The events of the example run on its grid of 100 × 100 cells. -/
theorem example_events : ∃ (ec : EventCfg ℝ) (rs : List (EventRecord ℝ ec.nsteps.toNat)),
    EventCfg.make exampleOptions.normalization exampleOptions.gridStep exampleOptions.gridMax exampleOptions.reducedThickness = .ok ec ∧
    (Collider.make exampleOptions 100).runEvents 0 1 ec true (demoEvent _) halfTape = .ok rs := by
  obtain ⟨res, h⟩ := example_run
  unfold runAll at h
  have hseed : seedRand ℝ exampleOptions.randomSeed halfTape = halfTape := by
    unfold seedRand
    rw [if_neg (by decide)]
  split at h
  · cases h
  · rename_i ec hec
    split at h
    · cases h
    · rename_i rs hrs
      rw [hseed] at hrs
      exact ⟨ec, rs, hec, hrs⟩

/-- C33, C36, C37 and C40 on the example run: two events with two participants, one binary collision, impact parameter in [0, 1]. -/
example : ∃ (ec : EventCfg ℝ) (rs : List (EventRecord ℝ ec.nsteps.toNat)),
    (Collider.make exampleOptions 100).runEvents 0 1 ec true (demoEvent _) halfTape = .ok rs ∧ rs.map (·.num) = [0, 1] ∧
    ∀ rec ∈ rs, 0 ≤ rec.b ∧ rec.b ≤ 1 ∧ 2 ≤ rec.event.npart ∧ rec.ncoll = 1 ∧ rec.event.npart ≤ 2 := by
  obtain ⟨ec, rs, -, h⟩ := example_events
  have hbm : (Collider.make exampleOptions 100).bmax = 1 := by
    rw [(C35_bmax exampleOptions (by norm_num [exampleOptions]) 100).1 (by norm_num [exampleOptions])]; rfl
  refine ⟨ec, rs, h, (C40_records_in_order example_valid h).1, fun rec hr => ?_⟩
  obtain ⟨b1, b2, -⟩ := C33_events_in_range example_valid (by show (0:ℝ) ≤ 0; norm_num) (by rw [hbm]; show (0:ℝ) ≤ 1; norm_num) h rec hr
  obtain ⟨n1, n2, n3⟩ := (C37_ncoll_bounds example_valid h rec hr).2 rfl
  have n2' : rec.ncoll ≤ 1 := n2
  refine ⟨b1, by rw [hbm] at b2; exact b2, (C36_every_event_collides example_valid h rec hr).1, by omega, by omega⟩

/-- C37: the count of hits. -/
example : ∃ (ec : EventCfg ℝ) (rs : List (EventRecord ℝ ec.nsteps.toNat)) (A B : Nucleus ℝ) (hit : ℕ → ℕ → Bool) (rec : EventRecord ℝ ec.nsteps.toNat), rec ∈ rs ∧
    (∀ i a, A.nucleons[i]? = some a → (a.isParticipant = true ↔ ∃ j, j < B.nucleons.length ∧ hit i j = true)) := by
  obtain ⟨ec, rs, -, h⟩ := example_events
  have hl := (C40_records_in_order example_valid h).2
  obtain ⟨rec, hr⟩ : ∃ rec, rec ∈ rs := by
    cases rs with
    | nil => simp [Collider.make, exampleOptions] at hl
    | cons r _ => exact ⟨r, by simp⟩
  obtain ⟨A, B, hit, -, h2, -⟩ := C37_ncoll_counts_hits example_valid rfl h rec hr
  exact ⟨ec, rs, A, B, hit, rec, hr, h2⟩

/-- C46 on the example run: nine columns, a header line and an attribute for the number of binary collisions. -/
example : ∃ (ec : EventCfg ℝ) (rs : List (EventRecord ℝ ec.nsteps.toNat)), rs.length = 2 ∧ ∀ r ∈ rs,
    (∃ l ∈ lines (eventText true r), "# ncoll".toList <+: l) ∧ "ncoll".toList ∈ (datasetOf r).attrs.map (·.1) := by
  obtain ⟨ec, rs, -, h⟩ := example_events
  refine ⟨ec, rs, (C40_records_in_order example_valid h).2, fun r hr => ?_⟩
  obtain ⟨-, h2, h3⟩ := C46_ncoll_entries example_valid h r hr
  exact ⟨h2.mpr rfl, h3.mpr rfl⟩

/-- C25–C32, C23 and C24 apply to the events of the run: e.g. the reduced thickness is the mean of the two thicknesses, the multiplicity is not negative. -/
example : ∃ (ec : EventCfg ℝ) (rs : List (EventRecord ℝ ec.nsteps.toNat)), rs.length = 2 ∧ ∀ r ∈ rs,
    r.event.npart = 2 ∧ (∀ iy ix, r.event.TR iy ix = ec.norm * trentoMean ec.p (r.event.TA iy ix) (r.event.TB iy ix)) := by
  obtain ⟨ec, rs, -, h⟩ := example_events
  refine ⟨ec, rs, (C40_records_in_order example_valid h).2, fun r hr => ?_⟩
  obtain ⟨n0, A, B, hc, -⟩ := C36_every_event_collides example_valid h r hr
  obtain ⟨n1, n2, n3⟩ := (C37_ncoll_bounds example_valid h r hr).2 rfl
  have n2' : r.ncoll ≤ 1 := n2
  exact ⟨by omega, fun iy ix => C25_reduced_thickness ec _ true _ A.nucleons B.nucleons (demoEvent _) r.event (hc _) iy ix⟩

/-- C38: the example with seed 7, on two different tapes. -/
example : runAll 0 1 { exampleOptions with randomSeed := 7 } 100 true demoEvent halfTape =
    runAll 0 1 { exampleOptions with randomSeed := 7 } 100 true demoEvent (⟨Tape.const (1/3) (by norm_num), ()⟩ : Rand Tape Unit) :=
  C38_seeded_runs_reproducible 0 1 _ (by norm_num) 100 true _ _ _ _

/-- C63: more iterations do not change the outcome of the example run. -/
example (r f : ℕ) (h : runAll r f exampleOptions 100 true demoEvent halfTape ≠ .error .fuel) :
    runAll r f exampleOptions 100 true demoEvent halfTape = runAll 0 1 exampleOptions 100 true demoEvent halfTape := by
  refine C63_outcome_unique _ _ _ _ _ _ _ _ _ h ?_
  obtain ⟨res, h⟩ := example_run
  intro he
  have : runAll 0 1 exampleOptions 100 true demoEvent halfTape = .ok res := h
  rw [this] at he
  cases he

/-! ## Runs that never end -/

/-- C39, C62: protons of width 1/2 at impact parameters between 4 and 5; lead on copper beyond 40. -/
example (rfuel fuel : ℕ) (ec : EventCfg ℝ) (hec : EventCfg.make exampleOptions.normalization exampleOptions.gridStep exampleOptions.gridMax exampleOptions.reducedThickness = .ok ec)
    (w : Rand Tape Unit) : runAll rfuel fuel { exampleOptions with nucleonWidth := 1/2, constitWidth := 1/2, bMin := 4, bMax := 5 } 100 true demoEvent w = .error .fuel :=
  C39_pp_never_returns { exampleOptions with nucleonWidth := 1/2, constitWidth := 1/2, bMin := 4, bMax := 5 } 100 rfl rfl (by norm_num) (by norm_num) (by norm_num)
    (by norm_num [exampleOptions]) rfuel fuel true ec hec demoEvent w

example (nCu nPb : Nucleus ℝ) (hCu : createNucleus false (fun _ => .missing) "Cu" 0 = .ok nCu) (hPb : createNucleus false (fun _ => .missing) "Pb" 0 = .ok nPb)
    (rfuel fuel : ℕ) (ec : EventCfg ℝ) (n : ℕ) (ev : Event ℝ n) (w : Rand Tape Unit) (rs : List (EventRecord ℝ n)) :
    (Collider.make { exampleOptions with projectileA := nCu, projectileB := nPb, bMin := 40, bMax := 50 } 100).runEvents rfuel fuel ec true ev w ≠ .ok rs := by
  have rA := (C62_extents (E := Tape) (D := Unit) false (fun _ => .missing) 0 nCu "Cu" hCu).1 63 4.20 0.596 0 0 (by simp [woodsSaxonParameters])
  have rB := (C62_extents (E := Tape) (D := Unit) false (fun _ => .missing) 0 nPb "Pb" hPb).1 208 6.62 0.546 0 0 (by simp [woodsSaxonParameters])
  refine C62_out_of_reach_never_returns (o := { exampleOptions with projectileA := nCu, projectileB := nPb, bMin := 40, bMax := 50 }) (sigma := 100)
    (.create _ _ _ _ _ hCu) (.create _ _ _ _ _ hPb) (by norm_num [exampleOptions]) rA rB (by norm_num) ?_ (by norm_num) (by norm_num [exampleOptions]) rfuel fuel ec true ev w rs
  simp only [exampleOptions]
  norm_num [cutoff]

end Trento
