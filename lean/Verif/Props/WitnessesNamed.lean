import Verif.Props.Witnesses
import Verif.Props.WitnessesLaws
import Verif.Props.RoundedExample

/-!
# More concrete cases

Single theorems about nucleons, nuclei, impact parameters, grids and output, each with its hypotheses met by numbers.
-/

namespace Trento
open Spec Set

/-! ## Nucleons -/

/-- Two nucleons with three constituents, the second with different weights. -/
noncomputable def exNucleon (x y : ℝ) : NucleonData ℝ := ⟨x, y, 0, true, true, [⟨x + 0.3, y, 1.5⟩, ⟨x - 0.2, y + 0.1, 0.2⟩, ⟨x - 0.1, y - 0.1, 0⟩]⟩

theorem exNucleon_weights (x y : ℝ) : ∀ c ∈ (exNucleon x y).constituents, 0 ≤ c.fluctuation := by
  intro c hc
  simp only [exNucleon, List.mem_cons, List.not_mem_nil, or_false] at hc
  rcases hc with rfl | rfl | rfl <;> norm_num

/-- C03 -/
example : ∃ t, (NucleonCommon.make (0.8:ℝ) 0.4 3 10 true 2).thickness false (exNucleon 1 2) 1.1 2.2 = .ok t ∧ t ≤ idealThickness 0.4 3 (exNucleon 1 2).constituents 1.1 2.2 := by
  obtain ⟨t, h, -, h2, -⟩ := C03_thickness 0.8 0.4 3 10 true 2 (by norm_num) false (exNucleon 1 2) (exNucleon_weights 1 2) 1.1 2.2
  exact ⟨t, h, h2⟩

/-- C04 -/
example : ∃ b, (NucleonCommon.make (0.8:ℝ) 0.4 3 10 true 2).boundary (exNucleon 1 2) = .ok b ∧
    ∀ y, (NucleonCommon.make (0.8:ℝ) 0.4 3 10 true 2).thickness true (exNucleon 1 2) b.xmax y = .ok 0 := by
  obtain ⟨b, hb, -⟩ := C04_boundary (0.8:ℝ) 0.4 3 10 true 2 (by norm_num) (exNucleon 1 2) (by simp [exNucleon])
  exact ⟨b, hb, fun y => C04_thickness_zero_outside 0.8 0.4 3 10 true 2 (by norm_num) true (exNucleon 1 2) (exNucleon_weights 1 2) b hb b.xmax y (.inr (.inl le_rfl))⟩

/-- C06: fresh nucleons 8 fm apart, of width 1/2. -/
example (r : Rand Tape Unit) : (NucleonCommon.make (0.5:ℝ) 0.5 1 10 false 1).participate (newNucleon 0 0) (newNucleon 8 0) r = ((false, newNucleon 0 0, newNucleon 8 0), r) :=
  C06_out_of_range 0.5 0.5 1 10 false 1 (by norm_num) _ _ (by simp [newNucleon]) (by
    rw [Real.lt_sqrt (by norm_num)]; simp only [newNucleon]; norm_num) r

/-- C06 with the counting of binary collisions, for nucleons that have already participated. -/
example (r : Rand Tape Unit) : (NucleonCommon.make (0.8:ℝ) 0.4 3 10 true 2).participate (exNucleon 0 0) (exNucleon 8 0) r = ((false, exNucleon 0 0, exNucleon 8 0), r) :=
  C06_out_of_range_ncoll 0.8 0.4 3 10 2 (by norm_num) _ _ (by
    rw [Real.lt_sqrt (by norm_num)]; simp only [exNucleon]; norm_num) r

/-- C07: the probability of two nucleons with three constituents each lies strictly between 0 and 1. -/
example : MeasureTheory.volume {u : ℝ | (0 ≤ u ∧ u < 1) ∧ Real.exp (-10 * overlapTAB 0.4 3 (exNucleon 0 0).constituents (exNucleon 1 0).constituents) < u} < 1 := by
  obtain ⟨h1, -, h2⟩ := C07_probability 0.4 3 10 (by norm_num) (exNucleon 0 0).constituents (exNucleon 1 0).constituents
  rw [h1]
  exact ENNReal.ofReal_lt_one.mpr h2

/-- C08: sampled once. -/
example (B : NucleonData ℝ) (w : Rand Tape Unit) :
    ((NucleonCommon.make (0.8:ℝ) 0.4 3 10 true 2).participate (exNucleon 0 0) B w).1.2.1.constituents = (exNucleon 0 0).constituents :=
  (C08_sampled_once (NucleonCommon.make (0.8:ℝ) 0.4 3 10 true 2) (exNucleon 0 0) B w rfl).1

/-- C36, C35: in range at 4 fm but not at 5 fm for width 0.8. -/
example : InRange (NucleonCommon.make (0.8:ℝ) 0.4 3 10 true 2) (exNucleon 0 0) (exNucleon 4 0) ∧ ¬ InRange (NucleonCommon.make (0.8:ℝ) 0.4 3 10 true 2) (exNucleon 0 0) (exNucleon 5 0) := by
  rw [C36_inRange_iff _ _ _ _ _ _ (by norm_num), C36_inRange_iff _ _ _ _ _ _ (by norm_num), Real.sqrt_le_iff, Real.sqrt_le_iff]
  simp only [exNucleon]
  norm_num

/-! ## Impact parameters and positions -/

/-- C33: half of the draws at impact parameters in [0, 2] lie below √2. -/
example : (MeasureTheory.volume {u : ℝ | u ∈ Ico 0 1 ∧ impactFormula 0 2 u ≤ Real.sqrt 2}).toReal = 1/2 := by
  have h2 : Real.sqrt 2 ≤ 2 := by rw [Real.sqrt_le_iff]; norm_num
  rw [C33_impact_distribution le_rfl (by norm_num) (Real.sqrt_nonneg 2) h2, Real.sq_sqrt (by norm_num)]
  norm_num

/-- C33: range. -/
example : 1 ≤ impactFormula (1:ℝ) 3 0.7 ∧ impactFormula (1:ℝ) 3 0.7 < 3 := by
  obtain ⟨h1, -, -, h2⟩ := C33_impact_range (bmin := 1) (bmax := 3) (u := 0.7) (by norm_num) (by norm_num) (by norm_num) (by norm_num)
  exact ⟨h1, h2 (by norm_num)⟩

/-- C34: lead on copper at 5 fm, and lead on lead. -/
example : determineAsym exCu exPb * 5 - (determineAsym exCu exPb - lit 1) * 5 = 5 ∧ determineAsym exPb exPb * 5 = 5 / 2 :=
  have cu : 0 ≤ exCu.radius := C34_radius_nonneg (E := Tape) (D := Unit) exCu_history
  have pb : 0 ≤ exPb.radius := C34_radius_nonneg (E := Tape) (D := Unit) exPb_history
  ⟨(C34_offsets exCu exPb cu pb 5 (by norm_num)).1, ((C34_offsets exPb exPb pb pb 5 (by norm_num)).2.2.2.2.2.1 rfl).1⟩

/-- C12: a lead nucleus keeps its 208 nucleons, whatever their coordinates were. -/
example (ns : List (NucleonData ℝ)) (hn : ns.length = 208) (w w' : Rand Tape Unit) (nuc' : Nucleus ℝ)
    (h : ({ kind := exPb.kind, nucleons := ns, offset := exPb.offset } : Nucleus ℝ).sampleNucleons 5 3 w = .ok (nuc', w')) : nuc'.nucleons.length = 208 := by
  have := C12_size_constant (hdf5 := false) (disk := fun _ => H5View.missing) (species := "Pb") (dmin := (0:ℝ)) (nuc := exPb) rfl 5 3 w w' nuc' ns (by rw [hn]; rfl) h
  rw [this]
  rfl

/-- C13 for a lead nucleus at 3 fm: the same positions as without offset, moved. -/
example (w : Rand Tape Unit) : (exPb.sampleNucleons 5 3 w).toBool = (exPb.sampleNucleons 5 0 w).toBool := by
  rw [C13_offset_is_translation exPb exPb_history 5 3 w]
  cases exPb.sampleNucleons 5 0 w <;> rfl

/-- C17: the acceptance of the deuteron at `u = 1/2` with the default parameters. -/
example : 0 ≤ deuteronProb (0.228:ℝ) 1.177 (1/2) (deuteronRadius 0.228 (1/2)) ∧ deuteronProb (0.228:ℝ) 1.177 (1/2) (deuteronRadius 0.228 (1/2)) < 1 :=
  C17_probability_range (by norm_num) (by norm_num) (by norm_num) (by norm_num)

/-- C17: the distances below 2 fm. -/
example (u : ℝ) (h : 0 < u) : -Real.log u / (2 * 0.228) ≤ 2 ↔ Real.exp (-(2 * 0.228 * 2)) ≤ u := C17_radius_le (by norm_num) h

example : (MeasureTheory.volume {v : ℝ | v ∈ Ico 0 1 ∧ Accepted 0.228 1.177 (1/2, v)}).toReal =
    (Real.exp (-0.228 * (-Real.log (1/2) / (2 * 0.228))) - Real.exp (-1.177 * (-Real.log (1/2) / (2 * 0.228)))) ^ 2 / (1/2) :=
  C17_acceptance_measure (by norm_num) (by norm_num) (by norm_num) (by norm_num)

/-! ## Fitted cross section -/

/-- C10: the zero of the program's equation at `x = 3` is the inelastic cross section of `σ = 4 π w² e³`. -/
example : analyticEq analyticC (analyticRhs (inelasticCrossSection 0.5 (4 * Real.pi * 0.5^2 * Real.exp 3)) 0.5) 3 = 0 := (C10_root_iff 0.5 (by norm_num) _ 3).mpr rfl

/-! ## Events -/

/-- C27–C29 on the example run. -/
example : ∃ (ec : EventCfg ℝ) (rs : List (EventRecord ℝ ec.nsteps.toNat)), rs.length = 2 ∧ ∀ r ∈ rs,
    r.event.multiplicity = ec.dxy^2 * gridSum r.event.TR ∧ r.event.ecc.e2 = eccentricity r.event.TR 2 ∧ 0 ≤ r.event.ecc.e3 ∧ r.event.ecc.e3 ≤ 1 := by
  obtain ⟨ec, rs, -, h⟩ := example_events
  refine ⟨ec, rs, (C40_records_in_order example_valid h).2, fun r hr => ?_⟩
  obtain ⟨n0, A, B, hc, -⟩ := C36_every_event_collides example_valid h r hr
  have hcc := hc (demoEvent _)
  obtain ⟨e1, e2⟩ := C29_eccentricity_range ec _ true _ _ _ _ _ hcc r.event.ecc.e3 (by simp)
  exact ⟨C27_multiplicity ec _ true _ _ _ _ _ hcc, (C28_eccentricities ec _ true _ _ _ _ _ hcc).2.2.1, e1, e2⟩

/-- C30: an asymmetric grid and its mirror image. -/
example : comX (Grid.mirrorX (fun iy ix => (iy.1 + 2 * ix.1 : ℝ) : Grid ℝ 3)) = 3 - 1 - comX (fun iy ix => (iy.1 + 2 * ix.1 : ℝ) : Grid ℝ 3) := by
  have h : gridSum (fun iy ix => (iy.1 + 2 * ix.1 : ℝ) : Grid ℝ 3) ≠ 0 := by
    simp [gridSum, Fin.sum_univ_three]; norm_num
  exact ((C30_grid_mirror_x _ (.inl h) 2).2.2 h).1

/-- C32: no overlap. -/
example : (computeObservables (demoEvent 4)).ecc =
    ⟨EccAcc.finish ⟨lit 0, lit 0, lit 0⟩, EccAcc.finish ⟨lit 0, lit 0, lit 0⟩, EccAcc.finish ⟨lit 0, lit 0, lit 0⟩, EccAcc.finish ⟨lit 0, lit 0, lit 0⟩⟩ :=
  C32_no_overlap (demoEvent 4) fun iy ix => by
    simp only [demoEvent, TINY, lit_real, lt]; norm_num

/-! ## Collisions that cannot happen -/

/-- C39: no attempt succeeds beyond six widths. -/
example (w : Rand Tape Unit) : (Collider.make { exampleOptions with nucleonWidth := 1/2, constitWidth := 1/2, bMin := 4, bMax := 5 } 100).sampleCollision 3 7 mkProton mkProton w = .error .fuel :=
  C39_attempt_fails { exampleOptions with nucleonWidth := 1/2, constitWidth := 1/2, bMin := 4, bMax := 5 } 100 (by norm_num) (by norm_num) (by norm_num) 3 7 _ _ proton_history
    proton_history rfl rfl w

/-- C62: lead has a finite reach. -/
example : ∃ r, Reach Tape Unit exPb.kind r := C62_reach_of_species (hdf5 := false) (disk := fun _ => .missing) (species := "Pb") (dmin := 0) rfl (by decide)

/-! ## Output -/

/-- C41: the files of events 9 and 10 out of 1000 sort in this order. -/
example : textFileName (eventWidth 1000) ((9:ℕ):ℤ) < textFileName (eventWidth 1000) ((10:ℕ):ℤ) := (C41_file_names (N := 1000) (by norm_num) (by norm_num)).2.1.mp (by norm_num)

/-- C42: columns merge from 1000 fm on. -/
example : padTo 15 (NumFmt.fmt .fixed 10 (1234.5:ℝ)) = NumFmt.fmt .fixed 10 (1234.5:ℝ) := C42_columns_merge (by norm_num)

/-- C44: an existing file with contents, and a directory with a file in it. -/
example (text : Char) (o : OutOptions) (h : o.output = some "out") :
    ∃ e, outputMake exEnv true 2 o (⟨{}, fun p => if p = ["out"] then some (.file (.text [text])) else none⟩ : World ℝ) = (.error e, ⟨{}, fun p => if p = ["out"] then some (.file (.text [text])) else none⟩) :=
  C44_refuses exEnv true 2 o _ "out" h (.inr ⟨.text [text], by simp [exEnv], by simp⟩)

example (o : OutOptions) (h : o.output = some "out") (W : World ℝ) (hW : W.fs ["out"] = some .dir) (hW' : W.fs ["out", "0.dat"] ≠ none) : ∃ e, outputMake exEnv true 2 o W = (.error e, W) :=
  C44_refuses exEnv true 2 o _ "out" h (.inl ⟨hW, "0.dat", hW'⟩)

/-- C45: an empty file takes the place of the directory, and no event is written. -/
example (o : OutOptions) (h : o.output = some "out") :
    ∃ wrs, outputMake exEnv true 2 o (⟨{}, fun p => if p = ["out"] then some (.file (.text [])) else none⟩ : World ℝ) = (.ok wrs, ⟨{}, fun p => if p = ["out"] then some (.file (.text [])) else none⟩) := by
  obtain ⟨wrs, h, -⟩ := C45_empty_file_swallows exEnv true 2 o (⟨{}, fun p => if p = ["out"] then some (.file (.text [])) else none⟩ : World ℝ) "out" h (by decide) demo_width (by simp [exEnv])
  exact ⟨wrs, h⟩

/-! ## Cache -/

/-- C53: an empty cache file. -/
example (key : CacheKey ℝ) : ∃ s, searchCache key 3 {} { rest := "\n".toList } = .error (.ub s) := C53_empty_file_ub key _ (by decide) 2

/-! ## The program -/

theorem tape_bounded : NormalBounded Tape Unit 1 := by
  intro s d e hs
  show |0 + s * (2 * e.val 0 - 1)| ≤ 1 * s
  have := e.mem 0
  rw [zero_add, one_mul, abs_mul, abs_of_nonneg hs]
  have : |2 * e.val 0 - 1| ≤ 1 := by rw [abs_le]; constructor <;> linarith
  nlinarith

theorem demo_cacheUsable (b : Bool) : CacheUsable exCacheEnv (demoFs b) demoFuel.cache := by
  obtain ⟨d, e1, -, e3, -, t, e4, e5, -⟩ := demo_cache b
  exact ⟨d, e1, .inr ⟨t, [demoRecord], e4, e3, e5, by simp, by simp [demoFuel]⟩⟩

/-- C61: the run of the example configuration, from every state of the generator, with output to a new directory. -/
example (h5view : FS ℝ → String → H5View ℝ) (r : Rand Tape Unit) :
    let _ : Toms748 ℝ := boostToms
    ∃ W' err, mainProg (demoLib (demoExtra (some "out"))) exEnv exCacheEnv demoFuel h5view demoEvent [] (demoWorld false) r = (.status 0, W', []) ∨
      err ≠ [] ∧ mainProg (demoLib (demoExtra (some "out"))) exEnv exCacheEnv demoFuel h5view demoEvent [] (demoWorld false) r = (.status 1, W', err) ∨
      mainProg (demoLib (demoExtra (some "out"))) exEnv exCacheEnv demoFuel h5view demoEvent [] (demoWorld false) r = (.running, W', []) := by
  intro inst
  have := boostToms_safe
  obtain ⟨vm, hc, hp, hd, hm, ho, hoo⟩ := demo_configure (some "out") false
  have hbm : (Collider.make exampleOptions 0).bmax = 1 := by
    rw [(C35_bmax exampleOptions (by norm_num [exampleOptions]) 0).1 (by norm_num [exampleOptions])]; rfl
  have hsw : calcSamplingWidth exampleOptions.nucleonWidth exampleOptions.constitWidth exampleOptions.constitNumber = 0 :=
    C09_sampling_width_zero _ _ 1 (.inl rfl)
  have hu : Usable Tape Unit (mkProton : Nucleus ℝ) 0 := ⟨proton_history, trivial, reach_proton⟩
  obtain ⟨W', err, h⟩ := C61_program tape_bounded (demoLib (demoExtra (some "out"))) exEnv exCacheEnv demoFuel rfl h5view demoEvent [] (demoWorld false) r vm hc
    (demo_cacheUsable false) "p" "p" (lit 0) exampleOptions hp hd rfl rfl ho (rA := 0) (rB := 0) hu hu (by norm_num [exampleOptions]) (by norm_num [exampleOptions]) (by norm_num [exampleOptions])
    (by rw [hbm]; norm_num [exampleOptions]) (by norm_num [exampleOptions]) (by norm_num [exampleOptions]) (by norm_num [exampleOptions]) (by rw [hbm, hsw]; norm_num [exampleOptions])
    (by norm_num [exampleOptions]) (by norm_num [exampleOptions])
  refine ⟨W', err, ?_⟩
  rcases h with h | h | h | ⟨h, path, e, hp, -⟩
  · exact .inl h
  · exact .inr (.inl h)
  · exact .inr (.inr h)
  · rcases hoo.output with ⟨-, h⟩ | ⟨s, h1, h2⟩
    · cases h
    · rw [h1] at e
      cases e
      cases h2
      exact absurd hp (by decide)

/-- C66: a positive seed given on the command line; the result does not depend on the state of the generator. -/
example [Toms748 ℝ] (h5view : FS ℝ → String → H5View ℝ) (vm : VarMap ℝ) (L : Lib ℝ) (W : World ℝ) (hc : configure L exEnv exCacheEnv W.fs [] = .ok (.run vm))
    (h1 : vm.int "random-seed" = .ok 7) (h2 : vm.int "constit-number" = .ok 1) (r r' : Rand Tape Unit) :
    mainProg L exEnv exCacheEnv demoFuel h5view demoEvent [] W r = mainProg L exEnv exCacheEnv demoFuel h5view demoEvent [] W r' := by
  refine C66_seeded_program L exEnv exCacheEnv demoFuel h5view demoEvent [] W r r' fun vm' hc' => ?_
  rw [hc] at hc'
  cases hc'
  exact ⟨7, 1, h1, by norm_num, h2, .inl le_rfl⟩

/-- C57: the widths of the example configuration. -/
example : ∃ vm w v, configure (demoLib []) exEnv exCacheEnv (demoFs false) [] = .ok (.run vm) ∧ vm.dbl "nucleon-width" = .ok w ∧ vm.dbl "constit-width" = .ok v ∧ v ≤ w := by
  obtain ⟨vm, hc, -⟩ := demo_configure none false
  obtain ⟨w, v, m, h1, h2, -, -, h3, -⟩ := C57_validation _ _ _ _ _ vm hc
  exact ⟨vm, w, v, hc, h1, h2, h3⟩

/-- C58: an option nobody knows, from a parser that returns it. -/
example [Toms748 ℝ] (h5view : FS ℝ → String → H5View ℝ) (W : World ℝ) (r : Rand Tape Unit) :
    ∃ err, err ≠ [] ∧ mainProg (demoLib [("bogus", ["1"])]) exEnv exCacheEnv demoFuel h5view demoEvent [] W r = (.status 1, W, err) := by
  refine C58_rejected (demoLib [("bogus", ["1"])]) exEnv exCacheEnv demoFuel h5view demoEvent [] W r ⟨fun _ _ h => (by cases h), fun _ _ h => (by cases h)⟩ fun cmd h ha => ?_
  have h : (Except.ok (demoCmd [("bogus", ["1"])]) : Res _) = .ok cmd := h
  cases h
  obtain ⟨d, hd, hn, -⟩ := ha "bogus" (by decide)
  revert hn
  simp only [allOpts] at hd
  revert d
  decide

/-- C54: three constituents of width 0.4 in a nucleon of width 0.8, with the number of samples of the program. -/
example (r : Rand Tape Unit) : (∃ x ps r', MonteCarlo.run mcConst (MonteCarlo.make (0.8:ℝ) 0.4 3) 5 r = .ok (x, ps, r')) ∨
    ∃ msg, MonteCarlo.run mcConst (MonteCarlo.make (0.8:ℝ) 0.4 3) 5 r = .error (.throw .outOfRange msg) := C54_outcome 0.8 0.4 3 5 r

/-- C75: the fit for the default configuration, at the value of the cross section where the fit is `4 π w² e³`. -/
example (r : Rand Tape Unit) : let _ : Toms748 ℝ := boostToms
    ∃ σ, crossSectionFit mcConst ⟨1, 0.5, 0.5, inelasticCrossSection 0.5 (4 * Real.pi * 0.5^2 * Real.exp 3)⟩ r = (.ok σ, r) := by
  intro inst
  have := boostToms_lawful
  have mono : ∀ x y : ℝ, x ≤ y → inelasticCrossSection 0.5 (4 * Real.pi * 0.5^2 * Real.exp x) ≤ inelasticCrossSection 0.5 (4 * Real.pi * 0.5^2 * Real.exp y) := by
    intro x y h
    have hpi := Real.pi_pos
    refine (C10_strictly_increasing 0.5 (by norm_num)).monotoneOn (mem_Ioi.mpr (by positivity)) (mem_Ioi.mpr (by positivity)) ?_
    exact mul_le_mul_of_nonneg_left (Real.exp_le_exp.mpr h) (by positivity)
  obtain ⟨σ, l, u, σ₀, h, -⟩ := (C75_single (key := ⟨1, 0.5, 0.5, inelasticCrossSection 0.5 (4 * Real.pi * 0.5^2 * Real.exp 3)⟩) le_rfl (by norm_num) r).1
    ⟨mono _ _ (by norm_num), mono _ _ (by norm_num)⟩
  exact ⟨σ, h⟩

/-- C44: the example output keeps all existing files. -/
example (res : Res (List Writer)) (W1 : World ℝ) (h : outputMake exEnv true 2 ⟨false, some "out", false⟩ (demoWorld false) = (res, W1)) : Preserved (demoFs false) W1.fs :=
  (C44_no_overwrite exEnv true 2 _ _ _ _ (demo_wellFormed false) h).1

end Trento
