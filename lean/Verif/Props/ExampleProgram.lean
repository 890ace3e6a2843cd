import Verif.Props.RunOutput
import Verif.Props.ProgramSafe
import Verif.Props.ExampleRun
import Verif.Props.CacheCrash

/-!
# Concrete program runs

Proton–proton runs of the whole program from a command line and a config file, with a filled cross section cache: to standard
output, to a text directory, to an HDF5 file, and to an HDF5 file that cannot be created.  The hypotheses of C56–C58, C61 and
C64–C68 are met.
-/

namespace Trento
open Spec

/-- The command line `--config-file trento.conf --nucleon-width 1 --ncoll --random-seed 0 … p p 2`, as parsed. -/
def demoCmd (extra : List ParsedOption) : List ParsedOption :=
  [("config-file", ["trento.conf"]), ("nucleon-width", ["1"]), ("ncoll", []), ("random-seed", ["0"])] ++ extra ++
  [("projectile", ["p"]), ("projectile", ["p"]), ("number-events", ["2"])]

/-- The config file: `nucleon-width = 2` (overridden by the command line) and `b-max = 1`. -/
def demoFile : List ParsedOption := [("nucleon-width", ["2"]), ("b-max", ["1"])]

/-- Parsers that know these inputs only. -/
noncomputable def demoLib (extra : List ParsedOption) : Lib ℝ :=
  { parseArgs := fun _ => .ok (demoCmd extra), parseConfig := fun _ => .ok demoFile,
    toInt := fun s => if s = "2" then some 2 else none, toInt64 := fun s => if s = "0" then some 0 else none,
    toDouble := fun s => if s = "1" then some 1 else if s = "2" then some 2 else none, toPath := fun s => some s,
    usageOpts := [], version := "1", hdf5 := true, debug := true }

/-- The cache as the program writes it: `1, 1, 1, 6.4 ↦ 100`. -/
def demoCacheText : List Char := "1     1.000000  1.000000  6.400000  1.000000e+02\n".toList
/-- Its record. -/
def demoRecord : CacheRecord := { m := 1, w := 1, v := 1, s := 6.4, sp := 100 }

/-- The file system: the cache, the config file, the directories above, and possibly an empty directory `x.h5`. -/
def demoFs (h5dir : Bool) : FS ℝ := fun p =>
  if p = ["data", "trento", "cross_section.cache"] then some (.file (.text demoCacheText))
  else if p = ["trento.conf"] then some (.file (.text "nucleon-width = 2\nb-max = 1\n".toList))
  else if p = ["data", "trento"] ∨ p = ["data"] ∨ p = [] then some .dir
  else if p = ["x.h5"] ∧ h5dir = true then some .dir else none

/-- The world: nothing printed yet. -/
def demoWorld (h5dir : Bool) : World ℝ := ⟨{}, demoFs h5dir⟩

theorem demo_cache (b : Bool) : CacheState exEnv exCacheEnv (demoFs b) [demoRecord] := by
  refine ⟨["data", "trento"], rfl, by simp [demoFs], rfl, rfl, demoCacheText, by simp [demoFs], ?_, ?_⟩
  · refine ⟨[["1".toList, "1.000000".toList, "1.000000".toList, "6.400000".toList, "1.000000e+02".toList]], by decide, ?_⟩
    refine .cons ⟨_, _, _, _, _, rfl, ?_, ?_, ?_, ?_, ?_⟩ .nil
    all_goals decide +kernel
  · exact .inr ⟨"1     1.000000  1.000000  6.400000  1.000000e+02".toList, '\n', by decide, by decide⟩

theorem demo_sigma (b : Bool) {E D : Type} (fit : Rand E D → Res ℝ × Rand E D) (r : Rand E D) :
    partonicCrossSection exEnv exCacheEnv 5 ⟨1, 1, 1, lit 6.4⟩ fit (demoFs b) r = (.ok 100, demoFs b, r) := by
  refine (C50_lookup exEnv exCacheEnv (demo_cache b) (by simp) ⟨1, 1, 1, lit 6.4⟩ fit r 5 (by simp)).1 100 ?_
  have hf : Fits ⟨1, 1, 1, lit 6.4⟩ demoRecord := by
    refine ⟨rfl, ?_, ?_, ?_⟩ <;> simp only [demoRecord, lit_real] <;> norm_num
  unfold lookup
  classical
  rw [List.find?_cons_of_pos (by exact decide_eq_true hf)]
  simp [demoRecord]

/-- The part of the command line that chooses the output. -/
def demoExtra : Option String → List ParsedOption
  | none => []
  | some path => [("output", [path])]

/-- **Example for C56 and C57.** The configuration of the example: the nucleon width of the command line wins over that of the
config file, `b-max` comes from the config file, the constituent width follows the nucleon width, the rest are defaults. -/
theorem demo_configure (out : Option String) (b : Bool) :
    ∃ vm, configure (demoLib (demoExtra out)) exEnv exCacheEnv (demoFs b) [] = .ok (.run vm) ∧
      vm.strs "projectile" = .ok ["p", "p"] ∧ vm.dbl "nucleon-min-dist" = .ok (lit 0) ∧ vm.int "constit-number" = .ok 1 ∧
      Configured vm exampleOptions ∧ OutConfigured vm ⟨false, out, false⟩ := by
  have l0 : (lit 0 : ℝ) = 0 := by simp
  have l1 : (lit 1 : ℝ) = 1 := by simp
  have l10 : (lit 10 : ℝ) = 10 := by simp
  have l2 : (lit 0.2 : ℝ) = 0.2 := by simp [lit_real]
  have l64 : (lit 6.4 : ℝ) = 6.4 := by simp [lit_real]
  have hchk : checkWidths (1:ℝ) 1 1 = .ok () := (C57_check_iff 1 1 1).mpr ⟨by norm_num, le_refl _, fun _ => rfl⟩
  obtain ⟨vm1, hvm1, c1, c2, c3, vm2, hvm2, vm3, hvm3, g1, g2, g3, g4, g5, f1, f2, f3, f4, f5, f6, f7, f8, f9, f10, f11, f12, f13, f14,
      q1, q2, q3⟩ :
      ∃ vm1, store (demoLib (demoExtra out)) allOpts (demoCmd (demoExtra out)) VarMap.empty = .ok vm1 ∧
        vm1.count "help" = false ∧ vm1.count "version" = false ∧ vm1.count "bibtex" = false ∧
        ∃ vm2, withConfigFiles (demoLib (demoExtra out)) exEnv exCacheEnv (demoFs b) vm1 = .ok vm2 ∧
        ∃ vm3, defaultConstitWidth vm2 = .ok vm3 ∧ notify vm3 = .ok () ∧
          vm3.strs "projectile" = .ok ["p", "p"] ∧ vm3.dbl "nucleon-min-dist" = .ok (lit 0) ∧ vm3.int "constit-number" = .ok 1 ∧ True ∧
          vm3.int "number-events" = .ok 2 ∧ vm3.bool "ncoll" = .ok true ∧ vm3.dbl "reduced-thickness" = .ok (lit 0) ∧
          vm3.dbl "fluctuation" = .ok (lit 1) ∧ vm3.dbl "nucleon-width" = .ok 1 ∧ vm3.dbl "constit-width" = .ok 1 ∧
          vm3.dbl "cross-section" = .ok (lit 6.4) ∧ vm3.dbl "normalization" = .ok (lit 1) ∧ vm3.dbl "b-min" = .ok (lit 0) ∧
          vm3.dbl "b-max" = .ok 1 ∧ vm3.int "random-seed" = .ok 0 ∧ vm3.dbl "grid-max" = .ok (lit 10) ∧
          vm3.dbl "grid-step" = .ok (lit 0.2) ∧ True ∧
          vm3.bool "quiet" = .ok false ∧ vm3.bool "no-header" = .ok false ∧
          ((vm3.count "output" = false ∧ out = none) ∨ ∃ s, vm3.str "output" = .ok s ∧ out = some s) := by
    cases out with
    | none =>
      exact ⟨_, rfl, rfl, rfl, rfl, _, rfl, _, rfl, rfl, rfl, rfl, rfl, trivial, rfl, rfl, rfl, rfl, rfl, rfl, rfl, rfl, rfl, rfl, rfl,
        rfl, rfl, trivial, rfl, rfl, .inl ⟨rfl, rfl⟩⟩
    | some s =>
      exact ⟨_, rfl, rfl, rfl, rfl, _, rfl, _, rfl, rfl, rfl, rfl, rfl, trivial, rfl, rfl, rfl, rfl, rfl, rfl, rfl, rfl, rfl, rfl, rfl,
        rfl, rfl, trivial, rfl, rfl, .inr ⟨s, rfl, rfl⟩⟩
  have hfin : finalize vm2 = .ok vm3 := by
    unfold finalize
    simp only [bind, Except.bind, pure, Except.pure, hvm3, f5, f6, g4, hchk, g1]
  refine ⟨vm3, ?_, g2, g3, g4, ?_, q1, q2, q3⟩
  · unfold configure
    have : (demoLib (demoExtra out)).parseArgs [] = .ok (demoCmd (demoExtra out)) := rfl
    simp only [this, hvm1, c1, c2, c3, Bool.false_eq_true, if_false, hvm2, hfin]
  · rw [l0] at f3 f9
    rw [l1] at f4 f8
    rw [l64] at f7
    rw [l10] at f12
    rw [l2] at f13
    exact ⟨f1, f2, f3, f4, f5, f6, ⟨1, g4, rfl⟩, f7, f8, f9, f10, f11, f12, f13⟩

/-- The bounds of the example: no rejection step, one collision attempt, up to five cache records. -/
def demoFuel : Fuel := ⟨mcConst, 5, 0, 1⟩

/-- The event object before the first event. -/
def demoEvent (n : Nat) : Event ℝ n := ⟨fun _ _ => 0, fun _ _ => 0, fun _ _ => 0, 0, 0, 0, 0, ⟨0, 0, 0, 0⟩⟩

theorem demo_sigmaOf [Toms748 ℝ] (vm : VarMap ℝ) (hm : vm.int "constit-number" = .ok 1) (ho : Configured vm exampleOptions) (b : Bool) :
    SigmaOf exEnv exCacheEnv demoFuel vm (demoFs b) halfTape 100 (demoFs b) halfTape := by
  refine ⟨1, 1, 1, 6.4, hm, ho.nucleonWidth, ho.constitWidth, ho.crossSection, ?_⟩
  have := demo_sigma b (crossSectionFit (E := Tape) (D := Unit) demoFuel.mc ⟨1, 1, 1, lit 6.4⟩) halfTape
  have l64 : (lit 6.4 : ℝ) = 6.4 := by simp [lit_real]
  rw [l64] at this
  exact this

theorem demo_width : castInt (ceil (log10 (ofInt 2 : ℝ))) = .ok 1 := by
  rw [C41_width (by norm_num) (by norm_num), if_neg (by norm_num)]
  simp [numDigits]

theorem demo_nsteps (n : Nat) (rs : List (EventRecord ℝ n)) (h : runAll 0 1 exampleOptions 100 true demoEvent halfTape = .ok ⟨n, rs⟩) :
    2 ≤ n := by
  unfold runAll Collider.runEvents at h
  cases hec : EventCfg.make exampleOptions.normalization exampleOptions.gridStep exampleOptions.gridMax exampleOptions.reducedThickness with
  | error e => simp only [hec] at h; cases h
  | ok ec =>
    simp only [hec] at h
    split at h
    · cases h
    · simp only [Except.ok.injEq, Sigma.mk.injEq] at h
      obtain ⟨h1, -⟩ := h
      obtain ⟨h2, -⟩ := C20_grid_geometry _ _ _ _ (by norm_num [exampleOptions]) (by norm_num [exampleOptions]) ec hec
      rw [← h1, h2]
      have : (2:ℤ) ≤ ⌈2 * exampleOptions.gridMax / exampleOptions.gridStep⌉ := by
        rw [show 2 * exampleOptions.gridMax / exampleOptions.gridStep = ((100:ℤ):ℝ) by norm_num [exampleOptions], Int.ceil_intCast]
        norm_num
      omega

/-- **Example for C58, C61, C64–C68 (success).** If the output can be set up, the program exits with status 0, having written
every event to every writer, and nothing on standard error. -/
theorem demo_success [Toms748 ℝ] (out : Option String) (h5view : FS ℝ → String → H5View ℝ) (wrs : List Writer) (W1 : World ℝ)
    (hmk : outputMake exEnv true 2 ⟨false, out, false⟩ (demoWorld false) = (.ok wrs, W1)) :
    ∃ W' n rs, mainProg (demoLib (demoExtra out)) exEnv exCacheEnv demoFuel h5view demoEvent [] (demoWorld false) halfTape
        = (.status 0, W', []) ∧
      runAll 0 1 exampleOptions 100 true demoEvent halfTape = .ok ⟨n, rs⟩ ∧ calls exEnv (allCalls wrs rs) W1 = (.ok (), W') := by
  obtain ⟨vm, hc, hp, hd, hm, ho, hoo⟩ := demo_configure out false
  obtain ⟨⟨n, rs⟩, hrun⟩ := example_run
  obtain ⟨W', h1, h2⟩ := C64_completes (demoLib (demoExtra out)) exEnv exCacheEnv demoFuel h5view demoEvent [] (demoWorld false) W1
    halfTape halfTape vm hc "p" "p" (lit 0) exampleOptions ⟨false, out, false⟩ 100 (demoFs false) hp hd rfl rfl ho hoo
    (demo_sigmaOf vm hm ho false) wrs hmk (by intro m h; rw [hm] at h; cases h; norm_num) n (demo_nsteps n rs hrun) rs hrun
  exact ⟨W', n, rs, h1, hrun, h2⟩

/-- Events to standard output only. -/
theorem demo_stdout [Toms748 ℝ] (h5view : FS ℝ → String → H5View ℝ) :
    ∃ W', mainProg (demoLib (demoExtra none)) exEnv exCacheEnv demoFuel h5view demoEvent [] (demoWorld false) halfTape = (.status 0, W', []) := by
  obtain ⟨W', n, rs, h, -⟩ := demo_success none h5view [.stdout 1] (demoWorld false) (by
    unfold outputMake; rw [demo_width]; rfl)
  exact ⟨W', h⟩

/-- Events to standard output and to a new text directory. -/
theorem demo_text [Toms748 ℝ] (h5view : FS ℝ → String → H5View ℝ) :
    ∃ W', mainProg (demoLib (demoExtra (some "out"))) exEnv exCacheEnv demoFuel h5view demoEvent [] (demoWorld false) halfTape = (.status 0, W', []) := by
  obtain ⟨W', n, rs, h, -⟩ := demo_success (some "out") h5view _ _ (by
    unfold outputMake; rw [demo_width]
    rfl)
  exact ⟨W', h⟩

/-- Events to standard output and to a new HDF5 file. -/
theorem demo_hdf5 [Toms748 ℝ] (h5view : FS ℝ → String → H5View ℝ) :
    ∃ W', mainProg (demoLib (demoExtra (some "x.h5"))) exEnv exCacheEnv demoFuel h5view demoEvent [] (demoWorld false) halfTape = (.status 0, W', []) := by
  obtain ⟨W', n, rs, h, -⟩ := demo_success (some "x.h5") h5view _ _ (by
    unfold outputMake; rw [demo_width]
    rfl)
  exact ⟨W', h⟩

/-- **C58, failing output.** If everything up to the output can be set up but the output cannot, the program ends as the handlers
of `main` say for that exception, and no event is written. -/
theorem C58_output_failure [Toms748 ℝ] {E D : Type} [Rng ℝ E D] (L : Lib ℝ) (env : OsEnv) (ce : CacheEnv) (fu : Fuel)
    (h5view : FS ℝ → String → H5View ℝ)
    (ev0 : (n : Nat) → Event ℝ n) (args : List String) (W W1 : World ℝ) (r r1 : Rand E D) (vm : VarMap ℝ)
    (hc : configure L env ce W.fs args = .ok (.run vm)) (a b : String) (dmin : ℝ) (o : Options ℝ) (oo : OutOptions) (sigma : ℝ) (fs1 : FS ℝ)
    (hab : vm.strs "projectile" = .ok [a, b]) (hdm : vm.dbl "nucleon-min-dist" = .ok dmin)
    (hA : createNucleus L.hdf5 (h5view W.fs) a dmin = .ok o.projectileA) (hB : createNucleus L.hdf5 (h5view W.fs) b dmin = .ok o.projectileB)
    (ho : Configured vm o) (hoo : OutConfigured vm oo) (hsig : SigmaOf env ce fu vm W.fs r sigma fs1 r1)
    (ec : EventCfg ℝ) (hec : EventCfg.make o.normalization o.gridStep o.gridMax o.reducedThickness = .ok ec) (e : Err)
    (hmk : outputMake env L.hdf5 o.numberEvents oo { W with fs := fs1 } = (.error e, W1)) :
    mainProg L env ce fu h5view ev0 args W r = ((handle e).1, W1, (handle e).2) := by
  have hty := configure_typed L env ce W.fs args vm hc
  obtain ⟨f1, f2⟩ := createFrom_ok L (h5view W.fs) vm a b hab dmin hdm
  rw [← f1] at hA
  rw [← f2] at hB
  obtain ⟨o', ho'⟩ := readOptions_typed vm hty o.projectileA o.projectileB
  obtain ⟨k1, k2, k3⟩ := readOptions_ok vm _ _ o' ho'
  obtain rfl : o' = o := configured_unique vm _ _ k3 ho k1 k2
  obtain ⟨key, hkey⟩ := readKey_typed vm hty
  obtain ⟨m1, m2, m3, m4⟩ := readKey_ok vm key hkey
  obtain ⟨m, w, v, s, s1, s2, s3, s4, hp⟩ := hsig
  have ekey : key = ⟨m, w, v, s⟩ := by
    have e1 := m1.symm.trans s1
    have e2 := m2.symm.trans s2
    have e3 := m3.symm.trans s3
    have e4 := m4.symm.trans s4
    simp only [Except.ok.injEq] at e1 e2 e3 e4
    cases key
    simp_all
  subst ekey
  obtain ⟨oo', hoo'⟩ := readOutOptions_typed vm hty
  have hout := readOutOptions_ok vm oo' hoo'
  have eoo : oo' = oo := by
    have e1 := hout.quiet.symm.trans hoo.quiet
    have e2 := hout.noHeader.symm.trans hoo.noHeader
    simp only [Except.ok.injEq] at e1 e2
    have hcount : ∀ s, vm.str "output" = .ok s → vm.count "output" = true := by
      intro s hs
      unfold VarMap.str at hs
      unfold VarMap.count
      cases hv : vm.vals "output" with
      | none => rw [hv] at hs; cases hs
      | some e => rfl
    have e3 : oo'.output = oo.output := by
      rcases hout.output with ⟨h1, h2⟩ | ⟨s, h1, h2⟩ <;> rcases hoo.output with ⟨h3, h4⟩ | ⟨s', h3, h4⟩
      · rw [h2, h4]
      · rw [hcount _ h3] at h1; cases h1
      · rw [hcount _ h1] at h3; cases h3
      · rw [h1] at h3; injection h3 with h3; rw [h2, h4, h3]
    cases oo; cases oo'
    simp_all
  subst eoo
  have hr : runCommand L env ce fu h5view ev0 vm W r = (.error e, W1) := by
    unfold runCommand constructCollider
    simp only [hA, hB, ho', hkey, hp, hec, hoo', hmk]
  unfold mainProg
  simp only [hc, hr]

/-- **Negative example for C58.** If the HDF5 output path is an existing empty directory, the exception of the HDF5 library
reaches no handler of `main`: the process is terminated (`std::terminate`) without a message of trento. -/
theorem C58_hdf5_directory_terminates [Toms748 ℝ] (h5view : FS ℝ → String → H5View ℝ) :
    ∃ W', mainProg (demoLib (demoExtra (some "x.h5"))) exEnv exCacheEnv demoFuel h5view demoEvent [] (demoWorld true) halfTape
      = (.terminated, W', []) := by
  obtain ⟨vm, hc, hp, hd, hm, ho, hoo⟩ := demo_configure (some "x.h5") true
  have hmk : outputMake exEnv true 2 ⟨false, some "x.h5", false⟩ (demoWorld true) = (.error (.throw .h5Exception "H5File"), demoWorld true) := by
    have h1 : filenameIsHdf5 "x.h5" = true := by decide
    have h2 : (demoWorld true).fs.exists (exEnv.resolve "x.h5") = true := rfl
    have h3 : (demoWorld true).fs.isEmpty (exEnv.resolve "x.h5") = true := by
      show FS.isEmpty (demoFs true) ["x.h5"] = true
      unfold FS.isEmpty
      have : demoFs true ["x.h5"] = some .dir := by simp [demoFs]
      rw [this]
      simp [demoFs]
    have h4 : (demoWorld true).fs.canOpen exEnv (exEnv.resolve "x.h5") = false := rfl
    unfold outputMake
    rw [demo_width]
    simp [h1, h2, h3, h4]
  obtain ⟨ec, hec⟩ := C20_grid_exists exampleOptions.normalization exampleOptions.gridStep exampleOptions.gridMax
    exampleOptions.reducedThickness (by norm_num [exampleOptions]) (by norm_num [exampleOptions]) (by norm_num [exampleOptions])
  have := C58_output_failure (demoLib (demoExtra (some "x.h5"))) exEnv exCacheEnv demoFuel h5view demoEvent [] (demoWorld true)
    (demoWorld true) halfTape halfTape vm hc "p" "p" (lit 0) exampleOptions ⟨false, some "x.h5", false⟩ 100 (demoFs true) hp hd rfl rfl ho hoo
    (demo_sigmaOf vm hm ho true) ec hec _ hmk
  exact ⟨_, this⟩

theorem demo_wellFormed (b : Bool) : WellFormed (demoFs b) := by
  intro p name h
  unfold demoFs at h
  split_ifs at h with h1 h2 h3 h4
  · have : p = ["data", "trento"] := by
      rcases p with _ | ⟨x, _ | ⟨y, _ | ⟨z, t⟩⟩⟩ <;> simp_all
    subst this; simp [demoFs]
  · have : p = [] := by
      rcases p with _ | ⟨x, t⟩ <;> simp_all
    subst this; simp [demoFs]
  · have : p = ["data"] ∨ p = [] := by
      rcases p with _ | ⟨x, _ | ⟨y, t⟩⟩ <;> simp_all
    rcases this with rfl | rfl <;> simp [demoFs]
  · have : p = [] := by
      rcases p with _ | ⟨x, t⟩ <;> simp_all
    subst this; simp [demoFs]
  · exact absurd rfl h

/-- **Example for C65.** -/
example [Toms748 ℝ] (h5view : FS ℝ → String → H5View ℝ) :
    ∃ W', mainProg (demoLib (demoExtra (some "out"))) exEnv exCacheEnv demoFuel h5view demoEvent [] (demoWorld false) halfTape = (.status 0, W', []) ∧
      OnlyAdds exCacheEnv (demoFs false) W'.fs := by
  obtain ⟨W', h⟩ := demo_text h5view
  exact ⟨W', h, C65_program_only_adds _ _ _ _ _ _ _ _ _ _ _ _ (demo_wellFormed false) h⟩

/-- **Example for C67.** The two lines of the example run. -/
example [Toms748 ℝ] (h5view : FS ℝ → String → H5View ℝ) :
    ∃ W' ls, mainProg (demoLib (demoExtra none)) exEnv exCacheEnv demoFuel h5view demoEvent [] (demoWorld false) halfTape = (.status 0, W', []) ∧
      W'.cout.out = unlines ls ∧ ls.length = 2 := by
  obtain ⟨W', h⟩ := demo_stdout h5view
  obtain ⟨vm, hc, hp, hd, hm, ho, hoo⟩ := demo_configure none false
  obtain ⟨q, N, hq, hN, -, h2⟩ := C67_stdout _ _ _ _ _ _ _ (demoWorld false) _ _ _ vm hc (by constructor <;> rfl) h
  have e1 := hq.symm.trans hoo.quiet
  have e2 := hN.symm.trans ho.numberEvents
  simp only [Except.ok.injEq] at e1 e2
  subst e1; subst e2
  obtain ⟨o, sigma, r1, n, rs, ls, -, -, k1, k2, -, -⟩ := h2 rfl
  exact ⟨W', ls, h, by simpa [demoWorld] using k1, by simpa [exampleOptions] using k2⟩

/-- **Example for C68, text.** The directory `out` contains `0.dat` and `1.dat` and nothing else. -/
example [Toms748 ℝ] (h5view : FS ℝ → String → H5View ℝ) :
    ∃ W' width, mainProg (demoLib (demoExtra (some "out"))) exEnv exCacheEnv demoFuel h5view demoEvent [] (demoWorld false) halfTape = (.status 0, W', []) ∧
      ∀ name, W'.fs ["out", name] ≠ none ↔ ∃ i : ℕ, i < 2 ∧ name = String.ofList (textFileName width i) := by
  obtain ⟨W', h⟩ := demo_text h5view
  obtain ⟨vm, hc, hp, hd, hm, ho, hoo⟩ := demo_configure (some "out") false
  have hout : vm.str "output" = .ok "out" := by
    rcases hoo.output with ⟨-, h2⟩ | ⟨s, h1, h2⟩
    · cases h2
    · rw [h1]; injection h2 with h2; rw [h2]
  obtain ⟨o, sigma, r1, n, rs, nh, width, -, -, -, -, -, -, k⟩ := C68_text_files _ _ _ _ _ _ _ (demoWorld false) _ _ _ vm hc (demo_wellFormed false)
    (by simp [demoWorld, demoFs]) 2 ho.numberEvents "out" hout (by decide) (by intro c; simp [demoWorld, demoFs, exEnv])
    (by decide) 0.2 10 ho.gridStep ho.gridMax (by norm_num) (by norm_num) h
  exact ⟨W', width, h, fun name => (k name).trans ⟨fun ⟨i, h1, h2, _⟩ => ⟨i, h1, h2⟩, fun ⟨i, h1, h2⟩ => ⟨i, h1, h2, rfl⟩⟩⟩

/-- **Example for C68, HDF5.** The file `x.h5` contains the datasets `event_0` and `event_1`. -/
example [Toms748 ℝ] (h5view : FS ℝ → String → H5View ℝ) :
    ∃ W' ds, mainProg (demoLib (demoExtra (some "x.h5"))) exEnv exCacheEnv demoFuel h5view demoEvent [] (demoWorld false) halfTape = (.status 0, W', []) ∧
      W'.fs ["x.h5"] = some (.file (.h5 ds)) ∧ ds.map (·.name) = (List.range 2).map (fun i => "event_".toList ++ natDigits i) := by
  obtain ⟨W', h⟩ := demo_hdf5 h5view
  obtain ⟨vm, hc, hp, hd, hm, ho, hoo⟩ := demo_configure (some "x.h5") false
  have hout : vm.str "output" = .ok "x.h5" := by
    rcases hoo.output with ⟨-, h2⟩ | ⟨s, h1, h2⟩
    · cases h2
    · rw [h1]; injection h2 with h2; rw [h2]
  obtain ⟨o, sigma, r1, n, rs, -, -, -, k1, k2, -⟩ := C68_hdf5_file _ _ _ _ _ _ _ (demoWorld false) _ _ _ vm hc
    2 ho.numberEvents "x.h5" hout (by decide) 0.2 10 ho.gridStep ho.gridMax (by norm_num) (by norm_num) h
  exact ⟨W', _, h, k1, k2⟩

/-- **Example for C58 (config files).** A config file that names another config file is rejected. -/
example [Toms748 ℝ] (h5view : FS ℝ → String → H5View ℝ) :
    let L : Lib ℝ := { demoLib [] with parseConfig := fun _ => .ok [("config-file", ["other.conf"])] }
    ∃ err, err ≠ [] ∧ mainProg (E := Tape) (D := Unit) L exEnv exCacheEnv demoFuel h5view demoEvent [] (demoWorld false) halfTape =
      (.status 1, demoWorld false, err) := by
  intro L
  exact C58_config_files L exEnv exCacheEnv demoFuel h5view demoEvent [] (demoWorld false) halfTape
    ⟨fun _ _ h => (by cases h), fun _ _ h => (by cases h)⟩ (demoCmd []) rfl (by decide) (by decide) (by decide) "trento.conf"
    ⟨"trento.conf", by decide, rfl⟩ (.inr (.inr ⟨_, rfl, ("config-file", ["other.conf"]), by decide, by decide⟩))

/-- **Example for C58 (widths).** Constituents of width 2 in nucleons of width 1. -/
example [Toms748 ℝ] (h5view : FS ℝ → String → H5View ℝ) :
    let L := demoLib [("constit-width", ["2"]), ("constit-number", ["2"])]
    ∃ err, err ≠ [] ∧ mainProg (E := Tape) (D := Unit) L exEnv exCacheEnv demoFuel h5view demoEvent [] (demoWorld false) halfTape =
      (.status 1, demoWorld false, err) := by
  intro L
  exact C58_widths L exEnv exCacheEnv demoFuel h5view demoEvent [] (demoWorld false) halfTape
    ⟨fun _ _ h => (by cases h), fun _ _ h => (by cases h)⟩ (demoCmd _) rfl (by decide) (by decide) (by decide) "1" "2" "2" 1 2 2
    (by decide) (by decide) (by decide) rfl rfl rfl (.inr (.inr (.inl (by rw [lt_real]; norm_num))))

end Trento
