import Verif.Props.RunPrefix
import Verif.Props.ExampleProgram

/-!
# C121, the program: a shorter run prints the first lines of a longer one
-/

namespace Trento
open Spec

/-- Two configurations that may differ in the number of events and in the output options only. -/
structure Spec.SamePhysics (vm vm' : VarMap ℝ) : Prop where
  projectile : vm'.strs "projectile" = vm.strs "projectile"
  dbl : ∀ k ∈ ["nucleon-min-dist", "reduced-thickness", "fluctuation", "nucleon-width", "constit-width", "cross-section", "normalization", "b-min", "b-max", "grid-max", "grid-step"],
    vm'.dbl k = vm.dbl k
  int : ∀ k ∈ ["constit-number", "random-seed"], vm'.int k = vm.int k
  ncoll : vm'.bool "ncoll" = vm.bool "ncoll"

section
variable {E D : Type} [Toms748 ℝ] [Rng ℝ E D]

/-- **C121, program.** Two successful runs of the program, started with the same files and random state, whose options differ in the number of events (`N' ≤ N`) and possibly in the output options, neither quiet: standard
output gets `N` respectively `N'` lines, and each line of the shorter run has the same fields as the line of the same number of the longer run (if its values are in the printable range). -/
theorem C121_program (L : Lib ℝ) (env : OsEnv) (ce : CacheEnv) (fu : Fuel) (h5view : FS ℝ → String → H5View ℝ) (ev0 : (n : Nat) → Event ℝ n)
    (args args' : List String) (W W1 W' W1' : World ℝ) (r : Rand E D) (err err' : List Char) (vm vm' : VarMap ℝ)
    (hc : configure L env ce W.fs args = .ok (.run vm)) (hc' : configure L env ce W'.fs args' = .ok (.run vm')) (hfs : W'.fs = W.fs)
    (hsame : SamePhysics vm vm') (N N' : ℤ) (hN : vm.int "number-events" = .ok N) (hN' : vm'.int "number-events" = .ok N') (hle : N' ≤ N)
    (hq : vm.bool "quiet" = .ok false) (hq' : vm'.bool "quiet" = .ok false) (hp : Plain W.cout) (hp' : Plain W'.cout)
    (h : mainProg L env ce fu h5view ev0 args W r = (.status 0, W1, err)) (h' : mainProg L env ce fu h5view ev0 args' W' r = (.status 0, W1', err')) :
    ∃ (n : ℕ) (rs : List (EventRecord ℝ n)) (ls ls' : List (List Char)),
      W1.cout.out = W.cout.out ++ unlines ls ∧ W1'.cout.out = W'.cout.out ++ unlines ls' ∧ ls.length = N.toNat ∧ ls'.length = N'.toNat ∧ rs.length = N.toNat ∧
      ∀ (i : ℕ) (rec : EventRecord ℝ n), rs[i]? = some rec → Printable rec.b rec.event.npart rec.ncoll rec.event.multiplicity rec.event.ecc →
        ∃ l, ls[i]? = some l ∧ words l = lineFields rec ∧ ∀ l', ls'[i]? = some l' → words l' = words l := by
  obtain ⟨a, b, dmin, o, oo, sigma, fs1, r1, wrs, V, n, rs, hab, hd, hA, hB, hconf, hout, hsig, hmake, hrun, hnum, hcalls, -⟩ :=
    C64_successful_run L env ce fu h5view ev0 args W W1 r err vm hc h
  obtain ⟨a', b', dmin', o', oo', sigma', fs1', r1', wrs', V', n', rs', hab', hd', hA', hB', hconf', hout', hsig', hmake', hrun', hnum', hcalls', -⟩ :=
    C64_successful_run L env ce fu h5view ev0 args' W' W1' r err' vm' hc' h'
  rw [hsame.projectile, hab] at hab'
  rw [hsame.dbl _ (by simp), hd] at hd'
  cases hab'; cases hd'
  rw [hfs] at hA' hB' hsig'
  -- the same options but for the number of events
  have eo : o' = { o with numberEvents := N' } := by
    have e0 := hN'.symm.trans hconf'.numberEvents
    refine configured_unique vm' _ _ hconf' ⟨hN', ?_, ?_, ?_, ?_, ?_, ?_, ?_, ?_, ?_, ?_, ?_, ?_, ?_⟩ ?_ ?_
    · rw [hsame.ncoll]; exact hconf.ncoll
    · rw [hsame.dbl _ (by simp)]; exact hconf.reducedThickness
    · rw [hsame.dbl _ (by simp)]; exact hconf.fluctuation
    · rw [hsame.dbl _ (by simp)]; exact hconf.nucleonWidth
    · rw [hsame.dbl _ (by simp)]; exact hconf.constitWidth
    · obtain ⟨m, hm, he⟩ := hconf.constitNumber
      exact ⟨m, by rw [hsame.int _ (by simp)]; exact hm, he⟩
    · rw [hsame.dbl _ (by simp)]; exact hconf.crossSection
    · rw [hsame.dbl _ (by simp)]; exact hconf.normalization
    · rw [hsame.dbl _ (by simp)]; exact hconf.bMin
    · rw [hsame.dbl _ (by simp)]; exact hconf.bMax
    · rw [hsame.int _ (by simp)]; exact hconf.randomSeed
    · rw [hsame.dbl _ (by simp)]; exact hconf.gridMax
    · rw [hsame.dbl _ (by simp)]; exact hconf.gridStep
    · rw [hA] at hA'; injection hA' with hA'; exact hA'.symm
    · rw [hB] at hB'; injection hB' with hB'; exact hB'.symm
  -- the same cross section parameter and random state
  obtain ⟨m, w, v, s, s1, s2, s3, s4, hs⟩ := hsig
  obtain ⟨m', w', v', s', t1, t2, t3, t4, hs'⟩ := hsig'
  rw [hsame.int _ (by simp), s1] at t1
  rw [hsame.dbl _ (by simp), s2] at t2
  rw [hsame.dbl _ (by simp), s3] at t3
  rw [hsame.dbl _ (by simp), s4] at t4
  cases t1; cases t2; cases t3; cases t4
  rw [hs] at hs'
  simp only [Prod.mk.injEq, Except.ok.injEq] at hs'
  obtain ⟨rfl, rfl, rfl⟩ := hs'
  have eN : o.numberEvents = N := by
    have := hN.symm.trans hconf.numberEvents
    simp only [Except.ok.injEq] at this
    exact this.symm
  have hpre := C121_prefix fu.reject fu.collide o sigma L.debug ev0 r1 N' (by rw [eN]; exact hle) n rs hrun
  subst eo
  rw [hpre] at hrun'
  simp only [Except.ok.injEq, Sigma.mk.injEq] at hrun'
  obtain ⟨rfl, e⟩ := hrun'
  have e := eq_of_heq e
  subst e
  -- what is printed
  have q : oo.quiet = false := by
    have := hq.symm.trans hout.quiet
    simp only [Except.ok.injEq] at this
    exact this.symm
  have q' : oo'.quiet = false := by
    have := hq'.symm.trans hout'.quiet
    simp only [Except.ok.injEq] at this
    exact this.symm
  have hV : V.cout = W.cout := by
    have := outputMake_cout _ _ _ _ _ _ _ hmake
    exact this
  have hV' : V'.cout = W'.cout := by
    have := outputMake_cout _ _ _ _ _ _ _ hmake'
    exact this
  obtain ⟨wd, files, -, rfl, hfiles⟩ := outputMake_writers env L.hdf5 _ oo _ V wrs hmake
  obtain ⟨wd', files', -, rfl, hfiles'⟩ := outputMake_writers env L.hdf5 _ oo' _ V' wrs' hmake'
  rw [q] at hcalls
  rw [q'] at hcalls'
  simp only [Bool.false_eq_true, if_false, List.singleton_append] at hcalls hcalls'
  obtain ⟨-, p1⟩ := allCalls_cout_std env wd.toNat files hfiles rs V W1 (by rw [hV]; exact hp) hcalls
  obtain ⟨-, p2⟩ := allCalls_cout_std env wd'.toNat files' hfiles' _ V' W1' (by rw [hV']; exact hp') hcalls'
  have hl : rs.length = N.toNat := by
    have := congrArg List.length hnum
    rw [eN] at this
    simpa using this
  refine ⟨n, rs, rs.map (recLine wd.toNat), (rs.take N'.toNat).map (recLine wd'.toNat), by rw [p1, hV], by rw [p2, hV'], by rw [List.length_map, hl], ?_, hl, ?_⟩
  · rw [List.length_map, List.length_take, hl]
    omega
  · intro i rec hi hpr
    refine ⟨recLine wd.toNat rec, by rw [List.getElem?_map, hi]; rfl, recLine_words _ _ hpr, fun l' hl' => ?_⟩
    rw [List.getElem?_map, List.getElem?_take] at hl'
    split at hl'
    · rw [hi] at hl'
      simp only [Option.map_some, Option.some.injEq] at hl'
      rw [← hl', recLine_words _ _ hpr, recLine_words _ _ hpr]
    · cases hl'

end

/-! ## Example: two events and one -/

/-- The command line of the demonstration with another number of events. -/
def prefixCmd (args : List String) : List ParsedOption :=
  [("config-file", ["trento.conf"]), ("nucleon-width", ["1"]), ("ncoll", []), ("random-seed", ["0"]), ("projectile", ["p"]), ("projectile", ["p"]),
    ("number-events", args)]

/-- Parsers that take the number of events from the command line. -/
noncomputable def prefixLib : Lib ℝ :=
  { demoLib [] with
    parseArgs := fun args => .ok (prefixCmd args)
    toInt := fun s => if s = "2" then some 2 else if s = "1" then some 1 else none }

theorem prefix_configure (s : String) (N : ℤ) (hs : (s = "2" ∧ N = 2) ∨ (s = "1" ∧ N = 1)) :
    ∃ vm, configure prefixLib exEnv exCacheEnv (demoFs false) [s] = .ok (.run vm) ∧
      vm.strs "projectile" = .ok ["p", "p"] ∧ vm.dbl "nucleon-min-dist" = .ok (lit 0) ∧ vm.int "constit-number" = .ok 1 ∧
      Configured vm { exampleOptions with numberEvents := N } ∧ OutConfigured vm ⟨false, none, false⟩ := by
  have l0 : (lit 0 : ℝ) = 0 := by simp
  have l1 : (lit 1 : ℝ) = 1 := by simp
  have l10 : (lit 10 : ℝ) = 10 := by simp
  have l2 : (lit 0.2 : ℝ) = 0.2 := by simp [lit_real]
  have l64 : (lit 6.4 : ℝ) = 6.4 := by simp [lit_real]
  have hchk : checkWidths (1:ℝ) 1 1 = .ok () := (C57_check_iff 1 1 1).mpr ⟨by norm_num, le_refl _, fun _ => rfl⟩
  obtain ⟨vm1, hvm1, c1, c2, c3, vm2, hvm2, vm3, hvm3, g1, g2, g3, g4, g5, f1, f2, f3, f4, f5, f6, f7, f8, f9, f10, f11, f12, f13, f14,
      q1, q2, q3⟩ :
      ∃ vm1, store prefixLib allOpts (prefixCmd [s]) VarMap.empty = .ok vm1 ∧
        vm1.count "help" = false ∧ vm1.count "version" = false ∧ vm1.count "bibtex" = false ∧
        ∃ vm2, withConfigFiles prefixLib exEnv exCacheEnv (demoFs false) vm1 = .ok vm2 ∧
        ∃ vm3, defaultConstitWidth vm2 = .ok vm3 ∧ notify vm3 = .ok () ∧
          vm3.strs "projectile" = .ok ["p", "p"] ∧ vm3.dbl "nucleon-min-dist" = .ok (lit 0) ∧ vm3.int "constit-number" = .ok 1 ∧ True ∧
          vm3.int "number-events" = .ok N ∧ vm3.bool "ncoll" = .ok true ∧ vm3.dbl "reduced-thickness" = .ok (lit 0) ∧
          vm3.dbl "fluctuation" = .ok (lit 1) ∧ vm3.dbl "nucleon-width" = .ok 1 ∧ vm3.dbl "constit-width" = .ok 1 ∧
          vm3.dbl "cross-section" = .ok (lit 6.4) ∧ vm3.dbl "normalization" = .ok (lit 1) ∧ vm3.dbl "b-min" = .ok (lit 0) ∧
          vm3.dbl "b-max" = .ok 1 ∧ vm3.int "random-seed" = .ok 0 ∧ vm3.dbl "grid-max" = .ok (lit 10) ∧
          vm3.dbl "grid-step" = .ok (lit 0.2) ∧ True ∧
          vm3.bool "quiet" = .ok false ∧ vm3.bool "no-header" = .ok false ∧ vm3.count "output" = false := by
    rcases hs with ⟨rfl, rfl⟩ | ⟨rfl, rfl⟩
    · exact ⟨_, rfl, rfl, rfl, rfl, _, rfl, _, rfl, rfl, rfl, rfl, rfl, trivial, rfl, rfl, rfl, rfl, rfl, rfl, rfl, rfl, rfl, rfl, rfl,
        rfl, rfl, trivial, rfl, rfl, rfl⟩
    · exact ⟨_, rfl, rfl, rfl, rfl, _, rfl, _, rfl, rfl, rfl, rfl, rfl, trivial, rfl, rfl, rfl, rfl, rfl, rfl, rfl, rfl, rfl, rfl, rfl,
        rfl, rfl, trivial, rfl, rfl, rfl⟩
  have hfin : finalize vm2 = .ok vm3 := by
    unfold finalize
    simp only [bind, Except.bind, pure, Except.pure, hvm3, f5, f6, g4, hchk, g1]
  refine ⟨vm3, ?_, g2, g3, g4, ?_, q1, q2, .inl ⟨q3, rfl⟩⟩
  · unfold configure
    have : prefixLib.parseArgs [s] = .ok (prefixCmd [s]) := rfl
    simp only [this, hvm1, c1, c2, c3, Bool.false_eq_true, if_false, hvm2, hfin]
  · rw [l0] at f3 f9
    rw [l1] at f4 f8
    rw [l64] at f7
    rw [l10] at f12
    rw [l2] at f13
    exact ⟨f1, f2, f3, f4, f5, f6, ⟨1, g4, rfl⟩, f7, f8, f9, f10, f11, f12, f13⟩

theorem prefix_run [Toms748 ℝ] (h5view : FS ℝ → String → H5View ℝ) (s : String) (N : ℤ) (hs : (s = "2" ∧ N = 2) ∨ (s = "1" ∧ N = 1)) :
    ∃ W', mainProg prefixLib exEnv exCacheEnv demoFuel h5view demoEvent [s] (demoWorld false) halfTape = (.status 0, W', []) := by
  obtain ⟨vm, hc, hp, hd, hm, ho, hoo⟩ := prefix_configure s N hs
  obtain ⟨⟨n, rs⟩, hrun⟩ := example_run
  have hN : N ≤ exampleOptions.numberEvents := by
    show N ≤ 2
    omega
  have hrun' : runAll 0 1 { exampleOptions with numberEvents := N } 100 true demoEvent halfTape = _ := C121_prefix 0 1 exampleOptions 100 true demoEvent halfTape N hN n rs hrun
  have hw : ∃ k : ℤ, castInt (ceil (log10 (ofInt N : ℝ))) = .ok k := by
    rw [C41_width (by omega) (by omega)]
    exact ⟨_, rfl⟩
  obtain ⟨k, hk⟩ := hw
  have hsg : SigmaOf exEnv exCacheEnv demoFuel vm (demoFs false) halfTape 100 (demoFs false) halfTape := by
    refine ⟨1, 1, 1, 6.4, hm, ho.nucleonWidth, ho.constitWidth, ho.crossSection, ?_⟩
    have := demo_sigma false (crossSectionFit (E := Tape) (D := Unit) demoFuel.mc ⟨1, 1, 1, lit 6.4⟩) halfTape
    have l64 : (lit 6.4 : ℝ) = 6.4 := by simp [lit_real]
    rw [l64] at this
    exact this
  obtain ⟨W', h1, -⟩ := C64_completes prefixLib exEnv exCacheEnv demoFuel h5view demoEvent [s] (demoWorld false) (demoWorld false)
    halfTape halfTape vm hc "p" "p" (lit 0) { exampleOptions with numberEvents := N } ⟨false, none, false⟩ 100 (demoFs false) hp hd rfl rfl ho hoo
    hsg [.stdout k.toNat] (by unfold outputMake; dsimp only; rw [hk]; rfl) (by intro m h; rw [hm] at h; cases h; norm_num) n (demo_nsteps n rs hrun) _ hrun'
  exact ⟨W', h1⟩

/-- The commands with two events and with one event: two lines and one line. -/
example [Toms748 ℝ] (h5view : FS ℝ → String → H5View ℝ) : ∃ (W2 W1 : World ℝ) (n : ℕ) (rs : List (EventRecord ℝ n)) (ls ls' : List (List Char)),
    mainProg prefixLib exEnv exCacheEnv demoFuel h5view demoEvent ["2"] (demoWorld false) halfTape = (.status 0, W2, []) ∧
    mainProg prefixLib exEnv exCacheEnv demoFuel h5view demoEvent ["1"] (demoWorld false) halfTape = (.status 0, W1, []) ∧
    W2.cout.out = unlines ls ∧ W1.cout.out = unlines ls' ∧ ls.length = 2 ∧ ls'.length = 1 ∧
      ∀ (i : ℕ) (rec : EventRecord ℝ n), rs[i]? = some rec → Printable rec.b rec.event.npart rec.ncoll rec.event.multiplicity rec.event.ecc →
        ∃ l, ls[i]? = some l ∧ words l = lineFields rec ∧ ∀ l', ls'[i]? = some l' → words l' = words l := by
  obtain ⟨W2, h2⟩ := prefix_run h5view "2" 2 (.inl ⟨rfl, rfl⟩)
  obtain ⟨W1, h1⟩ := prefix_run h5view "1" 1 (.inr ⟨rfl, rfl⟩)
  obtain ⟨vm, hc, hp, hd, hm, ho, hoo⟩ := prefix_configure "2" 2 (.inl ⟨rfl, rfl⟩)
  obtain ⟨vm', hc', hp', hd', hm', ho', hoo'⟩ := prefix_configure "1" 1 (.inr ⟨rfl, rfl⟩)
  have hsame : SamePhysics vm vm' := by
    refine ⟨hp'.trans hp.symm, ?_, ?_, ho'.ncoll.trans ho.ncoll.symm⟩
    · intro k hk
      simp only [List.mem_cons, List.not_mem_nil, or_false] at hk
      rcases hk with rfl | rfl | rfl | rfl | rfl | rfl | rfl | rfl | rfl | rfl | rfl
      · exact hd'.trans hd.symm
      · exact ho'.reducedThickness.trans ho.reducedThickness.symm
      · exact ho'.fluctuation.trans ho.fluctuation.symm
      · exact ho'.nucleonWidth.trans ho.nucleonWidth.symm
      · exact ho'.constitWidth.trans ho.constitWidth.symm
      · exact ho'.crossSection.trans ho.crossSection.symm
      · exact ho'.normalization.trans ho.normalization.symm
      · exact ho'.bMin.trans ho.bMin.symm
      · exact ho'.bMax.trans ho.bMax.symm
      · exact ho'.gridMax.trans ho.gridMax.symm
      · exact ho'.gridStep.trans ho.gridStep.symm
    · intro k hk
      simp only [List.mem_cons, List.not_mem_nil, or_false] at hk
      rcases hk with rfl | rfl
      · exact hm'.trans hm.symm
      · exact ho'.randomSeed.trans ho.randomSeed.symm
  obtain ⟨n, rs, ls, ls', k1, k2, k3, k4, -, k5⟩ := C121_program prefixLib exEnv exCacheEnv demoFuel h5view demoEvent ["2"] ["1"] (demoWorld false) W2 (demoWorld false) W1 halfTape
    [] [] vm vm' hc hc' rfl hsame 2 1 ho.numberEvents ho'.numberEvents (by norm_num) hoo.quiet hoo'.quiet (by constructor <;> rfl) (by constructor <;> rfl) h2 h1
  exact ⟨W2, W1, n, rs, ls, ls', h2, h1, by simpa [demoWorld] using k1, by simpa [demoWorld] using k2, k3, k4, k5⟩

end Trento
