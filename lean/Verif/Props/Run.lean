import Verif.Props.Exit
import Verif.Props.Cache

/-! # The program: complete runs (C58, C64–C66) -/

namespace Trento
open Spec
set_option linter.unusedSectionVars false

section
variable {F : Type} [Arith F]

/-! ## What the constructors read -/

/-- The numbers a run works with are the values of the options of the same name. -/
structure Spec.Configured (vm : VarMap F) (o : Options F) : Prop where
  numberEvents : vm.int "number-events" = .ok o.numberEvents
  ncoll : vm.bool "ncoll" = .ok o.ncoll
  reducedThickness : vm.dbl "reduced-thickness" = .ok o.reducedThickness
  fluctuation : vm.dbl "fluctuation" = .ok o.fluctuation
  nucleonWidth : vm.dbl "nucleon-width" = .ok o.nucleonWidth
  constitWidth : vm.dbl "constit-width" = .ok o.constitWidth
  constitNumber : ∃ m, vm.int "constit-number" = .ok m ∧ o.constitNumber = m.toNat
  crossSection : vm.dbl "cross-section" = .ok o.crossSection
  normalization : vm.dbl "normalization" = .ok o.normalization
  bMin : vm.dbl "b-min" = .ok o.bMin
  bMax : vm.dbl "b-max" = .ok o.bMax
  randomSeed : vm.int "random-seed" = .ok o.randomSeed
  gridMax : vm.dbl "grid-max" = .ok o.gridMax
  gridStep : vm.dbl "grid-step" = .ok o.gridStep

/-- The output options of a run. -/
structure Spec.OutConfigured (vm : VarMap F) (oo : OutOptions) : Prop where
  quiet : vm.bool "quiet" = .ok oo.quiet
  noHeader : vm.bool "no-header" = .ok oo.noHeader
  output : (vm.count "output" = false ∧ oo.output = none) ∨ ∃ s, vm.str "output" = .ok s ∧ oo.output = some s

theorem dbl_error_po (vm : VarMap F) (k : String) (e : Err) (h : vm.dbl k = .error e) : e = .throw .runtimeError "bad_any_cast" := by
  unfold VarMap.dbl at h
  split at h <;> cases h; rfl

theorem readOptions_ok (vm : VarMap F) (A B : Nucleus F) (o : Options F) (h : readOptions vm A B = .ok o) :
    o.projectileA = A ∧ o.projectileB = B ∧ Configured vm o := by
  unfold readOptions at h
  simp only [bind, Except.bind, pure, Except.pure] at h
  repeat' split at h
  all_goals cases h
  refine ⟨rfl, rfl, ?_⟩
  constructor <;> first | assumption | exact ⟨_, by assumption, rfl⟩

theorem readOutOptions_ok (vm : VarMap F) (oo : OutOptions) (h : readOutOptions vm = .ok oo) : OutConfigured vm oo := by
  unfold readOutOptions at h
  simp only [bind, Except.bind, pure, Except.pure] at h
  split at h
  · cases h
  · rename_i q hq
    split at h
    · cases h
    · rename_i nh hnh
      split at h
      · split at h
        · cases h
        · rename_i s hs
          cases h
          exact ⟨hq, hnh, .inr ⟨s, hs, rfl⟩⟩
      · rename_i hc
        cases h
        exact ⟨hq, hnh, .inl ⟨by simpa using hc, rfl⟩⟩

theorem createFrom_ok (L : Lib F) (h5 : String → H5View F) (vm : VarMap F) (a b : String) (hps : vm.strs "projectile" = .ok [a, b])
    (dmin : F) (hd : vm.dbl "nucleon-min-dist" = .ok dmin) :
    createFrom L h5 vm 0 = createNucleus L.hdf5 h5 a dmin ∧ createFrom L h5 vm 1 = createNucleus L.hdf5 h5 b dmin := by
  unfold createFrom
  simp [bind, Except.bind, hps, hd]

variable {E D : Type} [NumFmt F] [Toms748 F] [Rng F E D]

/-- The steps of a successful construction. -/
theorem constructCollider_ok (L : Lib F) (env : OsEnv) (ce : CacheEnv) (fu : Fuel) (h5view : FS F → String → H5View F)
    (vm : VarMap F) (W W' : World F) (r r' : Rand E D) (c : Collider F) (ec : EventCfg F) (wrs : List Writer)
    (h : constructCollider L env ce fu h5view vm W r = (.ok (c, ec, wrs), W', r')) :
    ∃ A B o key sigma fs1 r1 oo, createFrom L (h5view W.fs) vm 0 = .ok A ∧ createFrom L (h5view W.fs) vm 1 = .ok B ∧
      readOptions vm A B = .ok o ∧ readKey vm = .ok key ∧
      partonicCrossSection env ce fu.cache key (crossSectionFit fu.mc key) W.fs r = (.ok sigma, fs1, r1) ∧
      EventCfg.make o.normalization o.gridStep o.gridMax o.reducedThickness = .ok ec ∧ readOutOptions vm = .ok oo ∧
      outputMake env L.hdf5 o.numberEvents oo { W with fs := fs1 } = (.ok wrs, W') ∧
      c = Collider.make o sigma ∧ r' = seedRand F o.randomSeed r1 := by
  unfold constructCollider at h
  cases hA : createFrom L (h5view W.fs) vm 0 with
  | error e => simp only [hA, Prod.mk.injEq] at h; cases h.1
  | ok A =>
  simp only [hA] at h
  cases hB : createFrom L (h5view W.fs) vm 1 with
  | error e => simp only [hB, Prod.mk.injEq] at h; cases h.1
  | ok B =>
  simp only [hB] at h
  cases ho : readOptions vm A B with
  | error e => simp only [ho, Prod.mk.injEq] at h; cases h.1
  | ok o =>
  simp only [ho] at h
  cases hk : readKey vm with
  | error e => simp only [hk, Prod.mk.injEq] at h; cases h.1
  | ok key =>
  simp only [hk] at h
  cases hp : partonicCrossSection env ce fu.cache key (crossSectionFit fu.mc key) W.fs r with
  | mk res rest =>
  obtain ⟨fs1, r1⟩ := rest
  cases res with
  | error e => simp only [hp, Prod.mk.injEq] at h; cases h.1
  | ok sigma =>
  simp only [hp] at h
  cases he : EventCfg.make o.normalization o.gridStep o.gridMax o.reducedThickness with
  | error e => simp only [he, Prod.mk.injEq] at h; cases h.1
  | ok ec' =>
  simp only [he] at h
  cases hoo : readOutOptions vm with
  | error e => simp only [hoo, Prod.mk.injEq] at h; cases h.1
  | ok oo =>
  simp only [hoo] at h
  cases hm : outputMake env L.hdf5 o.numberEvents oo { W with fs := fs1 } with
  | mk res W2 =>
  cases res with
  | error e => simp only [hm, Prod.mk.injEq] at h; cases h.1
  | ok wrs' =>
  simp only [hm, Prod.mk.injEq, Except.ok.injEq] at h
  obtain ⟨⟨rfl, rfl, rfl⟩, rfl, rfl⟩ := h
  exact ⟨A, B, o, key, sigma, fs1, r1, oo, rfl, rfl, ho, rfl, hp, he, rfl, hm, rfl, rfl⟩

/-- The effect of the construction on the world, successful or not. -/
theorem constructCollider_world (L : Lib F) (env : OsEnv) (ce : CacheEnv) (fu : Fuel) (h5view : FS F → String → H5View F)
    (vm : VarMap F) (W W' : World F) (r r' : Rand E D) (res : Res (Collider F × EventCfg F × List Writer))
    (h : constructCollider L env ce fu h5view vm W r = (res, W', r')) :
    (W' = W ∧ ∃ e, res = .error e) ∨
    ∃ key x fs1 r1, partonicCrossSection env ce fu.cache key (crossSectionFit fu.mc key) W.fs r = (x, fs1, r1) ∧
      ((W' = { W with fs := fs1 } ∧ ∃ e, res = .error e) ∨
        ∃ N oo res2, outputMake env L.hdf5 N oo { W with fs := fs1 } = (res2, W') ∧ ∀ c ec wrs, res = .ok (c, ec, wrs) → res2 = .ok wrs) := by
  unfold constructCollider at h
  cases hA : createFrom L (h5view W.fs) vm 0 with
  | error e => simp only [hA, Prod.mk.injEq] at h; exact .inl ⟨h.2.1.symm, e, h.1.symm⟩
  | ok A =>
  simp only [hA] at h
  cases hB : createFrom L (h5view W.fs) vm 1 with
  | error e => simp only [hB, Prod.mk.injEq] at h; exact .inl ⟨h.2.1.symm, e, h.1.symm⟩
  | ok B =>
  simp only [hB] at h
  cases ho : readOptions vm A B with
  | error e => simp only [ho, Prod.mk.injEq] at h; exact .inl ⟨h.2.1.symm, e, h.1.symm⟩
  | ok o =>
  simp only [ho] at h
  cases hk : readKey vm with
  | error e => simp only [hk, Prod.mk.injEq] at h; exact .inl ⟨h.2.1.symm, e, h.1.symm⟩
  | ok key =>
  simp only [hk] at h
  cases hp : partonicCrossSection env ce fu.cache key (crossSectionFit fu.mc key) W.fs r with
  | mk x rest =>
  obtain ⟨fs1, r1⟩ := rest
  refine .inr ⟨key, x, fs1, r1, hp, ?_⟩
  cases x with
  | error e => simp only [hp, Prod.mk.injEq] at h; exact .inl ⟨h.2.1.symm, e, h.1.symm⟩
  | ok sigma =>
  simp only [hp] at h
  cases he : EventCfg.make o.normalization o.gridStep o.gridMax o.reducedThickness with
  | error e => simp only [he, Prod.mk.injEq] at h; exact .inl ⟨h.2.1.symm, e, h.1.symm⟩
  | ok ec' =>
  simp only [he] at h
  cases hoo : readOutOptions vm with
  | error e => simp only [hoo, Prod.mk.injEq] at h; exact .inl ⟨h.2.1.symm, e, h.1.symm⟩
  | ok oo =>
  simp only [hoo] at h
  cases hm : outputMake env L.hdf5 o.numberEvents oo { W with fs := fs1 } with
  | mk res2 W2 =>
  refine .inr ⟨o.numberEvents, oo, res2, ?_⟩
  cases res2 with
  | error e =>
    simp only [hm, Prod.mk.injEq] at h
    obtain ⟨rfl, rfl, rfl⟩ := h
    exact ⟨hm, fun c ec wrs h => by cases h⟩
  | ok wrs' =>
    simp only [hm, Prod.mk.injEq] at h
    obtain ⟨rfl, rfl, rfl⟩ := h
    refine ⟨hm, fun c ec wrs h => ?_⟩
    simp only [Except.ok.injEq, Prod.mk.injEq] at h
    rw [h.2.2]

/-- The cross section parameter a run works with: the one the cache or the fit delivers for the configured key, starting from the
random state before seeding. -/
def Spec.SigmaOf (env : OsEnv) (ce : CacheEnv) (fu : Fuel) (vm : VarMap F) (fs : FS F) (r : Rand E D) (sigma : F) (fs1 : FS F)
    (r1 : Rand E D) : Prop :=
  ∃ m w v s, vm.int "constit-number" = .ok m ∧ vm.dbl "nucleon-width" = .ok w ∧ vm.dbl "constit-width" = .ok v ∧
    vm.dbl "cross-section" = .ok s ∧
    partonicCrossSection env ce fu.cache ⟨m, w, v, s⟩ (crossSectionFit fu.mc ⟨m, w, v, s⟩) fs r = (.ok sigma, fs1, r1)

theorem readKey_ok (vm : VarMap F) (key : CacheKey F) (h : readKey vm = .ok key) :
    vm.int "constit-number" = .ok key.m ∧ vm.dbl "nucleon-width" = .ok key.w ∧ vm.dbl "constit-width" = .ok key.v ∧
      vm.dbl "cross-section" = .ok key.s := by
  unfold readKey at h
  simp only [bind, Except.bind, pure, Except.pure] at h
  repeat' split at h
  all_goals cases h
  refine ⟨?_, ?_, ?_, ?_⟩ <;> assumption

/-- **C64, C58 (success).** If the program is asked to run and exits with status 0, then it did what the options say: both nuclei
were created from the two projectile names and the minimum distance, the cross section parameter was determined, the output was
set up, exactly the configured number of events was simulated with the configured parameters and the configured seed
(`runAll`), their records are numbered 0, 1, …, and every writer got every record in that order without an error; nothing was
written to standard error. -/
theorem C64_successful_run (L : Lib F) (env : OsEnv) (ce : CacheEnv) (fu : Fuel) (h5view : FS F → String → H5View F)
    (ev0 : (n : Nat) → Event F n) (args : List String) (W W' : World F) (r : Rand E D) (err : List Char) (vm : VarMap F)
    (hc : configure L env ce W.fs args = .ok (.run vm))
    (h : mainProg L env ce fu h5view ev0 args W r = (.status 0, W', err)) :
    ∃ (a b : String) (dmin : F) (o : Options F) (oo : OutOptions) (sigma : F) (fs1 : FS F) (r1 : Rand E D) (wrs : List Writer)
      (W1 : World F) (n : Nat) (rs : List (EventRecord F n)),
      vm.strs "projectile" = .ok [a, b] ∧ vm.dbl "nucleon-min-dist" = .ok dmin ∧
      createNucleus L.hdf5 (h5view W.fs) a dmin = .ok o.projectileA ∧ createNucleus L.hdf5 (h5view W.fs) b dmin = .ok o.projectileB ∧
      Configured vm o ∧ OutConfigured vm oo ∧ SigmaOf env ce fu vm W.fs r sigma fs1 r1 ∧
      outputMake env L.hdf5 o.numberEvents oo { W with fs := fs1 } = (.ok wrs, W1) ∧
      runAll fu.reject fu.collide o sigma L.debug ev0 r1 = .ok ⟨n, rs⟩ ∧ rs.map (·.num) = List.range o.numberEvents.toNat ∧
      calls env (allCalls wrs rs) W1 = (.ok (), W') ∧ err = [] := by
  have hty := configure_typed L env ce W.fs args vm hc
  obtain ⟨a, b, hab⟩ := hty.projectile
  obtain ⟨dmin, hdm⟩ := hty.dbl "nucleon-min-dist" (by simp)
  unfold mainProg at h
  simp only [hc] at h
  cases hr : runCommand L env ce fu h5view ev0 vm W r with
  | mk res W2 =>
  simp only [hr] at h
  cases res with
  | error e =>
    simp only [Prod.mk.injEq] at h
    have := h.1
    unfold handle at this
    split at this <;> cases this
  | ok u =>
  simp only [Prod.mk.injEq, true_and] at h
  obtain ⟨rfl, rfl⟩ := h
  unfold runCommand at hr
  cases hcc : constructCollider L env ce fu h5view vm W r with
  | mk res rest =>
  obtain ⟨W1, r2⟩ := rest
  simp only [hcc] at hr
  cases res with
  | error e => simp only [Prod.mk.injEq] at hr; cases hr.1
  | ok t =>
  obtain ⟨c, ec, wrs⟩ := t
  dsimp only at hr
  obtain ⟨A, B, o, key, sigma, fs1, r1, oo, c1, c2, c3, c4, c5, c6, c7, c8, rfl, rfl⟩ :=
    constructCollider_ok L env ce fu h5view vm W W1 r r2 c ec wrs hcc
  obtain ⟨m1, m2, m3, m4⟩ := readKey_ok vm key c4
  obtain ⟨rfl, rfl, hconf⟩ := readOptions_ok vm A B o c3
  obtain ⟨f1, f2⟩ := createFrom_ok L (h5view W.fs) vm a b hab dmin hdm
  rw [f1] at c1
  rw [f2] at c2
  simp only [m1] at hr
  split at hr
  · simp only [Prod.mk.injEq] at hr; cases hr.1
  cases hl : runLoopOut fu.reject fu.collide (Collider.make o sigma) ec L.debug env wrs (Collider.make o sigma).nevents.toNat 0
      ⟨(Collider.make o sigma).nucleusA, (Collider.make o sigma).nucleusB, ev0 ec.nsteps.toNat, seedRand F o.randomSeed r1⟩ W1 with
  | mk res W3 =>
  simp only [hl] at hr
  cases res with
  | error e => simp only [Prod.mk.injEq] at hr; cases hr.1
  | ok s' =>
  simp only [Prod.mk.injEq, true_and] at hr
  subst hr
  have hv : (Collider.make o sigma).Valid E D := ⟨.create _ _ _ _ _ c1, .create _ _ _ _ _ c2, rfl⟩
  obtain ⟨rs, g1, g2, g3⟩ := (C40_each_event_once hv hl).1 s' rfl
  refine ⟨a, b, dmin, o, oo, sigma, fs1, r1, wrs, W1, ec.nsteps.toNat, rs, hab, hdm, c1, c2, hconf, readOutOptions_ok vm oo c7,
    ⟨key.m, key.w, key.v, key.s, m1, m2, m3, m4, c5⟩, c8, ?_, g2, g3, rfl⟩
  unfold runAll
  rw [c6]
  simp only [g1]

/-! ## Exceptions -/

/-- An exception of the standard library or Boost. -/
def Spec.IsStdException (e : Err) : Prop := ∃ x msg, e = .throw x msg ∧ x ≠ .h5Exception

theorem handle_std (e : Err) (h : IsStdException e) : (handle e).1 = .status 1 ∧ (handle e).2 ≠ [] := by
  obtain ⟨x, msg, rfl, hx⟩ := h
  cases x <;> first | exact absurd rfl hx | exact ⟨rfl, by simp [handle, usageStr]⟩

/-- **C58, exceptions.** If a run ends with a C++ exception derived from `std::exception`, the status is 1 and there is a
message on standard error.  An exception of the HDF5 library is not derived from it: the process is terminated. -/
theorem C58_exceptions (L : Lib F) (env : OsEnv) (ce : CacheEnv) (fu : Fuel) (h5view : FS F → String → H5View F)
    (ev0 : (n : Nat) → Event F n) (args : List String) (W W' : World F) (r : Rand E D) (vm : VarMap F) (e : Err)
    (hc : configure L env ce W.fs args = .ok (.run vm)) (h : runCommand L env ce fu h5view ev0 vm W r = (.error e, W')) :
    (IsStdException e → ∃ err, err ≠ [] ∧ mainProg L env ce fu h5view ev0 args W r = (.status 1, W', err)) ∧
    (∀ msg, e = .throw .h5Exception msg → mainProg L env ce fu h5view ev0 args W r = (.terminated, W', [])) := by
  constructor
  · intro he
    obtain ⟨h1, h2⟩ := handle_std e he
    refine ⟨(handle e).2, h2, ?_⟩
    unfold mainProg
    simp only [hc, h, h1]
  · rintro msg rfl
    unfold mainProg
    simp only [hc, h]
    rfl

theorem outputMake_cout (env : OsEnv) (hdf5 : Bool) (N : ℤ) (oo : OutOptions) (V V' : World F) (res : Res (List Writer))
    (hm : outputMake env hdf5 N oo V = (res, V')) : V'.cout = V.cout := by
  unfold outputMake at hm
  split at hm
  · simp only [Prod.mk.injEq] at hm; rw [← hm.2]
  dsimp only at hm
  split at hm
  · simp only [Prod.mk.injEq] at hm; rw [← hm.2]
  · split at hm
    · repeat' split at hm
      all_goals simp only [Prod.mk.injEq] at hm; rw [← hm.2]
    · repeat' split at hm
      all_goals simp only [Prod.mk.injEq] at hm; rw [← hm.2]

/-- **C58, no further output after an exception.** What a failed run leaves behind: standard output is untouched unless the event loop
was reached, and then it holds what the complete events before the failing one wrote, and possibly a part of the failing one. -/
theorem C58_failed_run (L : Lib F) (env : OsEnv) (ce : CacheEnv) (fu : Fuel) (h5view : FS F → String → H5View F)
    (ev0 : (n : Nat) → Event F n) (vm : VarMap F) (W W' : World F) (r : Rand E D) (e : Err)
    (h : runCommand L env ce fu h5view ev0 vm W r = (.error e, W')) :
    W'.cout = W.cout ∨
    ∃ (wrs : List Writer) (W1 : World F) (n j : Nat) (N : Int) (rs : List (EventRecord F n)) (W2 : World F), W1.cout = W.cout ∧
      vm.int "number-events" = .ok N ∧ j < N.toNat ∧ rs.map (·.num) = List.range j ∧ calls env (allCalls wrs rs) W1 = (.ok (), W2) ∧
      (W' = W2 ∨ ∃ rec : EventRecord F n, rec.num = j ∧ outputEvent env rec wrs W2 = (.error e, W')) := by
  unfold runCommand at h
  cases hcc : constructCollider L env ce fu h5view vm W r with
  | mk res rest =>
  obtain ⟨W1, r2⟩ := rest
  simp only [hcc] at h
  cases res with
  | error e' =>
    simp only [Prod.mk.injEq] at h
    obtain ⟨-, rfl⟩ := h
    left
    rcases constructCollider_world L env ce fu h5view vm W W1 r r2 _ hcc with ⟨rfl, -⟩ | ⟨_, _, _, _, -, ⟨rfl, -⟩ | ⟨_, _, _, hm, -⟩⟩
    · rfl
    · rfl
    · have := outputMake_cout _ _ _ _ _ _ _ hm
      exact this
  | ok t =>
    obtain ⟨c, ec, wrs⟩ := t
    dsimp only at h
    obtain ⟨A, B, o, key, sigma, fs1, r1, oo, c1, c2, c3, c4, c5, c6, c7, c8, rfl, rfl⟩ :=
      constructCollider_ok L env ce fu h5view vm W W1 r r2 c ec wrs hcc
    have hcout : W1.cout = W.cout := by
      have := outputMake_cout _ _ _ _ _ _ _ c8
      exact this
    obtain ⟨m1, m2, m3, m4⟩ := readKey_ok vm key c4
    obtain ⟨rfl, rfl, hconf⟩ := readOptions_ok vm A B o c3
    simp only [m1] at h
    split at h
    · simp only [Prod.mk.injEq] at h
      rw [← h.2]; exact .inl hcout
    cases hl : runLoopOut fu.reject fu.collide (Collider.make o sigma) ec L.debug env wrs (Collider.make o sigma).nevents.toNat 0
      ⟨(Collider.make o sigma).nucleusA, (Collider.make o sigma).nucleusB, ev0 ec.nsteps.toNat, seedRand F o.randomSeed r1⟩ W1 with
    | mk res W3 =>
    simp only [hl] at h
    cases res with
    | ok s' => simp only [Prod.mk.injEq] at h; cases h.1
    | error e' =>
    simp only [Prod.mk.injEq, Except.error.injEq] at h
    obtain ⟨rfl, rfl⟩ := h
    have hcr : ∀ (i : Nat) (N : Nucleus F), createFrom L (h5view W.fs) vm i = .ok N → NucleusHistory E D N := by
      intro i N hN
      unfold createFrom at hN
      simp only [bind, Except.bind] at hN
      split at hN
      · cases hN
      · split at hN
        · cases hN
        · split at hN
          · cases hN
          · exact .create _ _ _ _ _ hN
    have hv : (Collider.make o sigma).Valid E D := ⟨hcr 0 _ c1, hcr 1 _ c2, rfl⟩
    obtain ⟨j, rs, W2, g1, g2, g3, g4⟩ := (C40_each_event_once hv hl).2.2 e' rfl
    exact .inr ⟨wrs, W1, ec.nsteps.toNat, j, o.numberEvents, rs, W2, hcout, hconf.numberEvents, g1, g2, g3, g4⟩

/-! ## C65: nothing is overwritten -/

/-- The path of the cross section cache, if there is one: `$XDG_DATA_HOME/trento/cross_section.cache` or, without that variable,
`$HOME/.local/share/trento/cross_section.cache`. -/
def Spec.cachePath (ce : CacheEnv) : Option Path :=
  match ce.xdg, ce.home with
  | some data, _ => some (data ++ ["trento", "cross_section.cache"])
  | none, some home => some (home ++ [".local", "share", "trento", "cross_section.cache"])
  | none, none => none

/-- **C50, C63-C65: where the cache is.** The directory the program creates and searches is the one of `Spec.cachePath`; without
either variable the behaviour is undefined. -/
theorem C50_location (ce : CacheEnv) :
    (∀ p, Spec.cachePath ce = some p ↔ ∃ d, cacheDir ce = .ok d ∧ p = d ++ ["cross_section.cache"]) ∧
    (Spec.cachePath ce = none ↔ ∃ msg, cacheDir ce = .error (.ub msg)) := by
  obtain ⟨xdg, home, ro⟩ := ce
  cases xdg <;> cases home <;> simp [Spec.cachePath, cacheDir, eq_comm]

theorem Spec.cachePath_of {ce : CacheEnv} {d : Path} (h : cacheDir ce = .ok d) : Spec.cachePath ce = some (d ++ ["cross_section.cache"]) :=
  ((C50_location ce).1 _).mpr ⟨d, h, rfl⟩

/-- `fs'` differs from `fs` only as a run may change it: everything with content is still there unchanged, except that text may
have been appended to the cache file. -/
def Spec.OnlyAdds (ce : CacheEnv) (fs fs' : FS F) : Prop :=
  ∀ (q : Path) (nd : Node F), fs q = some nd → nd ≠ .file (.text []) →
    fs' q = some nd ∨ (cachePath ce = some q ∧ ∃ s t, nd = .file (.text s) ∧ fs' q = some (.file (.text (s ++ t))))

theorem openAppend_cases (env : OsEnv) (p : Path) (fs : FS F) :
    openAppend env p fs = fs ∨ (fs.canOpen env p = true ∧ fs p = none ∧ openAppend env p fs = fs.set p (.file (.text []))) := by
  unfold openAppend
  split
  · rename_i hc
    split
    · rename_i hn; exact .inr ⟨hc, hn, rfl⟩
    · exact .inl rfl
  · exact .inl rfl

theorem appendText_cases (env : OsEnv) (p : Path) (s : List Char) (fs : FS F) :
    appendText env p s fs = fs ∨ ∃ old, fs.canOpen env p = true ∧ fs p = some (.file (.text old)) ∧
      appendText env p s fs = fs.set p (.file (.text (old ++ s))) := by
  unfold appendText
  split
  · rename_i hc
    split
    · rename_i old hn; exact .inr ⟨old, hc, hn, rfl⟩
    · exact .inl rfl
  · exact .inl rfl

theorem openAppend_frame (env : OsEnv) (p : Path) (fs : FS F) (q : Path) (nd : Node F) (h : fs q = some nd) : openAppend env p fs q = some nd := by
  rcases openAppend_cases env p fs with h1 | ⟨-, hn, h1⟩
  · rw [h1]; exact h
  · rw [h1]
    by_cases hq : q = p
    · subst hq; rw [h] at hn; cases hn
    · rw [FS.set_other _ _ hq]; exact h

theorem appendText_frame (env : OsEnv) (p : Path) (s : List Char) (fs : FS F) (q : Path) (nd : Node F) (h : fs q = some nd) :
    appendText env p s fs q = some nd ∨ (q = p ∧ ∃ old, nd = .file (.text old) ∧ appendText env p s fs q = some (.file (.text (old ++ s)))) := by
  rcases appendText_cases env p s fs with h1 | ⟨old, -, hold, h1⟩
  · rw [h1]; exact .inl h
  · rw [h1]
    by_cases hq : q = p
    · subst hq
      rw [h] at hold
      cases hold
      exact .inr ⟨rfl, old, rfl, FS.set_same _ _ _⟩
    · rw [FS.set_other _ _ hq]; exact .inl h

theorem createDir_frame (env : OsEnv) (p : Path) (fs fs' : FS F) (res : Res Unit) (h : FS.createDir env p fs = (res, fs')) (q : Path) (nd : Node F)
    (hq : fs q = some nd) : fs' q = some nd := by
  unfold FS.createDir at h
  repeat' split at h
  all_goals simp only [Prod.mk.injEq] at h
  all_goals obtain ⟨-, rfl⟩ := h
  all_goals first | exact hq | skip
  rename_i hn _
  rw [FS.set_other]
  · exact hq
  · rintro rfl; rw [hq] at hn; cases hn

/-- Every path that had a node has it still, up to appending to the cache file. -/
theorem partonic_frame (env : OsEnv) (ce : CacheEnv) (fuel : Nat) (key : CacheKey F) (fit : Rand E D → Res F × Rand E D) (fs fs' : FS F)
    (r r' : Rand E D) (x : Res F) (h : partonicCrossSection env ce fuel key fit fs r = (x, fs', r')) (q : Path) (nd : Node F)
    (hq : fs q = some nd) :
    fs' q = some nd ∨ (cachePath ce = some q ∧ ∃ s t, nd = .file (.text s) ∧ fs' q = some (.file (.text (s ++ t)))) := by
  unfold partonicCrossSection at h
  cases hd : cacheDir ce with
  | error e => simp only [hd, Prod.mk.injEq] at h; obtain ⟨-, rfl, -⟩ := h; exact .inl hq
  | ok dir =>
  simp only [hd] at h
  cases hc : FS.createDir env dir fs with
  | mk res fs1 =>
  have hq1 := createDir_frame env dir fs fs1 res hc q nd hq
  cases res with
  | error e => simp only [hc, Prod.mk.injEq] at h; obtain ⟨-, rfl, -⟩ := h; exact .inl hq1
  | ok u =>
  simp only [hc] at h
  have hq2 := openAppend_frame env (dir ++ ["cross_section.cache"]) fs1 q nd hq1
  split at h
  · simp only [Prod.mk.injEq] at h; obtain ⟨-, rfl, -⟩ := h; exact .inl hq1
  · simp only [Prod.mk.injEq] at h; obtain ⟨-, rfl, -⟩ := h; exact .inl hq1
  · split at h
    · simp only [Prod.mk.injEq] at h; obtain ⟨-, rfl, -⟩ := h; exact .inl hq2
    · simp only [Prod.mk.injEq] at h
      obtain ⟨-, rfl, -⟩ := h
      rcases appendText_frame env (dir ++ ["cross_section.cache"]) _ _ q nd hq2 with h1 | ⟨h1, old, h2, h3⟩
      · exact .inl h1
      · exact .inr ⟨by rw [h1]; exact cachePath_of hd, old, _, h2, h3⟩

theorem partonic_wellFormed (env : OsEnv) (ce : CacheEnv) (fuel : Nat) (key : CacheKey F) (fit : Rand E D → Res F × Rand E D) (fs fs' : FS F)
    (r r' : Rand E D) (x : Res F) (h : partonicCrossSection env ce fuel key fit fs r = (x, fs', r')) (hwf : WellFormed fs) : WellFormed fs' := by
  have set_wf : ∀ (g : FS F) (p : Path) (nd : Node F), WellFormed g → p ≠ [] → g p.dropLast = some .dir → (∀ m, g p = some m → m ≠ .dir) ∨ nd = .dir →
      WellFormed (g.set p nd) := by
    intro g p nd hg hp hdir hnd q name hne
    by_cases he : q ++ [name] = p
    · have hqd : g q = some .dir := by rw [← he] at hdir; simpa using hdir
      by_cases hqp : q = p
      · rw [hqp] at he; exact absurd (congrArg List.length he) (by simp)
      · rw [FS.set_other _ _ hqp]; exact hqd
    · rw [FS.set_other _ _ he] at hne
      have := hg q name hne
      by_cases hqp : q = p
      · subst hqp
        rcases hnd with hnd | rfl
        · exact absurd rfl (hnd _ this)
        · exact FS.set_same _ _ _
      · rw [FS.set_other _ _ hqp]; exact this
  have hcd : ∀ (g g' : FS F) (p : Path) (res : Res Unit), WellFormed g → FS.createDir env p g = (res, g') → WellFormed g' := by
    intro g g' p res hg h
    unfold FS.createDir at h
    repeat' split at h
    all_goals simp only [Prod.mk.injEq] at h
    all_goals obtain ⟨-, rfl⟩ := h
    all_goals first | exact hg | skip
    rename_i hn hcond
    simp only [Bool.and_eq_true, Bool.not_eq_true'] at hcond
    refine set_wf _ _ _ hg ?_ ?_ (.inr rfl)
    · intro hp; rw [hp] at hcond; simp at hcond
    · have := hcond.1.1
      unfold FS.isDir at this
      split at this
      · assumption
      · cases this
  have hopen : ∀ (g : FS F) (p : Path), g.canOpen env p = true → p ≠ [] ∧ g p.dropLast = some .dir ∧ ∀ m, g p = some m → m ≠ .dir := by
    intro g p h
    unfold FS.canOpen at h
    simp only [Bool.and_eq_true, Bool.not_eq_true'] at h
    refine ⟨?_, ?_, ?_⟩
    · intro hp; rw [hp] at h; simp at h
    · have := h.1.1.2
      unfold FS.isDir at this
      split at this
      · assumption
      · cases this
    · rintro m hm rfl
      have := h.1.2
      unfold FS.isDir at this
      rw [hm] at this
      cases this
  have hoa : ∀ (g : FS F) (p : Path), WellFormed g → WellFormed (openAppend env p g) := by
    intro g p hg
    unfold openAppend
    split
    · rename_i hco
      obtain ⟨h1, h2, h3⟩ := hopen g p hco
      split
      · exact set_wf _ _ _ hg h1 h2 (.inl h3)
      · exact hg
    · exact hg
  have hat : ∀ (g : FS F) (p : Path) (s : List Char), WellFormed g → WellFormed (appendText env p s g) := by
    intro g p s hg
    unfold appendText
    split
    · rename_i hco
      obtain ⟨h1, h2, h3⟩ := hopen g p hco
      split
      · exact set_wf _ _ _ hg h1 h2 (.inl h3)
      · exact hg
    · exact hg
  unfold partonicCrossSection at h
  cases hd : cacheDir ce with
  | error e => simp only [hd, Prod.mk.injEq] at h; obtain ⟨-, rfl, -⟩ := h; exact hwf
  | ok dir =>
  simp only [hd] at h
  cases hc : FS.createDir env dir fs with
  | mk res fs1 =>
  have hq1 := hcd _ _ _ _ hwf hc
  cases res with
  | error e => simp only [hc, Prod.mk.injEq] at h; obtain ⟨-, rfl, -⟩ := h; exact hq1
  | ok u =>
  simp only [hc] at h
  split at h
  · simp only [Prod.mk.injEq] at h; obtain ⟨-, rfl, -⟩ := h; exact hq1
  · simp only [Prod.mk.injEq] at h; obtain ⟨-, rfl, -⟩ := h; exact hq1
  · split at h
    · simp only [Prod.mk.injEq] at h; obtain ⟨-, rfl, -⟩ := h; exact hoa _ _ hq1
    · simp only [Prod.mk.injEq] at h; obtain ⟨-, rfl, -⟩ := h; exact hat _ _ _ (hoa _ _ hq1)

/-- The event loop only makes writer calls. -/
theorem runLoopOut_calls (rfuel fuel : ℕ) (c : Collider F) (ec : EventCfg F) (debug : Bool) (env : OsEnv) (wrs : List Writer) {n : ℕ}
    (k num : ℕ) (s : RunState F E D n) (W W' : World F) (res : Res (RunState F E D n))
    (h : runLoopOut rfuel fuel c ec debug env wrs k num s W = (res, W')) :
    ∃ (cs : List (EventRecord F n × Writer)) (res' : Res Unit), (∀ x ∈ cs, x.2 ∈ wrs) ∧ calls env cs W = (res', W') := by
  have hall : ∀ rs : List (EventRecord F n), ∀ x ∈ allCalls wrs rs, x.2 ∈ wrs := by
    intro rs x hx
    unfold allCalls at hx
    rw [List.mem_flatMap] at hx
    obtain ⟨r, -, hx⟩ := hx
    rw [List.mem_map] at hx
    obtain ⟨wr, hwr, rfl⟩ := hx
    exact hwr
  cases res with
  | ok s' =>
    obtain ⟨rs, -, h2⟩ := runLoopOut_ok _ _ _ _ _ _ _ _ _ _ _ _ _ h
    exact ⟨_, _, hall rs, h2⟩
  | error e =>
    obtain ⟨j, rs, s', W1, -, -, h3, h4⟩ := runLoopOut_error _ _ _ _ _ _ _ _ _ _ _ _ _ h
    rcases h4 with rfl | ⟨rec, -, h4⟩
    · exact ⟨_, _, hall rs, h3⟩
    · refine ⟨allCalls wrs rs ++ wrs.map (fun wr => (rec, wr)), .error e, ?_, ?_⟩
      · intro x hx
        rcases List.mem_append.mp hx with hx | hx
        · exact hall rs x hx
        · rw [List.mem_map] at hx
          obtain ⟨wr, hwr, rfl⟩ := hx
          exact hwr
      · rw [calls_append, h3]
        dsimp only
        rw [← outputEvent_calls]
        exact h4

/-- **C65.** Whatever the arguments and however the program ends, everything in the file system that had content before (directories
and non-empty files) is still there unchanged, except that text may have been appended to the cross section cache. -/
theorem C65_program_only_adds (L : Lib F) (env : OsEnv) (ce : CacheEnv) (fu : Fuel) (h5view : FS F → String → H5View F)
    (ev0 : (n : Nat) → Event F n) (args : List String) (W W' : World F) (r : Rand E D) (x : Exit) (err : List Char)
    (hwf : WellFormed W.fs) (h : mainProg L env ce fu h5view ev0 args W r = (x, W', err)) : OnlyAdds ce W.fs W'.fs := by
  unfold mainProg at h
  cases hc : configure L env ce W.fs args with
  | error e => simp only [hc, Prod.mk.injEq] at h; obtain ⟨-, rfl, -⟩ := h; exact fun q nd hq _ => .inl hq
  | ok cmd =>
  cases cmd with
  | help => simp only [hc, Prod.mk.injEq] at h; obtain ⟨-, rfl, -⟩ := h; exact fun q nd hq _ => .inl hq
  | version => simp only [hc, Prod.mk.injEq] at h; obtain ⟨-, rfl, -⟩ := h; exact fun q nd hq _ => .inl hq
  | bibtex => simp only [hc, Prod.mk.injEq] at h; obtain ⟨-, rfl, -⟩ := h; exact fun q nd hq _ => .inl hq
  | run vm =>
  simp only [hc] at h
  have hrun : ∃ res, runCommand L env ce fu h5view ev0 vm W r = (res, W') := by
    cases hr : runCommand L env ce fu h5view ev0 vm W r with
    | mk res W2 =>
      simp only [hr] at h
      cases res with
      | error e => simp only [Prod.mk.injEq] at h; exact ⟨_, by rw [h.2.1]⟩
      | ok u => simp only [Prod.mk.injEq] at h; exact ⟨_, by rw [h.2.1]⟩
  clear h
  obtain ⟨res, hr⟩ := hrun
  unfold runCommand at hr
  cases hcc : constructCollider L env ce fu h5view vm W r with
  | mk cres rest =>
  obtain ⟨W1, r2⟩ := rest
  simp only [hcc] at hr
  -- the world after construction
  have hW1 : OnlyAdds ce W.fs W1.fs ∧ ∀ c ec wrs, cres = .ok (c, ec, wrs) → ∀ {n : ℕ} (cs : List (EventRecord F n × Writer)),
      (∀ x ∈ cs, x.2 ∈ wrs) → ∀ res' W2, calls env cs W1 = (res', W2) → OnlyAdds ce W.fs W2.fs := by
    rcases constructCollider_world L env ce fu h5view vm W W1 r r2 _ hcc with
      ⟨rfl, e, rfl⟩ | ⟨key, x, fs1, r1, hp, ⟨rfl, e, rfl⟩ | ⟨N, oo, res2, hm, hok⟩⟩
    · exact ⟨fun q nd hq _ => .inl hq, fun _ _ _ h => by cases h⟩
    · exact ⟨fun q nd hq _ => partonic_frame env ce fu.cache key _ W.fs fs1 r r1 x hp q nd hq, fun _ _ _ h => by cases h⟩
    · have hwf1 := partonic_wellFormed env ce fu.cache key _ W.fs fs1 r r1 x hp hwf
      obtain ⟨p1, p2⟩ := C44_no_overwrite env L.hdf5 N oo { W with fs := fs1 } W1 res2 hwf1 hm
      have step : ∀ fs2 : FS F, Preserved fs1 fs2 → OnlyAdds ce W.fs fs2 := by
        intro fs2 hpres q nd hq hne
        rcases partonic_frame env ce fu.cache key _ W.fs fs1 r r1 x hp q nd hq with h1 | ⟨h1, s, t, rfl, h3⟩
        · exact .inl (hpres q nd h1 hne)
        · refine .inr ⟨h1, s, t, rfl, hpres q _ h3 ?_⟩
          intro he
          injection he with he
          injection he with he
          have hs : s = [] := (List.append_eq_nil_iff.mp he).1
          exact hne (by rw [hs])
      refine ⟨step _ p1, fun c ec wrs hcw n cs hcs res' W2 hcalls => step _ ?_⟩
      exact p2 wrs (hok c ec wrs hcw) cs hcs res' W2 hcalls
  cases cres with
  | error e => simp only [Prod.mk.injEq] at hr; rw [← hr.2]; exact hW1.1
  | ok t =>
  obtain ⟨c, ec, wrs⟩ := t
  dsimp only at hr
  split at hr
  · simp only [Prod.mk.injEq] at hr; rw [← hr.2]; exact hW1.1
  · split at hr
    · simp only [Prod.mk.injEq] at hr; rw [← hr.2]; exact hW1.1
    · cases hl : runLoopOut fu.reject fu.collide c ec L.debug env wrs c.nevents.toNat 0
        ⟨c.nucleusA, c.nucleusB, ev0 ec.nsteps.toNat, r2⟩ W1 with
      | mk lres W3 =>
      have hW3 : W3 = W' := by
        simp only [hl] at hr
        cases lres with
        | error e => simp only [Prod.mk.injEq] at hr; exact hr.2
        | ok u => simp only [Prod.mk.injEq] at hr; exact hr.2
      obtain ⟨cs, res', g1, g2⟩ := runLoopOut_calls _ _ _ _ _ _ _ _ _ _ _ _ _ hl
      rw [← hW3]
      exact hW1.2 c ec wrs rfl cs g1 res' W3 g2

/-! ## C66: seeded runs -/

theorem partonic_same (env : OsEnv) (ce : CacheEnv) (fuel : Nat) (key : CacheKey F) (fit : Rand E D → Res F × Rand E D) (fs : FS F)
    (r r' : Rand E D) (hfit : (fit r).1 = (fit r').1) :
    (partonicCrossSection env ce fuel key fit fs r).1 = (partonicCrossSection env ce fuel key fit fs r').1 ∧
    (partonicCrossSection env ce fuel key fit fs r).2.1 = (partonicCrossSection env ce fuel key fit fs r').2.1 := by
  unfold partonicCrossSection
  cases hd : cacheDir ce with
  | error e => exact ⟨rfl, rfl⟩
  | ok dir =>
  dsimp only
  cases hc : FS.createDir env dir fs with
  | mk res fs1 =>
  cases res with
  | error e => exact ⟨rfl, rfl⟩
  | ok u =>
  dsimp only
  split
  · exact ⟨rfl, rfl⟩
  · exact ⟨rfl, rfl⟩
  · cases h1 : fit r with
    | mk x y =>
    cases h2 : fit r' with
    | mk x' y' =>
    rw [h1, h2] at hfit
    dsimp only at hfit
    subst hfit
    cases x with
    | error e => exact ⟨rfl, rfl⟩
    | ok sp => exact ⟨rfl, rfl⟩

theorem seedRand_same (seed : Int) (hs : 0 < seed) (r r' : Rand E D) : seedRand F seed r = seedRand F seed r' := by
  unfold seedRand
  rw [if_pos hs, if_pos hs]

theorem constructCollider_same (L : Lib F) (env : OsEnv) (ce : CacheEnv) (fu : Fuel) (h5view : FS F → String → H5View F)
    (vm : VarMap F) (W : World F) (r r' : Rand E D) (seed : Int) (hseed : vm.int "random-seed" = .ok seed) (hs : 0 < seed)
    (H : ∀ key, readKey vm = .ok key →
      (partonicCrossSection env ce fu.cache key (crossSectionFit fu.mc key) W.fs r).1 =
        (partonicCrossSection env ce fu.cache key (crossSectionFit fu.mc key) W.fs r').1 ∧
      (partonicCrossSection env ce fu.cache key (crossSectionFit fu.mc key) W.fs r).2.1 =
        (partonicCrossSection env ce fu.cache key (crossSectionFit fu.mc key) W.fs r').2.1) :
    ∃ res W' r1 r1', constructCollider L env ce fu h5view vm W r = (res, W', r1) ∧
      constructCollider L env ce fu h5view vm W r' = (res, W', r1') ∧ (∀ t, res = .ok t → r1 = r1') := by
  unfold constructCollider
  cases hA : createFrom L (h5view W.fs) vm 0 with
  | error e => exact ⟨_, _, _, _, rfl, rfl, fun t h => by cases h⟩
  | ok A =>
  cases hB : createFrom L (h5view W.fs) vm 1 with
  | error e => exact ⟨_, _, _, _, rfl, rfl, fun t h => by cases h⟩
  | ok B =>
  cases ho : readOptions vm A B with
  | error e => simp only [ho]; exact ⟨_, _, _, _, rfl, rfl, fun t h => by cases h⟩
  | ok o =>
  have hos : o.randomSeed = seed := by
    have := (readOptions_ok vm A B o ho).2.2.randomSeed
    rw [hseed] at this
    cases this; rfl
  cases hk : readKey vm with
  | error e => simp only [ho]; exact ⟨_, _, _, _, rfl, rfl, fun t h => by cases h⟩
  | ok key =>
  obtain ⟨H1, H2⟩ := H key hk
  cases hp : partonicCrossSection env ce fu.cache key (crossSectionFit fu.mc key) W.fs r with
  | mk x rest =>
  obtain ⟨fs1, r1⟩ := rest
  cases hp' : partonicCrossSection env ce fu.cache key (crossSectionFit fu.mc key) W.fs r' with
  | mk x' rest =>
  obtain ⟨fs1', r1'⟩ := rest
  rw [hp, hp'] at H1 H2
  dsimp only at H1 H2
  subst H1 H2
  cases x with
  | error e => simp only [ho, hp, hp']; exact ⟨_, _, _, _, rfl, rfl, fun t h => by cases h⟩
  | ok sigma =>
  simp only [ho, hp, hp']
  cases he : EventCfg.make o.normalization o.gridStep o.gridMax o.reducedThickness with
  | error e => exact ⟨_, _, _, _, rfl, rfl, fun t h => by cases h⟩
  | ok ec =>
  cases hoo : readOutOptions vm with
  | error e => exact ⟨_, _, _, _, rfl, rfl, fun t h => by cases h⟩
  | ok oo =>
  cases hm : outputMake env L.hdf5 o.numberEvents oo { W with fs := fs1 } with
  | mk res2 W2 =>
  cases res2 with
  | error e => simp only [hm]; exact ⟨_, _, _, _, rfl, rfl, fun t h => by cases h⟩
  | ok wrs =>
    simp only [hm]
    refine ⟨_, _, _, _, rfl, rfl, fun t _ => ?_⟩
    rw [hos]
    exact seedRand_same seed hs r1 r1'

/-- **C66.** With a positive random seed the complete outcome of the program — exit status, standard output, standard error and every
file — is the same whatever the state of the random engine at the start of the process, provided the cross section parameter does
not have to be fitted by Monte Carlo: there is one constituent (or less), or the cache answers. -/
theorem C66_seeded_program (L : Lib F) (env : OsEnv) (ce : CacheEnv) (fu : Fuel) (h5view : FS F → String → H5View F)
    (ev0 : (n : Nat) → Event F n) (args : List String) (W : World F) (r r' : Rand E D)
    (h : ∀ vm, configure L env ce W.fs args = .ok (.run vm) → ∃ seed m, vm.int "random-seed" = .ok seed ∧ 0 < seed ∧
      vm.int "constit-number" = .ok m ∧ (m ≤ 1 ∨ ∀ key, readKey vm = .ok key →
        ∃ x fs1, ∀ (fit : Rand E D → Res F × Rand E D) r, partonicCrossSection env ce fu.cache key fit W.fs r = (x, fs1, r))) :
    mainProg L env ce fu h5view ev0 args W r = mainProg L env ce fu h5view ev0 args W r' := by
  unfold mainProg
  cases hc : configure L env ce W.fs args with
  | error e => rfl
  | ok cmd =>
  cases cmd with
  | help => rfl
  | version => rfl
  | bibtex => rfl
  | run vm =>
  obtain ⟨seed, m, hseed, hs, hm, hcase⟩ := h vm hc
  have key : runCommand L env ce fu h5view ev0 vm W r = runCommand L env ce fu h5view ev0 vm W r' := by
    obtain ⟨res, W', r1, r1', c1, c2, c3⟩ := constructCollider_same L env ce fu h5view vm W r r' seed hseed hs (by
      intro key hk
      rcases hcase with hm1 | hcache
      · apply partonic_same
        have : key.m = m := by
          have := (readKey_ok vm key hk).1
          rw [hm] at this
          cases this; rfl
        unfold crossSectionFit
        rw [if_neg (by omega), if_neg (by omega)]
      · obtain ⟨x, fs1, hx⟩ := hcache key hk
        rw [hx, hx]
        exact ⟨rfl, rfl⟩)
    unfold runCommand
    rw [c1, c2]
    cases res with
    | error e => rfl
    | ok t => rw [c3 t rfl]
  dsimp only
  rw [key]

end

/-- A cache that holds the configuration answers, whatever the fit. -/
theorem C66_cache_answers {E D : Type} [Rng ℝ E D] (env : OsEnv) (ce : CacheEnv) {fs : FS ℝ} {recs : List CacheRecord} (hs : CacheState env ce fs recs)
    (hne : recs ≠ []) (key : CacheKey ℝ) (c : ℝ) (hl : lookup recs key = some c) (fuel : Nat) (hf : recs.length < fuel) :
    ∀ (fit : Rand E D → Res ℝ × Rand E D) r, partonicCrossSection env ce fuel key fit fs r = (.ok c, fs, r) := by
  intro fit r
  exact (C50_lookup env ce hs hne key fit r fuel hf).1 c hl

end Trento
