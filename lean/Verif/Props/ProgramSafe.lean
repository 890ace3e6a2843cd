import Verif.Props.RunOutput
import Verif.Props.CrossSectionFit
import Verif.Props.MonteCarlo

/-!
# C61: the whole program executes no undefined behaviour

From the command line to the last written event, for every reasonable configuration.
-/

namespace Trento
open Spec
set_option linter.unusedSectionVars false

/-! ## Writing -/

section
variable {F : Type} [Arith F] [NumFmt F]

/-- One event through text and standard output writers: never an error, whatever the file system does. -/
theorem run_text_ok (env : OsEnv) (wr : Writer) (hwr : (∃ wd, wr = .stdout wd) ∨ ∃ d wd h, wr = .text d wd h) {n : ℕ} (h2 : 2 ≤ n)
    (rec : EventRecord F n) (W : World F) : ∃ W', wr.run env rec W = (.ok (), W') := by
  rcases hwr with ⟨wd, rfl⟩ | ⟨d, wd, h, rfl⟩
  · exact ⟨_, rfl⟩
  · unfold Writer.run
    dsimp only
    unfold writeTextFile
    dsimp only
    split
    · rw [textFileBody_eq _ _ _ (by omega)]; exact ⟨_, rfl⟩
    · obtain ⟨os, h⟩ := textFileBody_bad rec.num rec.b rec.ncoll (by omega : n ≠ 1) rec.event h
      rw [h]; exact ⟨_, rfl⟩

theorem calls_ok_of (env : OsEnv) {n : ℕ} (cs : List (EventRecord F n × Writer))
    (h : ∀ c ∈ cs, ∀ W, ∃ W', c.2.run env c.1 W = (.ok (), W')) (W : World F) : ∃ W', calls env cs W = (.ok (), W') := by
  induction cs generalizing W with
  | nil => exact ⟨W, rfl⟩
  | cons c cs ih =>
    obtain ⟨W1, h1⟩ := h c (by simp) W
    obtain ⟨W2, h2⟩ := ih (fun c hc => h c (by simp [hc])) W1
    refine ⟨W2, ?_⟩
    rw [calls, h1]
    exact h2

/-- The writers the output constructor makes, by kind of output. -/
theorem outputMake_kinds (env : OsEnv) (hdf5 : Bool) (N : ℤ) (oo : OutOptions) (W W' : World F) (wrs : List Writer)
    (h : outputMake env hdf5 N oo W = (.ok wrs, W')) :
    (∀ wr ∈ wrs, (∃ wd, wr = .stdout wd) ∨ ∃ d wd h, wr = .text d wd h) ∨
    ∃ path, oo.output = some path ∧ filenameIsHdf5 path = true := by
  by_cases hh : ∃ path, oo.output = some path ∧ filenameIsHdf5 path = true
  · exact .inr hh
  left
  unfold outputMake at h
  split at h
  · simp only [Prod.mk.injEq] at h; cases h.1
  · rename_i width hwd
    dsimp only at h
    have hstd : ∀ wr ∈ (if oo.quiet = true then ([] : List Writer) else [.stdout width.toNat]),
        (∃ wd, wr = .stdout wd) ∨ ∃ d wd h, wr = .text d wd h := by
      intro wr hwr
      split at hwr
      · cases hwr
      · rw [List.mem_singleton] at hwr; exact .inl ⟨_, hwr⟩
    generalize (if oo.quiet = true then ([] : List Writer) else [.stdout width.toNat]) = std at h hstd
    split at h
    · simp only [Prod.mk.injEq, Except.ok.injEq] at h
      rw [← h.1]; exact hstd
    · rename_i path hpath
      split at h
      · rename_i hh5; exact absurd ⟨path, hpath, hh5⟩ hh
      · have hall : ∀ p w hd, ∀ wr ∈ std ++ [Writer.text p w hd], (∃ wd, wr = .stdout wd) ∨ ∃ d wd h, wr = .text d wd h := by
          intro p w hd wr hwr
          rw [List.mem_append, List.mem_singleton] at hwr
          rcases hwr with hwr | rfl
          · exact hstd wr hwr
          · exact .inr ⟨_, _, _, rfl⟩
        repeat' split at h
        all_goals simp only [Prod.mk.injEq, Except.ok.injEq, reduceCtorEq, false_and] at h
        all_goals rw [← h.1]; exact hall _ _ _

/-- **C61, writing.** Once the output is set up, writing any sequence of events with different numbers succeeds: no undefined
behaviour and no exception, whatever the file system accepts or refuses (grid of at least two cells per direction). -/
theorem C61_writing (env : OsEnv) (hdf5 : Bool) (N : ℤ) (oo : OutOptions) (W W1 : World F) (wrs : List Writer)
    (h : outputMake env hdf5 N oo W = (.ok wrs, W1)) {n : ℕ} (h2 : 2 ≤ n) (rs : List (EventRecord F n)) (hnd : (rs.map (·.num)).Nodup) :
    ∃ W2, calls env (allCalls wrs rs) W1 = (.ok (), W2) := by
  rcases outputMake_kinds env hdf5 N oo W W1 wrs h with hk | ⟨path, ho, hh⟩
  · apply calls_ok_of
    intro c hc W
    unfold allCalls at hc
    rw [List.mem_flatMap] at hc
    obtain ⟨r, -, hc⟩ := hc
    rw [List.mem_map] at hc
    obtain ⟨wr, hwr, rfl⟩ := hc
    exact run_text_ok env wr (hk wr hwr) h2 r W
  · obtain ⟨std, rfl, hstd, hp⟩ := outputMake_hdf5 env hdf5 N oo W W1 wrs path ho hh h
    obtain ⟨W2, h3, -⟩ := outputH5_all env std hstd _ (by omega) rs W1 [] hp (by
      simp only [List.map_nil, List.nil_append]
      have : rs.map (fun r => (datasetOf r).name) = (rs.map (·.num)).map (fun i => "event_".toList ++ natDigits i) := by
        rw [List.map_map]
        apply List.map_congr_left
        intro r _
        simp [datasetOf, h5Event, intDigits_ofNat]
      rw [this]
      refine List.Nodup.map ?_ hnd
      intro i j hij
      exact natDigits_injective (List.append_right_inj _ |>.mp hij))
    exact ⟨W2, h3⟩

theorem createDirs_error (env : OsEnv) (done : Path) (rest : List String) (fs fs' : FS F) (e : Err)
    (h : FS.createDirs env done rest fs = (.error e, fs')) : IsStdException e := by
  induction rest generalizing done fs with
  | nil => simp only [FS.createDirs, Prod.mk.injEq] at h; cases h.1
  | cons c rest ih =>
    rw [FS.createDirs] at h
    split at h
    · exact ih _ _ h
    · simp only [Prod.mk.injEq, Except.error.injEq] at h
      exact ⟨_, _, h.1.symm, by decide⟩
    · split at h
      · exact ih _ _ h
      · simp only [Prod.mk.injEq, Except.error.injEq] at h
        exact ⟨_, _, h.1.symm, by decide⟩

/-- The event loop with output fails only like the event loop without output, if writing always succeeds. -/
theorem runLoopOut_fails {E D : Type} [Rng F E D] (rfuel fuel : ℕ) (c : Collider F) (ec : EventCfg F) (debug : Bool) (env : OsEnv) (wrs : List Writer) {n : ℕ}
    (k num : ℕ) (s : RunState F E D n) (W0 W W' : World F) (e : Err) (done : List (EventRecord F n))
    (hdone : done.map (·.num) = List.range num) (hW : calls env (allCalls wrs done) W0 = (.ok (), W))
    (hok : ∀ rs : List (EventRecord F n), (rs.map (·.num)).Nodup → ∃ W2, calls env (allCalls wrs rs) W0 = (.ok (), W2))
    (h : runLoopOut rfuel fuel c ec debug env wrs k num s W = (.error e, W')) :
    runLoop rfuel fuel c ec debug k num s = .error e := by
  induction k generalizing num s W done with
  | zero => simp only [runLoopOut, Prod.mk.injEq] at h; cases h.1
  | succ k ih =>
    rw [runLoopOut] at h
    rw [runLoop]
    cases hsc : c.sampleCollision rfuel fuel s.A s.B s.rand with
    | error e' =>
      simp only [hsc, Prod.mk.injEq, Except.error.injEq] at h
      simp only [h.1]
    | ok res =>
      obtain ⟨⟨b, ncoll, A, B⟩, w⟩ := res
      simp only [hsc] at h
      cases hev : s.event.compute ec c.nc debug A.nucleons B.nucleons with
      | error e' =>
        simp only [hev, Prod.mk.injEq, Except.error.injEq] at h
        simp only [hev, h.1]
      | ok ev =>
        simp only [hev] at h
        simp only [hev]
        have hnext : (done ++ [(⟨num, b, ncoll, ev⟩ : EventRecord F n)]).map (·.num) = List.range (num + 1) := by
          rw [List.map_append, hdone, List.range_succ]; rfl
        obtain ⟨W2, hW2⟩ := hok (done ++ [⟨num, b, ncoll, ev⟩]) (by rw [hnext]; exact List.nodup_range)
        have hsplit : allCalls wrs (done ++ [⟨num, b, ncoll, ev⟩]) =
            allCalls wrs done ++ wrs.map (fun wr => ((⟨num, b, ncoll, ev⟩ : EventRecord F n), wr)) := by
          unfold allCalls; rw [List.flatMap_append]; simp
        have hW2' := hW2
        rw [hsplit, calls_append, hW] at hW2'
        dsimp only at hW2'
        rw [← outputEvent_calls] at hW2'
        simp only [hW2'] at h
        have := ih (num + 1) ⟨A, B, ev, w⟩ W2 (done ++ [⟨num, b, ncoll, ev⟩]) hnext hW2 h
        simp only [this]

end

/-! ## The cross section -/

/-- A cache the program can work with: the directory is known, and the cache file does not exist or is readable and consists of at
least one complete record. -/
def Spec.CacheUsable (ce : CacheEnv) (fs : FS ℝ) (fuel : ℕ) : Prop :=
  ∃ d, cacheDir ce = .ok d ∧ (fs (d ++ ["cross_section.cache"]) = none ∨
    ∃ t recs, fs (d ++ ["cross_section.cache"]) = some (.file (.text t)) ∧ ce.readOk (d ++ ["cross_section.cache"]) = true ∧
      CacheContent t recs ∧ recs ≠ [] ∧ recs.length < fuel)

theorem createDir_error {F : Type} (env : OsEnv) (p : Path) (fs fs' : FS F) (e : Err) (h : FS.createDir env p fs = (.error e, fs')) :
    IsStdException e := by
  unfold FS.createDir at h
  repeat' split at h
  all_goals simp only [Prod.mk.injEq, Except.error.injEq, reduceCtorEq, false_and] at h
  all_goals exact ⟨_, _, h.1.symm, by decide⟩

theorem createDir_other {F : Type} (env : OsEnv) (p q : Path) (hq : q ≠ p) (fs fs' : FS F) (res : Res Unit) (h : FS.createDir env p fs = (res, fs')) :
    fs' q = fs q := by
  unfold FS.createDir at h
  repeat' split at h
  all_goals simp only [Prod.mk.injEq] at h
  all_goals rw [← h.2]
  unfold FS.set
  exact if_neg hq

variable {E D : Type}

/-- With a usable cache, determining the cross section fails only if the directory cannot be created or the fit fails. -/
theorem partonic_error (env : OsEnv) (ce : CacheEnv) (fuel : ℕ) (key : CacheKey ℝ) (fit : Rand E D → Res ℝ × Rand E D) (fs fs1 : FS ℝ)
    (r r1 : Rand E D) (e : Err) (hc : CacheUsable ce fs fuel) (h : partonicCrossSection env ce fuel key fit fs r = (.error e, fs1, r1)) :
    IsStdException e ∨ ∃ r', fit r = (.error e, r') := by
  obtain ⟨d, hd, hcache⟩ := hc
  have hne : d ++ ["cross_section.cache"] ≠ d := by
    intro h; have := congrArg List.length h; simp at this
  unfold partonicCrossSection at h
  rw [hd] at h
  dsimp only at h
  cases hcd : FS.createDir env d fs with
  | mk res fs2 =>
  have hsame := createDir_other env d _ hne fs fs2 res hcd
  simp only [hcd] at h
  cases res with
  | error e' =>
    simp only [Prod.mk.injEq, Except.error.injEq] at h
    rw [← h.1]
    exact .inl (createDir_error env d fs fs2 e' hcd)
  | ok u =>
    dsimp only at h
    have hsearch : ∃ x, (if fs2.exists (d ++ ["cross_section.cache"]) then searchCache key fuel {} (openRead ce fs2 (d ++ ["cross_section.cache"]))
        else .ok none) = .ok x := by
      rcases hcache with hn | ⟨t, recs, ht, hread, hcc, hrn, hf⟩
      · rw [hn] at hsame
        have : fs2.exists (d ++ ["cross_section.cache"]) = false := by simp [FS.exists, hsame]
        rw [this]; exact ⟨none, rfl⟩
      · rw [ht] at hsame
        have : fs2.exists (d ++ ["cross_section.cache"]) = true := by simp [FS.exists, hsame]
        rw [this]
        have ho : openRead ce fs2 (d ++ ["cross_section.cache"]) = { rest := t } := by unfold openRead; rw [hsame]; simp [hread]
        rw [ho]
        exact ⟨_, search_lookup key hcc hrn fuel hf⟩
    obtain ⟨x, hx⟩ := hsearch
    rw [hx] at h
    cases x with
    | some sp => simp only [Prod.mk.injEq] at h; cases h.1
    | none =>
      dsimp only at h
      cases hfit : fit r with
      | mk res r' =>
      simp only [hfit] at h
      cases res with
      | error e' =>
        simp only [Prod.mk.injEq, Except.error.injEq] at h
        rw [h.1]
        exact .inr ⟨r', rfl⟩
      | ok sp => simp only [Prod.mk.injEq] at h; cases h.1

/-- The part of Boost's contract needed here: the root finder itself does not execute undefined behaviour, it returns, throws an
exception of its own or passes on an exception of the function. -/
class Spec.SafeToms [Toms748 ℝ] : Prop where
  errors : ∀ {S : Type} (f : ℝ → S → Res ℝ × S) (a b : ℝ) (bits n : ℕ) (s : S) (e : Err), (Toms748.solve f a b bits n s).1 = .error e →
    IsStdException e ∨ ∃ x s', (f x s').1 = .error e

theorem trivialToms_safe : @SafeToms trivialToms := by
  refine @SafeToms.mk trivialToms ?_
  intro S f a b bits n s e h
  change (match f a s with
    | (.error e, s) => ((.error e, s) : Res (ℝ × ℝ) × S)
    | (.ok fa, s) =>
      match f b s with
      | (.error e, s) => (.error e, s)
      | (.ok fb, s) => if lt (lit 0) (fa * fb) then (.error (.throw .domainError "no bracket"), s) else (.ok (a, b), s)).1 = _ at h
  cases h1 : f a s with
  | mk res s1 =>
  rw [h1] at h
  cases res with
  | error e' => dsimp only at h; injection h with h; exact .inr ⟨a, s, by rw [h1, h]⟩
  | ok fa =>
    dsimp only at h
    cases h2 : f b s1 with
    | mk res s2 =>
    rw [h2] at h
    cases res with
    | error e' => dsimp only at h; injection h with h; exact .inr ⟨b, s1, by rw [h2, h]⟩
    | ok fb =>
      dsimp only at h
      split at h
      · injection h with h; exact .inl ⟨_, _, h.symm, by decide⟩
      · cases h

theorem fitResult_error (scale : ℝ → ℝ) (x : Res (ℝ × ℝ)) (e : Err) (h : fitResult scale x = .error e) :
    IsStdException e ∨ x = .error e := by
  unfold fitResult at h
  split at h
  · cases h
  · injection h with h; exact .inl ⟨_, _, h.symm, by decide⟩
  · injection h with h; exact .inr (by rw [h])

/-- The fits fail only with exceptions. -/
theorem crossSectionFit_error [Toms748 ℝ] [SafeToms] [Rng ℝ E D] [LawfulRng E D] (key : CacheKey ℝ) (r r' : Rand E D) (e : Err)
    (h : crossSectionFit mcConst key r = (.error e, r')) : IsStdException e := by
  unfold crossSectionFit at h
  split at h
  · unfold numericCrossSection at h
    dsimp only at h
    simp only [Prod.mk.injEq] at h
    rcases fitResult_error _ _ e h.1 with he | he
    · exact he
    · rcases SafeToms.errors _ _ _ _ _ _ _ he with he | ⟨x, s', he⟩
      · exact he
      · rcases C54_outcome key.w key.v key.m.toNat (exp x * (lit 4 * pi * sqr key.v)) s' with ⟨cs, ps, r2, h1⟩ | ⟨msg, h1⟩
        · rw [h1] at he; cases he
        · rw [h1] at he; injection he with he; exact ⟨_, _, he.symm, by decide⟩
  · simp only [Prod.mk.injEq] at h
    unfold analyticCrossSection at h
    rcases fitResult_error _ _ e h.1 with he | he
    · exact he
    · rcases SafeToms.errors _ _ _ _ _ _ _ he with he | ⟨x, s', he⟩
      · exact he
      · cases he

/-- Setting up the output for a positive number of events fails only with exceptions; the HDF5 library throws one of its own if it
cannot open the file. -/
theorem outputMake_error (env : OsEnv) (hdf5 : Bool) (N : ℤ) (h1 : 1 ≤ N) (h2 : N ≤ 2147483647) (oo : OutOptions) (W W' : World ℝ) (e : Err)
    (h : outputMake env hdf5 N oo W = (.error e, W')) :
    IsStdException e ∨ ∃ path msg, oo.output = some path ∧ filenameIsHdf5 path = true ∧ hdf5 = true ∧ e = .throw .h5Exception msg ∧
      W.fs.canOpen env (env.resolve path) = false := by
  unfold outputMake at h
  rw [C41_width h1 h2] at h
  dsimp only at h
  split at h
  · simp only [Prod.mk.injEq] at h; cases h.1
  · rename_i path hpath
    split at h
    · rename_i hh
      split at h
      · simp only [Prod.mk.injEq, Except.error.injEq] at h; exact .inl ⟨_, _, h.1.symm, by decide⟩
      · rename_i hb
        split at h
        · simp only [Prod.mk.injEq, Except.error.injEq] at h; exact .inl ⟨_, _, h.1.symm, by decide⟩
        · split at h
          · simp only [Prod.mk.injEq] at h; cases h.1
          · rename_i hopen
            simp only [Prod.mk.injEq, Except.error.injEq] at h
            exact .inr ⟨path, _, hpath, hh, by simpa using hb, h.1.symm, by simpa using hopen⟩
    · split at h
      · split at h
        · simp only [Prod.mk.injEq, Except.error.injEq] at h; exact .inl ⟨_, _, h.1.symm, by decide⟩
        · simp only [Prod.mk.injEq] at h; cases h.1
      · cases hcd : FS.createDirs env [] (env.resolve path) W.fs with
        | mk res fs =>
        simp only [hcd] at h
        cases res with
        | error e' =>
          simp only [Prod.mk.injEq, Except.error.injEq] at h
          rw [← h.1]; exact .inl (createDirs_error _ _ _ _ _ _ hcd)
        | ok u => simp only [Prod.mk.injEq] at h; cases h.1

/-! ## The options can be read -/

section
variable {F : Type} [Arith F]

theorem readOptions_typed (vm : VarMap F) (h : Typed vm) (A B : Nucleus F) : ∃ o, readOptions vm A B = .ok o := by
  obtain ⟨x1, h1⟩ := h.dbl "nucleon-width" (by simp)
  obtain ⟨x2, h2⟩ := h.dbl "constit-width" (by simp)
  obtain ⟨x3, h3⟩ := h.int "constit-number" (by simp)
  obtain ⟨x4, h4⟩ := h.bool "ncoll" (by simp)
  obtain ⟨x5, h5⟩ := h.dbl "fluctuation" (by simp)
  obtain ⟨x6, h6⟩ := h.int "number-events" (by simp)
  obtain ⟨x7, h7⟩ := h.dbl "b-min" (by simp)
  obtain ⟨x8, h8⟩ := h.dbl "b-max" (by simp)
  obtain ⟨x9, h9⟩ := h.dbl "normalization" (by simp)
  obtain ⟨x10, h10⟩ := h.dbl "grid-step" (by simp)
  obtain ⟨x11, h11⟩ := h.dbl "grid-max" (by simp)
  obtain ⟨x12, h12⟩ := h.dbl "reduced-thickness" (by simp)
  obtain ⟨x13, h13⟩ := h.dbl "cross-section" (by simp)
  obtain ⟨x14, h14⟩ := h.int "random-seed" (by simp)
  unfold readOptions
  simp only [h1, h2, h3, h4, h5, h6, h7, h8, h9, h10, h11, h12, h13, h14, bind, Except.bind, pure, Except.pure]
  exact ⟨_, rfl⟩

theorem readKey_typed (vm : VarMap F) (h : Typed vm) : ∃ key, readKey vm = .ok key := by
  obtain ⟨x1, h1⟩ := h.dbl "nucleon-width" (by simp)
  obtain ⟨x2, h2⟩ := h.dbl "constit-width" (by simp)
  obtain ⟨x3, h3⟩ := h.int "constit-number" (by simp)
  obtain ⟨x13, h13⟩ := h.dbl "cross-section" (by simp)
  unfold readKey
  simp only [h1, h2, h3, h13, bind, Except.bind, pure, Except.pure]
  exact ⟨_, rfl⟩

theorem readOutOptions_typed (vm : VarMap F) (h : Typed vm) : ∃ oo, readOutOptions vm = .ok oo := by
  obtain ⟨x1, h1⟩ := h.bool "quiet" (by simp)
  obtain ⟨x2, h2⟩ := h.bool "no-header" (by simp)
  unfold readOutOptions
  simp only [h1, h2, bind, Except.bind, pure, Except.pure]
  split
  · rename_i hc
    obtain ⟨s, hs⟩ := h.output hc
    simp only [hs]
    exact ⟨_, rfl⟩
  · exact ⟨_, rfl⟩

end

theorem configured_unique (vm : VarMap ℝ) (o o' : Options ℝ) (h : Configured vm o) (h' : Configured vm o')
    (hA : o.projectileA = o'.projectileA) (hB : o.projectileB = o'.projectileB) : o = o' := by
  have e1 := h.numberEvents.symm.trans h'.numberEvents
  have e2 := h.ncoll.symm.trans h'.ncoll
  have e3 := h.reducedThickness.symm.trans h'.reducedThickness
  have e4 := h.fluctuation.symm.trans h'.fluctuation
  have e5 := h.nucleonWidth.symm.trans h'.nucleonWidth
  have e6 := h.constitWidth.symm.trans h'.constitWidth
  have e7 := h.crossSection.symm.trans h'.crossSection
  have e8 := h.normalization.symm.trans h'.normalization
  have e9 := h.bMin.symm.trans h'.bMin
  have e10 := h.bMax.symm.trans h'.bMax
  have e11 := h.randomSeed.symm.trans h'.randomSeed
  have e12 := h.gridMax.symm.trans h'.gridMax
  have e13 := h.gridStep.symm.trans h'.gridStep
  obtain ⟨m, hm1, hm2⟩ := h.constitNumber
  obtain ⟨m', hm1', hm2'⟩ := h'.constitNumber
  have e14 := hm1.symm.trans hm1'
  simp only [Except.ok.injEq] at e1 e2 e3 e4 e5 e6 e7 e8 e9 e10 e11 e12 e13 e14
  cases o; cases o'
  simp_all

/-- **C61, the program.** For every reasonable configuration the program ends with status 0, or with status 1 and a message, or is
still running when the loop bounds are reached; the only other possibility is termination by an HDF5 exception because the
output file cannot be opened.  It executes no undefined behaviour.

Reasonable means: known projectiles of finite extent; positive constituent width and number; `0 ≤ bMin ≤ bMax` (of the default if
negative); a grid of at least two cells per direction, not more than an `int` can count; coordinates small enough for the conversions
to `int`; between 1 and 2147483647 events; a cache file that is absent or intact. -/
theorem C61_program [Toms748 ℝ] [SafeToms] [Rng ℝ E D] [LawfulRng E D] {K : ℝ} (hK : NormalBounded E D K)
    (L : Lib ℝ) (env : OsEnv) (ce : CacheEnv) (fu : Fuel) (hmc : fu.mc = mcConst) (h5view : FS ℝ → String → H5View ℝ)
    (ev0 : (n : Nat) → Event ℝ n) (args : List String) (W : World ℝ) (r : Rand E D) (vm : VarMap ℝ)
    (hc : configure L env ce W.fs args = .ok (.run vm)) (hcache : CacheUsable ce W.fs fu.cache)
    (a b : String) (dmin : ℝ) (o : Options ℝ) (hab : vm.strs "projectile" = .ok [a, b]) (hdm : vm.dbl "nucleon-min-dist" = .ok dmin)
    (hA : createNucleus L.hdf5 (h5view W.fs) a dmin = .ok o.projectileA) (hB : createNucleus L.hdf5 (h5view W.fs) b dmin = .ok o.projectileB)
    (ho : Configured vm o) {rA rB : ℝ} (uA : Usable E D o.projectileA rA) (uB : Usable E D o.projectileB rB)
    (hv : 0 < o.constitWidth) (hm : 1 ≤ o.constitNumber)
    (h0 : 0 ≤ o.bMin) (hmin : o.bMin ≤ (Collider.make o 0).bmax)
    (hstep : 0 < o.gridStep) (hmax : o.gridStep < 2 * o.gridMax) (hfit : 2 * o.gridMax / o.gridStep ≤ 2147483647)
    (hmod : (max rA rB + (Collider.make o 0).bmax + 2 * (K * calcSamplingWidth o.nucleonWidth o.constitWidth o.constitNumber) +
      5 * o.constitWidth + (o.gridMax + o.gridStep)) / o.gridStep < 2147483648)
    (hN1 : 1 ≤ o.numberEvents) (hN2 : o.numberEvents ≤ 2147483647) :
    ∃ W' err, mainProg L env ce fu h5view ev0 args W r = (.status 0, W', []) ∨
      (err ≠ [] ∧ mainProg L env ce fu h5view ev0 args W r = (.status 1, W', err)) ∨
      mainProg L env ce fu h5view ev0 args W r = (.running, W', []) ∨
      (mainProg L env ce fu h5view ev0 args W r = (.terminated, W', []) ∧ ∃ path, vm.str "output" = .ok path ∧
        filenameIsHdf5 path = true ∧ W'.fs.canOpen env (env.resolve path) = false) := by
  have hty := configure_typed L env ce W.fs args vm hc
  -- how a failing run ends
  have fail : ∀ e W', runCommand L env ce fu h5view ev0 vm W r = (.error e, W') →
      (IsStdException e ∨ e = .fuel ∨ ∃ path msg, e = .throw .h5Exception msg ∧ vm.str "output" = .ok path ∧
        filenameIsHdf5 path = true ∧ W'.fs.canOpen env (env.resolve path) = false) →
      ∃ W' err, mainProg L env ce fu h5view ev0 args W r = (.status 0, W', []) ∨
      (err ≠ [] ∧ mainProg L env ce fu h5view ev0 args W r = (.status 1, W', err)) ∨
      mainProg L env ce fu h5view ev0 args W r = (.running, W', []) ∨
      (mainProg L env ce fu h5view ev0 args W r = (.terminated, W', []) ∧ ∃ path, vm.str "output" = .ok path ∧
        filenameIsHdf5 path = true ∧ W'.fs.canOpen env (env.resolve path) = false) := by
    intro e W' hr he
    rcases he with he | rfl | ⟨path, msg, rfl, h1, h2, h3⟩
    · obtain ⟨err, h1, h2⟩ := (C58_exceptions L env ce fu h5view ev0 args W W' r vm e hc hr).1 he
      exact ⟨W', err, .inr (.inl ⟨h1, h2⟩)⟩
    · refine ⟨W', [], .inr (.inr (.inl ?_))⟩
      unfold mainProg
      simp only [hc, hr]
      rfl
    · exact ⟨W', [], .inr (.inr (.inr ⟨(C58_exceptions L env ce fu h5view ev0 args W W' r vm _ hc hr).2 msg rfl, path, h1, h2, h3⟩))⟩
  cases hr : runCommand L env ce fu h5view ev0 vm W r with
  | mk res W' =>
  cases res with
  | ok u =>
    refine ⟨W', [], .inl ?_⟩
    unfold mainProg
    simp only [hc, hr]
  | error e =>
  refine fail e W' hr ?_
  -- the constructor
  obtain ⟨f1, f2⟩ := createFrom_ok L (h5view W.fs) vm a b hab dmin hdm
  rw [hA] at f1
  rw [hB] at f2
  obtain ⟨o', ho'⟩ := readOptions_typed vm hty o.projectileA o.projectileB
  obtain ⟨k1, k2, k3⟩ := readOptions_ok vm _ _ o' ho'
  have hoo : o' = o := configured_unique vm o' o k3 ho k1 k2
  subst hoo
  obtain ⟨key, hkey⟩ := readKey_typed vm hty
  obtain ⟨m1, m2, m3, m4⟩ := readKey_ok vm key hkey
  obtain ⟨oo, hoo⟩ := readOutOptions_typed vm hty
  have hout := readOutOptions_ok vm oo hoo
  have hgm : 0 < o'.gridMax := by linarith
  obtain ⟨ec, hec⟩ := C20_grid_exists o'.normalization o'.gridStep o'.gridMax o'.reducedThickness hstep hgm.le hfit
  obtain ⟨m, hm1, hm2⟩ := ho.constitNumber
  have hmpos : ¬ (m < 0) := by intro hneg; rw [hm2] at hm; omega
  unfold runCommand at hr
  unfold constructCollider at hr
  simp only [f1, f2, ho', hkey] at hr
  cases hp : partonicCrossSection env ce fu.cache key (crossSectionFit fu.mc key) W.fs r with
  | mk x rest =>
  obtain ⟨fs1, r1⟩ := rest
  simp only [hp] at hr
  cases x with
  | error e' =>
    simp only [Prod.mk.injEq, Except.error.injEq] at hr
    rw [← hr.1]
    rcases partonic_error env ce fu.cache key _ W.fs fs1 r r1 e' hcache hp with he | ⟨r', he⟩
    · exact .inl he
    · rw [hmc] at he; exact .inl (crossSectionFit_error key r r' e' he)
  | ok sigma =>
  simp only [hec, hoo] at hr
  cases hmk : outputMake env L.hdf5 o'.numberEvents oo { W with fs := fs1 } with
  | mk res2 W2 =>
  simp only [hmk] at hr
  cases res2 with
  | error e' =>
    simp only [Prod.mk.injEq, Except.error.injEq] at hr
    obtain ⟨rfl, rfl⟩ := hr
    rcases outputMake_error env L.hdf5 o'.numberEvents hN1 hN2 oo _ W2 e' hmk with he | ⟨path, msg, p1, p2, p3, p4, p5⟩
    · exact .inl he
    · refine .inr (.inr ⟨path, msg, p4, ?_, p2, ?_⟩)
      · rcases hout.output with ⟨-, h1⟩ | ⟨s, h1, h2⟩
        · rw [p1] at h1; cases h1
        · rw [p1] at h2; injection h2 with h2; rw [h2]; exact h1
      · -- nothing was created
        unfold outputMake at hmk
        rw [C41_width hN1 hN2] at hmk
        simp only [p1, p2, if_true] at hmk
        split at hmk
        · simp only [Prod.mk.injEq] at hmk; rw [← hmk.2]; exact p5
        · split at hmk
          · simp only [Prod.mk.injEq] at hmk; rw [← hmk.2]; exact p5
          · split at hmk
            · simp only [Prod.mk.injEq] at hmk; cases hmk.1
            · simp only [Prod.mk.injEq] at hmk; rw [← hmk.2]; exact p5
  | ok wrs =>
  simp only [hm1] at hr
  rw [if_neg (fun h => hmpos h.1)] at hr
  -- the event loop
  have hn2 : 2 ≤ ec.nsteps.toNat := by
    obtain ⟨g1, -⟩ := C20_grid_geometry o'.normalization o'.gridStep o'.gridMax o'.reducedThickness hstep hgm.le ec hec
    have h2 : (1:ℝ) < 2 * o'.gridMax / o'.gridStep := by rw [lt_div_iff₀ hstep]; linarith
    have h3 : 1 < ⌈2 * o'.gridMax / o'.gridStep⌉ := Int.lt_ceil.mpr (by exact_mod_cast h2)
    rw [← g1] at h3
    omega
  cases hl : runLoopOut fu.reject fu.collide (Collider.make o' sigma) ec L.debug env wrs (Collider.make o' sigma).nevents.toNat 0
      ⟨(Collider.make o' sigma).nucleusA, (Collider.make o' sigma).nucleusB, ev0 ec.nsteps.toNat, seedRand ℝ o'.randomSeed r1⟩ W2 with
  | mk res W3 =>
  simp only [hl] at hr
  cases res with
  | ok s' => simp only [Prod.mk.injEq] at hr; cases hr.1
  | error e' =>
  simp only [Prod.mk.injEq, Except.error.injEq] at hr
  obtain ⟨rfl, rfl⟩ := hr
  have hloop := runLoopOut_fails fu.reject fu.collide (Collider.make o' sigma) ec L.debug env wrs _ 0 _ W2 W2 W3 e' [] rfl rfl
    (fun rs hnd => C61_writing env L.hdf5 o'.numberEvents oo _ W2 wrs hmk hn2 rs hnd) hl
  rcases C61_no_undefined_behaviour hK o' sigma uA uB hv hm h0 hmin hstep hgm hfit hmod L.debug fu.reject fu.collide ev0 r1 with ⟨res, h⟩ | h
  · exfalso
    unfold runAll Collider.runEvents at h
    simp only [hec, hloop] at h
    cases h
  · unfold runAll Collider.runEvents at h
    simp only [hec, hloop] at h
    injection h with h
    exact .inr (.inl h)

/-! ## Runs that succeed -/

section
variable {F : Type} [Arith F] [NumFmt F]

theorem runLoopOut_succeeds [Rng F E D] (rfuel fuel : ℕ) (c : Collider F) (ec : EventCfg F) (debug : Bool) (env : OsEnv) (wrs : List Writer) {n : ℕ}
    (k num : ℕ) (s s' : RunState F E D n) (W W' : World F) (rs : List (EventRecord F n))
    (h : runLoop rfuel fuel c ec debug k num s = .ok (rs, s')) (hW : calls env (allCalls wrs rs) W = (.ok (), W')) :
    runLoopOut rfuel fuel c ec debug env wrs k num s W = (.ok s', W') := by
  induction k generalizing num s W rs with
  | zero =>
    simp only [runLoop, Except.ok.injEq, Prod.mk.injEq] at h
    obtain ⟨rfl, rfl⟩ := h
    simp only [allCalls, List.flatMap_nil, calls, Prod.mk.injEq, true_and] at hW
    subst hW
    rfl
  | succ k ih =>
    rw [runLoop] at h
    rw [runLoopOut]
    cases hsc : c.sampleCollision rfuel fuel s.A s.B s.rand with
    | error e => simp only [hsc] at h; cases h
    | ok res =>
      obtain ⟨⟨b, ncoll, A, B⟩, w⟩ := res
      simp only [hsc] at h
      cases hev : s.event.compute ec c.nc debug A.nucleons B.nucleons with
      | error e => simp only [hev] at h; cases h
      | ok ev =>
        simp only [hev] at h
        cases hrl : runLoop rfuel fuel c ec debug k (num+1) ⟨A, B, ev, w⟩ with
        | error e => simp only [hrl] at h; cases h
        | ok t =>
          obtain ⟨rs2, s2⟩ := t
          simp only [hrl, Except.ok.injEq, Prod.mk.injEq] at h
          obtain ⟨rfl, rfl⟩ := h
          unfold allCalls at hW
          rw [List.flatMap_cons, calls_append, ← outputEvent_calls] at hW
          cases ho : outputEvent env ⟨num, b, ncoll, ev⟩ wrs W with
          | mk res W1 =>
          simp only [ho] at hW
          cases res with
          | error e => simp only [Prod.mk.injEq] at hW; cases hW.1
          | ok u =>
            simp only [hev, ho]
            exact ih (num+1) _ W1 rs2 hrl hW

/-- **C64, converse.** If the command line is accepted, both projectiles exist, the cross section parameter is found, the output can be
set up and the events can be simulated (constituent number not negative, at least two grid cells per direction), then the program
exits with status 0, having handed every event to every writer. -/
theorem C64_completes [Toms748 F] [Rng F E D] (L : Lib F) (env : OsEnv) (ce : CacheEnv) (fu : Fuel) (h5view : FS F → String → H5View F)
    (ev0 : (n : Nat) → Event F n) (args : List String) (W W1 : World F) (r r1 : Rand E D) (vm : VarMap F)
    (hc : configure L env ce W.fs args = .ok (.run vm)) (a b : String) (dmin : F) (o : Options F) (oo : OutOptions) (sigma : F) (fs1 : FS F)
    (hab : vm.strs "projectile" = .ok [a, b]) (hdm : vm.dbl "nucleon-min-dist" = .ok dmin)
    (hA : createNucleus L.hdf5 (h5view W.fs) a dmin = .ok o.projectileA) (hB : createNucleus L.hdf5 (h5view W.fs) b dmin = .ok o.projectileB)
    (ho : Configured vm o) (hoo : OutConfigured vm oo) (hsig : SigmaOf env ce fu vm W.fs r sigma fs1 r1) (wrs : List Writer)
    (hmk : outputMake env L.hdf5 o.numberEvents oo { W with fs := fs1 } = (.ok wrs, W1))
    (hneg : ∀ m, vm.int "constit-number" = .ok m → 0 ≤ m) (n : ℕ) (hn : 2 ≤ n) (rs : List (EventRecord F n))
    (hrun : runAll fu.reject fu.collide o sigma L.debug ev0 r1 = .ok ⟨n, rs⟩) :
    ∃ W', mainProg L env ce fu h5view ev0 args W r = (.status 0, W', []) ∧ calls env (allCalls wrs rs) W1 = (.ok (), W') := by
  have hty := configure_typed L env ce W.fs args vm hc
  obtain ⟨f1, f2⟩ := createFrom_ok L (h5view W.fs) vm a b hab dmin hdm
  have hA' := hA
  have hB' := hB
  rw [← f1] at hA'
  rw [← f2] at hB'
  obtain ⟨o', ho'⟩ := readOptions_typed vm hty o.projectileA o.projectileB
  obtain ⟨k1, k2, k3⟩ := readOptions_ok vm _ _ o' ho'
  have e : o' = o := by
    have e1 := k3.numberEvents.symm.trans ho.numberEvents
    have e2 := k3.ncoll.symm.trans ho.ncoll
    have e3 := k3.reducedThickness.symm.trans ho.reducedThickness
    have e4 := k3.fluctuation.symm.trans ho.fluctuation
    have e5 := k3.nucleonWidth.symm.trans ho.nucleonWidth
    have e6 := k3.constitWidth.symm.trans ho.constitWidth
    have e7 := k3.crossSection.symm.trans ho.crossSection
    have e8 := k3.normalization.symm.trans ho.normalization
    have e9 := k3.bMin.symm.trans ho.bMin
    have e10 := k3.bMax.symm.trans ho.bMax
    have e11 := k3.randomSeed.symm.trans ho.randomSeed
    have e12 := k3.gridMax.symm.trans ho.gridMax
    have e13 := k3.gridStep.symm.trans ho.gridStep
    obtain ⟨m, hm1, hm2⟩ := k3.constitNumber
    obtain ⟨m', hm1', hm2'⟩ := ho.constitNumber
    have e14 := hm1.symm.trans hm1'
    simp only [Except.ok.injEq] at e1 e2 e3 e4 e5 e6 e7 e8 e9 e10 e11 e12 e13 e14
    cases o; cases o'
    simp_all
  subst e
  obtain ⟨key, hkey⟩ := readKey_typed vm hty
  obtain ⟨m1, m2, m3, m4⟩ := readKey_ok vm key hkey
  obtain ⟨m, w, v, s, s1, s2, s3, s4, hp⟩ := hsig
  have ekey : key = ⟨m, w, v, s⟩ := by
    have e1 := m1.symm.trans s1
    have e2 := m2.symm.trans s2
    have e3 := m3.symm.trans s3
    have e4 := m4.symm.trans s4
    simp only [Except.ok.injEq] at e1 e2 e3 e4
    cases key
    simp_all
  subst ekey
  obtain ⟨oo', hoo'⟩ := readOutOptions_typed vm hty
  have hout := readOutOptions_ok vm oo' hoo'
  have eoo : oo' = oo := by
    have e1 := hout.quiet.symm.trans hoo.quiet
    have e2 := hout.noHeader.symm.trans hoo.noHeader
    simp only [Except.ok.injEq] at e1 e2
    have hcount : ∀ s, vm.str "output" = .ok s → vm.count "output" = true := by
      intro s hs
      unfold VarMap.str at hs
      unfold VarMap.count
      cases hv : vm.vals "output" with
      | none => rw [hv] at hs; cases hs
      | some e => rfl
    have e3 : oo'.output = oo.output := by
      rcases hout.output with ⟨h1, h2⟩ | ⟨s, h1, h2⟩ <;> rcases hoo.output with ⟨h3, h4⟩ | ⟨s', h3, h4⟩
      · rw [h2, h4]
      · rw [hcount _ h3] at h1; cases h1
      · rw [hcount _ h1] at h3; cases h3
      · rw [h1] at h3; injection h3 with h3; rw [h2, h4, h3]
    cases oo; cases oo'
    simp_all
  subst eoo
  have hrun' := hrun
  unfold runAll Collider.runEvents at hrun
  cases hec : EventCfg.make o'.normalization o'.gridStep o'.gridMax o'.reducedThickness with
  | error e => simp only [hec] at hrun; cases hrun
  | ok ec =>
  simp only [hec] at hrun
  cases hl : runLoop fu.reject fu.collide (Collider.make o' sigma) ec L.debug (Collider.make o' sigma).nevents.toNat 0
      ⟨(Collider.make o' sigma).nucleusA, (Collider.make o' sigma).nucleusB, ev0 ec.nsteps.toNat, seedRand F o'.randomSeed r1⟩ with
  | error e => simp only [hl] at hrun; cases hrun
  | ok t =>
  obtain ⟨rs', s'⟩ := t
  simp only [hl, Except.ok.injEq, Sigma.mk.injEq] at hrun
  obtain ⟨rfl, hrs⟩ := hrun
  have hrs := eq_of_heq hrs
  subst hrs
  have hv : (Collider.make o' sigma).Valid E D := ⟨.create _ _ _ _ _ hA, .create _ _ _ _ _ hB, rfl⟩
  have hnum := (runLoop_records _ _ _ _ _ _ _ _ _ _ (NucleusHistory.create _ _ _ _ _ hA) (NucleusHistory.create _ _ _ _ _ hB) hl).1
  obtain ⟨W2, hW2⟩ := C61_writing env L.hdf5 o'.numberEvents oo' _ W1 wrs hmk hn rs' (by rw [hnum]; exact List.nodup_range' ..)
  have hloop := runLoopOut_succeeds fu.reject fu.collide (Collider.make o' sigma) ec L.debug env wrs _ 0 _ s' W1 W2 rs' hl hW2
  refine ⟨W2, ?_, hW2⟩
  have hr : runCommand L env ce fu h5view ev0 vm W r = (.ok (), W2) := by
    unfold runCommand constructCollider
    simp only [hA', hB', ho', hkey, hp, hec, hoo', hmk, s1]
    have hno : ¬ (m < 0 ∧ 0 < (Collider.make o' sigma).nevents) := fun h => absurd (hneg m s1) (by omega)
    simp only [if_neg hno, hloop]
  unfold mainProg
  simp only [hc, hr]

end

end Trento
