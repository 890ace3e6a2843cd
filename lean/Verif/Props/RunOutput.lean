import Verif.Props.Run

/-! # The program: what a successful run has written (C67, C68) -/

namespace Trento
open Spec
set_option linter.unusedSectionVars false

/-- The fields of an event line. -/
noncomputable def Spec.lineFields {n : ℕ} (rec : EventRecord ℝ n) : List (List Char) :=
  [intDigits rec.num, NumFmt.fmt .fixed 10 rec.b, intDigits rec.event.npart] ++
    (if 0 < rec.ncoll then [intDigits rec.ncoll] else []) ++
    [NumFmt.fmt .scientific 10 rec.event.multiplicity, NumFmt.fmt .fixed 10 rec.event.ecc.e2, NumFmt.fmt .fixed 10 rec.event.ecc.e3,
      NumFmt.fmt .fixed 10 rec.event.ecc.e4, NumFmt.fmt .fixed 10 rec.event.ecc.e5]

/-- The line printed for an event. -/
noncomputable def recLine (width : ℕ) {n : ℕ} (rec : EventRecord ℝ n) : List Char :=
  lineText width rec.num rec.b rec.ncoll rec.event.npart rec.event.multiplicity rec.event.ecc

theorem recLine_nl (width : ℕ) {n : ℕ} (rec : EventRecord ℝ n) : '\n' ∉ recLine width rec := by
  unfold recLine lineText
  simp only [List.mem_append, not_or]
  have hi : ∀ k (z : ℤ), '\n' ∉ padTo k (intDigits z) := fun k z => nl_not_mem_padTo (intDigits_not_space z)
  have hd : ∀ k ff p (x : ℝ), '\n' ∉ padTo k (NumFmt.fmt ff p x) := fun k ff p x => nl_not_mem_padTo (fmt_not_space ff p x)
  refine ⟨hi _ _, hd _ _ _ _, hi _ _, ?_, hd _ _ _ _, hd _ _ _ _, hd _ _ _ _, hd _ _ _ _, hd _ _ _ _⟩
  split
  · exact hi _ _
  · simp

theorem recLine_words (width : ℕ) {n : ℕ} (rec : EventRecord ℝ n)
    (h : Printable rec.b rec.event.npart rec.ncoll rec.event.multiplicity rec.event.ecc) : words (recLine width rec) = lineFields rec := by
  obtain ⟨l, h1, -, h3⟩ := C42_line width rec.num rec.ncoll rec.b rec.event (os := {}) ⟨rfl, rfl, rfl⟩ h
  rw [writeStream_eq (F := ℝ) width rec.num rec.b rec.ncoll rec.event (os := {}) ⟨rfl, rfl, rfl⟩] at h1
  simp only [List.nil_append] at h1
  have : l = recLine width rec := by
    have := List.append_cancel_right h1
    exact this.symm
  rw [this] at h3
  exact h3

/-- Standard output after one event. -/
theorem outputEvent_cout (env : OsEnv) (wrs : List Writer) {n : ℕ} (rec : EventRecord ℝ n) (W W' : World ℝ)
    (h : outputEvent env rec wrs W = (.ok (), W')) (hw : ∀ wr ∈ wrs, ∀ wd, wr ≠ .stdout wd) : W'.cout = W.cout := by
  induction wrs generalizing W with
  | nil => simp only [outputEvent, Prod.mk.injEq] at h; rw [← h.2]
  | cons wr wrs ih =>
    rw [outputEvent] at h
    cases h1 : wr.run env rec W with
    | mk res W1 =>
      simp only [h1] at h
      cases res with
      | error e => simp only [Prod.mk.injEq] at h; cases h.1
      | ok u =>
        dsimp only at h
        rw [ih W1 h fun wr hwr => hw wr (by simp [hwr])]
        cases wr with
        | stdout wd => exact absurd rfl (hw _ (by simp) wd)
        | text d wd hd =>
          simp only [Writer.run, Prod.mk.injEq] at h1
          rw [← h1.2]
        | hdf5 f =>
          simp only [Writer.run, Prod.mk.injEq] at h1
          rw [← h1.2]

theorem allCalls_cout (env : OsEnv) (wrs : List Writer) (hw : ∀ wr ∈ wrs, ∀ wd, wr ≠ .stdout wd) {n : ℕ} (rs : List (EventRecord ℝ n)) (W W' : World ℝ)
    (h : calls env (allCalls wrs rs) W = (.ok (), W')) : W'.cout = W.cout := by
  induction rs generalizing W with
  | nil => simp only [allCalls, List.flatMap_nil, calls, Prod.mk.injEq] at h; rw [← h.2]
  | cons rec rs ih =>
    unfold allCalls at h
    rw [List.flatMap_cons, calls_append, ← outputEvent_calls] at h
    cases h1 : outputEvent env rec wrs W with
    | mk res W1 =>
      simp only [h1] at h
      cases res with
      | error e => simp only [Prod.mk.injEq] at h; cases h.1
      | ok u => rw [ih W1 h, outputEvent_cout env wrs rec W W1 h1 hw]

theorem allCalls_cout_std (env : OsEnv) (width : ℕ) (wrs : List Writer) (hw : ∀ wr ∈ wrs, ∀ wd, wr ≠ .stdout wd) {n : ℕ}
    (rs : List (EventRecord ℝ n)) (W W' : World ℝ) (hp : Plain W.cout)
    (h : calls env (allCalls (.stdout width :: wrs) rs) W = (.ok (), W')) :
    Plain W'.cout ∧ W'.cout.out = W.cout.out ++ unlines (rs.map (recLine width)) := by
  induction rs generalizing W with
  | nil =>
    simp only [allCalls, List.flatMap_nil, calls, Prod.mk.injEq] at h
    rw [← h.2]; exact ⟨hp, by simp [unlines]⟩
  | cons rec rs ih =>
    unfold allCalls at h
    rw [List.flatMap_cons, calls_append, ← outputEvent_calls] at h
    cases h1 : outputEvent env rec (.stdout width :: wrs) W with
    | mk res W1 =>
      simp only [h1] at h
      cases res with
      | error e => simp only [Prod.mk.injEq] at h; cases h.1
      | ok u =>
        dsimp only at h
        rw [outputEvent] at h1
        simp only [Writer.run] at h1
        have h2 := outputEvent_cout env wrs rec _ W1 h1 hw
        dsimp only at h2
        rw [writeStream_eq _ _ _ _ _ hp] at h2
        have hp1 : Plain W1.cout := by rw [h2]; exact ⟨rfl, rfl, rfl⟩
        obtain ⟨h3, h4⟩ := ih W1 hp1 h
        refine ⟨h3, ?_⟩
        rw [h4, h2]
        simp [unlines, recLine]

/-- The writers the output constructor makes. -/
theorem outputMake_writers {F : Type} [Arith F] (env : OsEnv) (hdf5 : Bool) (N : ℤ) (oo : OutOptions) (W W' : World F) (wrs : List Writer)
    (h : outputMake env hdf5 N oo W = (.ok wrs, W')) :
    ∃ wd files, castInt (ceil (log10 (ofInt N : F))) = .ok wd ∧ wrs = (if oo.quiet then [] else [.stdout wd.toNat]) ++ files ∧
      ∀ wr ∈ files, ∀ w, wr ≠ .stdout w := by
  unfold outputMake at h
  split at h
  · simp only [Prod.mk.injEq] at h; cases h.1
  · rename_i width hwd
    refine ⟨width, ?_⟩
    dsimp only at h
    generalize (if oo.quiet = true then ([] : List Writer) else [.stdout width.toNat]) = std at h ⊢
    split at h
    · simp only [Prod.mk.injEq, Except.ok.injEq] at h
      exact ⟨[], hwd, by rw [← h.1]; simp, by simp⟩
    · rename_i path _
      split at h
      · repeat' split at h
        all_goals simp only [Prod.mk.injEq, Except.ok.injEq, reduceCtorEq, false_and] at h
        all_goals exact ⟨_, hwd, h.1.symm, by simp⟩
      · repeat' split at h
        all_goals simp only [Prod.mk.injEq, Except.ok.injEq, reduceCtorEq, false_and] at h
        all_goals exact ⟨_, hwd, h.1.symm, by simp⟩

variable {E D : Type} [Toms748 ℝ] [Rng ℝ E D]

/-- **C67.** Standard output of a successful run.  With `--quiet` nothing is printed.  Otherwise exactly one line per event is
appended to what was there, in the order of the events; split at blanks, line `i` has the fields of event `i` (if the values are
in the printable range). -/
theorem C67_stdout (L : Lib ℝ) (env : OsEnv) (ce : CacheEnv) (fu : Fuel) (h5view : FS ℝ → String → H5View ℝ)
    (ev0 : (n : Nat) → Event ℝ n) (args : List String) (W W' : World ℝ) (r : Rand E D) (err : List Char) (vm : VarMap ℝ)
    (hc : configure L env ce W.fs args = .ok (.run vm)) (hp : Plain W.cout)
    (h : mainProg L env ce fu h5view ev0 args W r = (.status 0, W', err)) :
    ∃ (quiet : Bool) (N : ℤ), vm.bool "quiet" = .ok quiet ∧ vm.int "number-events" = .ok N ∧
      (quiet = true → W'.cout = W.cout) ∧
      (quiet = false → ∃ (o : Options ℝ) (sigma : ℝ) (r1 : Rand E D) (n : ℕ) (rs : List (EventRecord ℝ n)) (ls : List (List Char)),
        Configured vm o ∧ runAll fu.reject fu.collide o sigma L.debug ev0 r1 = .ok ⟨n, rs⟩ ∧
        W'.cout.out = W.cout.out ++ unlines ls ∧ ls.length = N.toNat ∧ (∀ l ∈ ls, '\n' ∉ l) ∧
        ∀ i rec, rs[i]? = some rec → rec.num = i ∧
          (Printable rec.b rec.event.npart rec.ncoll rec.event.multiplicity rec.event.ecc →
            ∃ l, ls[i]? = some l ∧ words l = lineFields rec)) := by
  obtain ⟨a, b, dmin, o, oo, sigma, fs1, r1, wrs, W1, n, rs, -, -, -, -, hconf, hout, -, hmake, hrun, hnum, hcalls, -⟩ :=
    C64_successful_run L env ce fu h5view ev0 args W W' r err vm hc h
  have hcout : W1.cout = W.cout := by
    have := outputMake_cout _ _ _ _ _ _ _ hmake
    exact this
  obtain ⟨wd, files, -, rfl, hfiles⟩ := outputMake_writers env L.hdf5 o.numberEvents oo _ W1 wrs hmake
  refine ⟨oo.quiet, o.numberEvents, hout.quiet, hconf.numberEvents, fun hq => ?_, fun hq => ?_⟩
  · rw [hq] at hcalls
    simp only [if_true, List.nil_append] at hcalls
    rw [allCalls_cout env files hfiles rs W1 W' hcalls, hcout]
  · rw [hq] at hcalls
    simp only [Bool.false_eq_true, if_false, List.singleton_append] at hcalls
    obtain ⟨-, h2⟩ := allCalls_cout_std env wd.toNat files hfiles rs W1 W' (by rw [hcout]; exact hp) hcalls
    refine ⟨o, sigma, r1, n, rs, rs.map (recLine wd.toNat), hconf, hrun, by rw [h2, hcout], ?_, ?_, ?_⟩
    · have := congrArg List.length hnum
      simpa using this
    · intro l hl
      rw [List.mem_map] at hl
      obtain ⟨rec, -, rfl⟩ := hl
      exact recLine_nl _ _
    · intro i rec hi
      constructor
      · have h3 : (rs.map (·.num))[i]? = some rec.num := by rw [List.getElem?_map, hi]; rfl
        rw [hnum] at h3
        obtain ⟨_, h4⟩ := List.getElem?_eq_some_iff.mp h3
        simpa using h4.symm
      · intro hpr
        exact ⟨recLine wd.toNat rec, by rw [List.getElem?_map, hi]; rfl, recLine_words _ _ hpr⟩

/-- A path without a node gets none or a directory, unless it is the cache file. -/
theorem partonic_frame_none (env : OsEnv) (ce : CacheEnv) (fuel : Nat) (key : CacheKey ℝ) (fit : Rand E D → Res ℝ × Rand E D) (fs fs' : FS ℝ)
    (r r' : Rand E D) (x : Res ℝ) (h : partonicCrossSection env ce fuel key fit fs r = (x, fs', r')) (q : Path)
    (hq : fs q = none) (hne : cachePath ce ≠ some q) : fs' q = none ∨ fs' q = some .dir := by
  unfold partonicCrossSection at h
  cases hd : cacheDir ce with
  | error e => simp only [hd, Prod.mk.injEq] at h; obtain ⟨-, rfl, -⟩ := h; exact .inl hq
  | ok dir =>
  simp only [hd] at h
  have hqp : q ≠ dir ++ ["cross_section.cache"] := by
    rintro rfl; exact hne (cachePath_of hd)
  have hoa : ∀ g : FS ℝ, openAppend env (dir ++ ["cross_section.cache"]) g q = g q := by
    intro g
    rcases openAppend_cases env (dir ++ ["cross_section.cache"]) g with h1 | ⟨-, -, h1⟩
    · rw [h1]
    · rw [h1, FS.set_other _ _ hqp]
  have hat : ∀ (g : FS ℝ) s, appendText env (dir ++ ["cross_section.cache"]) s g q = g q := by
    intro g s
    rcases appendText_cases env (dir ++ ["cross_section.cache"]) s g with h1 | ⟨old, -, -, h1⟩
    · rw [h1]
    · rw [h1, FS.set_other _ _ hqp]
  cases hc : FS.createDir env dir fs with
  | mk res fs1 =>
  have hq1 : fs1 q = none ∨ fs1 q = some .dir := by
    unfold FS.createDir at hc
    repeat' split at hc
    all_goals simp only [Prod.mk.injEq] at hc
    all_goals obtain ⟨-, rfl⟩ := hc
    all_goals first | exact .inl hq | skip
    by_cases he : q = dir
    · subst he; exact .inr (FS.set_same _ _ _)
    · rw [FS.set_other _ _ he]; exact .inl hq
  cases res with
  | error e => simp only [hc, Prod.mk.injEq] at h; obtain ⟨-, rfl, -⟩ := h; exact hq1
  | ok u =>
  simp only [hc] at h
  split at h
  · simp only [Prod.mk.injEq] at h; obtain ⟨-, rfl, -⟩ := h; exact hq1
  · simp only [Prod.mk.injEq] at h; obtain ⟨-, rfl, -⟩ := h; exact hq1
  · split at h
    · simp only [Prod.mk.injEq] at h; obtain ⟨-, rfl, -⟩ := h; rw [hoa]; exact hq1
    · simp only [Prod.mk.injEq] at h; obtain ⟨-, rfl, -⟩ := h; rw [hat, hoa]; exact hq1

theorem runAll_grid {rfuel fuel : ℕ} {o : Options ℝ} {sigma : ℝ} {debug : Bool} {ev0 : (n : Nat) → Event ℝ n} {w : Rand E D} {n : ℕ}
    {rs : List (EventRecord ℝ n)} (h : runAll rfuel fuel o sigma debug ev0 w = .ok ⟨n, rs⟩) (hd : 0 < o.gridStep) (hg : 0 ≤ o.gridMax) :
    (n : ℤ) = ⌈2 * o.gridMax / o.gridStep⌉ := by
  unfold runAll at h
  cases hec : EventCfg.make o.normalization o.gridStep o.gridMax o.reducedThickness with
  | error e => simp only [hec] at h; cases h
  | ok ec =>
    simp only [hec] at h
    obtain ⟨h1, -⟩ := C20_grid_geometry _ _ _ _ hd hg ec hec
    split at h
    · cases h
    · injection h with h
      have hn : ec.nsteps.toNat = n := congrArg Sigma.fst h
      rw [← hn, Int.toNat_of_nonneg, h1]
      rw [h1]; exact Int.ceil_nonneg (by positivity)

/-- In exact arithmetic the width is the number of digits of the largest event number (0 for a single event). -/
theorem Spec.NumberWidth.eq_eventWidth {N width : ℕ} (h : NumberWidth ℝ N width) (h1 : 1 ≤ N) (h2 : N ≤ 2147483647) : width = eventWidth N := by
  obtain ⟨k, hk, rfl⟩ := h
  rw [C41_width (by exact_mod_cast h1) (by exact_mod_cast h2)] at hk
  injection hk with hk
  subst hk
  unfold eventWidth
  by_cases hN : N = 1
  · subst hN; rfl
  · rw [if_neg hN, if_neg (by exact_mod_cast hN), Int.toNat_natCast]
    congr 1
    omega

/-- **C68, text.** A successful run of `N` events with `--output` naming a directory (not the cache file, not an existing file; at
least two grid cells per side) leaves exactly the `N` files `<number>.dat` (padded with zeros to
the width of the largest number) in it that the system let the program open (all of them
if every open succeeds), each with the text of its event. -/
theorem C68_text_files (L : Lib ℝ) (env : OsEnv) (ce : CacheEnv) (fu : Fuel) (h5view : FS ℝ → String → H5View ℝ)
    (ev0 : (n : Nat) → Event ℝ n) (args : List String) (W W' : World ℝ) (r : Rand E D) (err : List Char) (vm : VarMap ℝ)
    (hc : configure L env ce W.fs args = .ok (.run vm)) (hwf : WellFormed W.fs) (hroot : W.fs [] = some .dir)
    (N : ℕ) (hN : vm.int "number-events" = .ok N) (path : String) (hpath : vm.str "output" = .ok path) (hh : filenameIsHdf5 path = false)
    (hfile : ∀ c, W.fs (env.resolve path) ≠ some (.file c)) (hcache : cachePath ce ≠ some (env.resolve path))
    (step gmax : ℝ) (hs : vm.dbl "grid-step" = .ok step) (hg : vm.dbl "grid-max" = .ok gmax) (hs0 : 0 < step) (hg2 : step < 2 * gmax)
    (h : mainProg L env ce fu h5view ev0 args W r = (.status 0, W', err)) :
    ∃ (o : Options ℝ) (sigma : ℝ) (r1 : Rand E D) (n : ℕ) (rs : List (EventRecord ℝ n)) (noHeader : Bool) (width : ℕ),
      Configured vm o ∧ runAll fu.reject fu.collide o sigma L.debug ev0 r1 = .ok ⟨n, rs⟩ ∧ vm.bool "no-header" = .ok noHeader ∧
      rs.map (·.num) = List.range N ∧ (1 ≤ N → N ≤ 2147483647 → width = eventWidth N) ∧
      (∀ rec ∈ rs, env.openOk (eventPath (env.resolve path) width rec.num) = true →
        W'.fs (eventPath (env.resolve path) width rec.num) = some (.file (.text (eventText (!noHeader) rec)))) ∧
      (∀ name, W'.fs (env.resolve path ++ [name]) ≠ none ↔
        ∃ i < N, name = String.ofList (textFileName width i) ∧ env.openOk (env.resolve path ++ [name]) = true) := by
  obtain ⟨a, b, dmin, o, oo, sigma, fs1, r1, wrs, W1, n, rs, -, -, -, -, hconf, hout, hsig, hmake, hrun, hnum, hcalls, -⟩ :=
    C64_successful_run L env ce fu h5view ev0 args W W' r err vm hc h
  obtain ⟨m, w, v, s, -, -, -, -, hp⟩ := hsig
  have hNo : o.numberEvents = N := by
    have := hconf.numberEvents
    rw [hN] at this; injection this with this; exact this.symm
  have hso : o.gridStep = step := by
    have := hconf.gridStep
    rw [hs] at this; cases this; rfl
  have hgo : o.gridMax = gmax := by
    have := hconf.gridMax
    rw [hg] at this; cases this; rfl
  have hn2 : 2 ≤ n := by
    have h1 := runAll_grid hrun (by rw [hso]; exact hs0) (by rw [hgo]; linarith)
    rw [hso, hgo] at h1
    have h2 : (1:ℝ) < 2 * gmax / step := by rw [lt_div_iff₀ hs0]; linarith
    have h3 : 1 < ⌈2 * gmax / step⌉ := Int.lt_ceil.mpr (by exact_mod_cast h2)
    omega
  have hoo : oo.output = some path := by
    rcases hout.output with ⟨h1, -⟩ | ⟨s, h1, h2⟩
    · unfold VarMap.count at h1
      unfold VarMap.str at hpath
      cases hv : vm.vals "output" with
      | none => rw [hv] at hpath; cases hpath
      | some e => rw [hv] at h1; cases h1
    · rw [hpath] at h1; cases h1; exact h2
  have hroot1 : fs1 [] = some .dir := by
    rcases partonic_frame env ce fu.cache _ _ W.fs fs1 r r1 _ hp [] _ hroot with h1 | ⟨-, s, t, h1, -⟩
    · exact h1
    · cases h1
  have hfile1 : ∀ c, fs1 (env.resolve path) ≠ some (.file c) := by
    intro c hc1
    cases hq : W.fs (env.resolve path) with
    | none =>
      rcases partonic_frame_none env ce fu.cache _ _ W.fs fs1 r r1 _ hp _ hq hcache with h1 | h1 <;> rw [h1] at hc1 <;> cases hc1
    | some nd =>
      cases nd with
      | file c' => exact hfile c' hq
      | dir =>
        rcases partonic_frame env ce fu.cache _ _ W.fs fs1 r r1 _ hp _ _ hq with h1 | ⟨-, s, t, h1, -⟩
        · rw [h1] at hc1; cases hc1
        · cases h1
  rw [hNo] at hmake hnum
  have hnum' : rs.map (·.num) = List.range N := by simpa using hnum
  obtain ⟨width, W2, hnw, k1, k2, k3⟩ := textFiles_dir env L.hdf5 N oo { W with fs := fs1 } W1 wrs path hoo hh
    (partonic_wellFormed env ce fu.cache _ _ W.fs fs1 r r1 _ hp hwf) hroot1 hfile1 hmake (by omega) rs hnum'
  rw [hcalls] at k1
  simp only [Prod.mk.injEq, true_and] at k1
  subst k1
  exact ⟨o, sigma, r1, n, rs, oo.noHeader, width, hconf, hrun, hout.noHeader, hnum', hnw.eq_eventWidth, k2, k3⟩

/-- **C68, HDF5.** A successful run of `N` events with `--output` naming an HDF5 file leaves a file with exactly one dataset per event,
in order, with distinct names `event_<number>`. -/
theorem C68_hdf5_file (L : Lib ℝ) (env : OsEnv) (ce : CacheEnv) (fu : Fuel) (h5view : FS ℝ → String → H5View ℝ)
    (ev0 : (n : Nat) → Event ℝ n) (args : List String) (W W' : World ℝ) (r : Rand E D) (err : List Char) (vm : VarMap ℝ)
    (hc : configure L env ce W.fs args = .ok (.run vm))
    (N : ℕ) (hN : vm.int "number-events" = .ok N) (path : String) (hpath : vm.str "output" = .ok path) (hh : filenameIsHdf5 path = true)
    (step gmax : ℝ) (hs : vm.dbl "grid-step" = .ok step) (hg : vm.dbl "grid-max" = .ok gmax) (hs0 : 0 < step) (hg2 : 0 < gmax)
    (h : mainProg L env ce fu h5view ev0 args W r = (.status 0, W', err)) :
    ∃ (o : Options ℝ) (sigma : ℝ) (r1 : Rand E D) (n : ℕ) (rs : List (EventRecord ℝ n)),
      Configured vm o ∧ runAll fu.reject fu.collide o sigma L.debug ev0 r1 = .ok ⟨n, rs⟩ ∧ rs.map (·.num) = List.range N ∧
      W'.fs (env.resolve path) = some (.file (.h5 (rs.map datasetOf))) ∧
      (rs.map datasetOf).map (·.name) = (List.range N).map (fun i => "event_".toList ++ natDigits i) ∧
      ((rs.map datasetOf).map (·.name)).Nodup := by
  obtain ⟨a, b, dmin, o, oo, sigma, fs1, r1, wrs, W1, n, rs, -, -, -, -, hconf, hout, hsig, hmake, hrun, hnum, hcalls, -⟩ :=
    C64_successful_run L env ce fu h5view ev0 args W W' r err vm hc h
  have hNo : o.numberEvents = N := by
    have := hconf.numberEvents
    rw [hN] at this; injection this with this; exact this.symm
  have hso : o.gridStep = step := by
    have := hconf.gridStep
    rw [hs] at this; cases this; rfl
  have hgo : o.gridMax = gmax := by
    have := hconf.gridMax
    rw [hg] at this; cases this; rfl
  have hn1 : 1 ≤ n := by
    have h1 := runAll_grid hrun (by rw [hso]; exact hs0) (by rw [hgo]; linarith)
    rw [hso, hgo] at h1
    have h3 : 0 < ⌈2 * gmax / step⌉ := Int.ceil_pos.mpr (by positivity)
    omega
  have hoo : oo.output = some path := by
    rcases hout.output with ⟨h1, -⟩ | ⟨s, h1, h2⟩
    · unfold VarMap.count at h1
      unfold VarMap.str at hpath
      cases hv : vm.vals "output" with
      | none => rw [hv] at hpath; cases hpath
      | some e => rw [hv] at h1; cases h1
    · rw [hpath] at h1; cases h1; exact h2
  rw [hNo] at hmake hnum
  have hnum' : rs.map (·.num) = List.range N := by simpa using hnum
  obtain ⟨W2, ds, k1, k2, rfl, k4, k5⟩ := C49_hdf5_file env L.hdf5 N oo { W with fs := fs1 } W1 wrs path hoo hh hmake hn1 rs hnum'
  rw [hcalls] at k1
  simp only [Prod.mk.injEq, true_and] at k1
  subst k1
  exact ⟨o, sigma, r1, n, rs, hconf, hrun, hnum', k2, k4, k5⟩

end Trento
