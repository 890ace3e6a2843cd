import Verif.Model.Concurrent
import Verif.Props.OutputFiles

/-! # C74: processes writing output at the same time -/

namespace Trento
open Spec
set_option linter.unusedSectionVars false
variable {F : Type} [Arith F] [NumFmt F]

/-! ## What a step may touch -/

/-- Changes made by a process with output path `q`: anything below `q`, and missing directories on the way to `q`. -/
def Touches (q : Path) (fs fs' : FS F) : Prop :=
  ∀ x, fs' x = fs x ∨ q <+: x ∨ (x <+: q ∧ fs x = none ∧ fs' x = some .dir)

theorem createDirs_touches (env : OsEnv) (done : Path) (rest : List String) (fs : FS F) (x : Path) :
    (FS.createDirs env done rest fs).2 x = fs x ∨
      (x <+: done ++ rest ∧ fs x = none ∧ (FS.createDirs env done rest fs).2 x = some .dir) := by
  induction rest generalizing done fs with
  | nil => exact .inl rfl
  | cons c rest ih =>
    rw [FS.createDirs]
    have happ : done ++ c :: rest = (done ++ [c]) ++ rest := by simp
    cases hp : fs (done ++ [c]) with
    | some nd =>
      cases nd with
      | dir => rw [happ]; exact ih _ _
      | file _ => exact .inl rfl
    | none =>
      dsimp only
      split
      · by_cases hx : x = done ++ [c]
        · subst hx
          right
          refine ⟨by rw [happ]; exact List.prefix_append _ _, hp, ?_⟩
          exact (createDirs_preserved env (done ++ [c]) rest (fs.set (done ++ [c]) .dir)).1 _ _ (FS.set_same _ _ _) (by simp)
        · have := ih (done ++ [c]) (fs.set (done ++ [c]) .dir)
          rw [FS.set_other _ _ hx] at this
          rw [happ]
          exact this
      · exact .inl rfl

/-- The writers of a process with these options. -/
def WriterOf (env : OsEnv) (o : OutOptions) (wr : Writer) : Prop :=
  (∃ wd, wr = .stdout wd) ∨ ∃ path, o.output = some path ∧ ((∃ wd h, wr = .text (env.resolve path) wd h) ∨ wr = .hdf5 (env.resolve path))

theorem outputMake_own (env : OsEnv) (hdf5 : Bool) (N : ℤ) (o : OutOptions) (W : World F) :
    (∀ wrs, (outputMake env hdf5 N o W).1 = .ok wrs → ∀ wr ∈ wrs, WriterOf env o wr) ∧ (outputMake env hdf5 N o W).2.cout = W.cout ∧
    (o.output = none → (outputMake env hdf5 N o W).2.fs = W.fs) ∧
    (∀ path, o.output = some path → Touches (env.resolve path) W.fs (outputMake env hdf5 N o W).2.fs) := by
  have hstd : ∀ (width : ℕ) (wr : Writer), wr ∈ (if o.quiet then [] else [Writer.stdout width]) → ∃ wd, wr = .stdout wd := by
    intro width wr hwr
    split at hwr
    · cases hwr
    · rw [List.mem_singleton] at hwr; exact ⟨_, hwr⟩
  unfold outputMake
  cases hw : castInt (ceil (log10 (ofInt N : F))) with
  | error e => exact ⟨fun _ h => (by cases h), rfl, fun _ => rfl, fun _ _ x => .inl rfl⟩
  | ok width =>
    cases ho : o.output with
    | none =>
      refine ⟨fun wrs h wr hwr => ?_, rfl, fun _ => rfl, fun _ _ x => .inl rfl⟩
      cases h
      exact .inl (hstd _ wr hwr)
    | some path =>
      have hthis : ∀ (wr : Writer) (width : ℕ) (w' : Writer), wr ∈ (if o.quiet then [] else [Writer.stdout width]) ++ [w'] →
          ((∃ wd h, w' = .text (env.resolve path) wd h) ∨ w' = .hdf5 (env.resolve path)) → WriterOf env o wr := by
        intro wr width w' hm hw'
        rcases List.mem_append.mp hm with h | h
        · exact .inl (hstd _ wr h)
        · rw [List.mem_singleton] at h; subst h
          exact .inr ⟨path, ho, hw'⟩
      dsimp only
      split
      · split
        · exact ⟨fun _ h => (by cases h), rfl, fun h => (by cases h), fun _ _ x => .inl rfl⟩
        · split
          · exact ⟨fun _ h => (by cases h), rfl, fun h => (by cases h), fun _ _ x => .inl rfl⟩
          · split
            · refine ⟨fun wrs h wr hwr => ?_, rfl, fun h => (by cases h), ?_⟩
              · cases h; exact hthis wr _ _ hwr (.inr rfl)
              · intro path' hp x
                cases hp
                by_cases hx : x = env.resolve path
                · exact .inr (.inl (hx ▸ List.prefix_rfl))
                · exact .inl (FS.set_other _ _ hx)
            · exact ⟨fun _ h => (by cases h), rfl, fun h => (by cases h), fun _ _ x => .inl rfl⟩
      · split
        · split
          · exact ⟨fun _ h => (by cases h), rfl, fun h => (by cases h), fun _ _ x => .inl rfl⟩
          · refine ⟨fun wrs h wr hwr => ?_, rfl, fun h => (by cases h), fun _ _ x => .inl rfl⟩
            cases h; exact hthis wr _ _ hwr (.inl ⟨_, _, rfl⟩)
        · have ht := createDirs_touches env [] (env.resolve path) W.fs
          cases hc : FS.createDirs env [] (env.resolve path) W.fs with
          | mk res fs1 =>
            rw [hc, List.nil_append] at ht
            have ht' : ∀ path', some path = some path' → Touches (env.resolve path') W.fs fs1 := by
              intro path' hp x
              cases hp
              rcases ht x with h | h
              · exact .inl h
              · exact .inr (.inr h)
            cases res with
            | error e => exact ⟨fun _ h => (by cases h), rfl, fun h => (by cases h), ht'⟩
            | ok u =>
              refine ⟨fun wrs h wr hwr => ?_, rfl, fun h => (by cases h), ht'⟩
              cases h; exact hthis wr _ _ hwr (.inl ⟨_, _, rfl⟩)

/-- The writers left to a process are its own. -/
def OutProc.Own (env : OsEnv) {n : ℕ} (p : OutProc F n) : Prop :=
  ∀ todo, p.pc = .running todo → ∀ c ∈ todo, WriterOf env p.opts c.2

theorem run_target {env : OsEnv} {o : OutOptions} {wr : Writer} (h : WriterOf env o wr) {x : Path} (hx : wr.Target x) :
    ∃ path, o.output = some path ∧ env.resolve path <+: x := by
  rcases h with ⟨wd, rfl⟩ | ⟨path, ho, ⟨wd, hd, rfl⟩ | rfl⟩
  · exact hx.elim
  · obtain ⟨name, rfl⟩ := hx
    exact ⟨path, ho, List.prefix_append _ _⟩
  · exact ⟨path, ho, by rw [show x = _ from hx]⟩

theorem step_opts (env : OsEnv) (hdf5 : Bool) {n : ℕ} (p : OutProc F n) (fs : FS F) :
    (p.step env hdf5 fs).1.opts = p.opts ∧ (p.step env hdf5 fs).1.records = p.records := by
  unfold OutProc.step
  cases p.pc with
  | start => dsimp only; split <;> exact ⟨rfl, rfl⟩
  | running todo =>
    cases todo with
    | nil => exact ⟨rfl, rfl⟩
    | cons c todo => dsimp only; split <;> exact ⟨rfl, rfl⟩
  | failed e => exact ⟨rfl, rfl⟩

theorem step_own (env : OsEnv) (hdf5 : Bool) {n : ℕ} (p : OutProc F n) (fs : FS F) (hp : p.Own env) : (p.step env hdf5 fs).1.Own env := by
  unfold OutProc.step
  cases hpc : p.pc with
  | start =>
    dsimp only
    have h := (outputMake_own env hdf5 (p.records.length : ℤ) p.opts ⟨p.cout, fs⟩).1
    cases hm : outputMake env hdf5 (p.records.length : ℤ) p.opts ⟨p.cout, fs⟩ with
    | mk res W =>
      cases res with
      | error e => intro todo h; cases h
      | ok wrs =>
        intro todo ht c hc
        cases ht
        rw [hm] at h
        rw [List.mem_flatMap] at hc
        obtain ⟨r, -, hc⟩ := hc
        rw [List.mem_map] at hc
        obtain ⟨wr, hwr, rfl⟩ := hc
        exact h wrs rfl wr hwr
  | running todo =>
    cases todo with
    | nil => dsimp only; exact hp
    | cons c todo =>
      obtain ⟨r, wr⟩ := c
      dsimp only
      cases hm : wr.run env r ⟨p.cout, fs⟩ with
      | mk res W =>
        cases res with
        | error e => intro todo h; cases h
        | ok u =>
          intro todo' ht c hc
          cases ht
          exact hp _ hpc c (by simp [hc])
  | failed e => exact hp

/-- What one step changes. -/
theorem step_touches (env : OsEnv) (hdf5 : Bool) {n : ℕ} (p : OutProc F n) (fs : FS F) (hp : p.Own env) :
    (p.opts.output = none → (p.step env hdf5 fs).2 = fs) ∧
    ∀ path, p.opts.output = some path → Touches (env.resolve path) fs (p.step env hdf5 fs).2 := by
  unfold OutProc.step
  cases hpc : p.pc with
  | start =>
    dsimp only
    obtain ⟨-, -, h3, h4⟩ := outputMake_own env hdf5 (p.records.length : ℤ) p.opts ⟨p.cout, fs⟩
    cases hm : outputMake env hdf5 (p.records.length : ℤ) p.opts ⟨p.cout, fs⟩ with
    | mk res W =>
      rw [hm] at h3 h4
      cases res with
      | error e => exact ⟨h3, h4⟩
      | ok wrs => exact ⟨h3, h4⟩
  | running todo =>
    cases todo with
    | nil => exact ⟨fun _ => rfl, fun _ _ x => .inl rfl⟩
    | cons c todo =>
      obtain ⟨r, wr⟩ := c
      dsimp only
      have hw := hp _ hpc (r, wr) (by simp)
      have key : ∀ res W, wr.run env r ⟨p.cout, fs⟩ = (res, W) → (p.opts.output = none → W.fs = fs) ∧
          ∀ path, p.opts.output = some path → Touches (env.resolve path) fs W.fs := by
        intro res W hrun
        refine ⟨fun hn => ?_, fun path ho x => ?_⟩
        · funext x
          refine run_frame env wr r _ _ _ hrun x (fun hx => ?_)
          obtain ⟨path, ho, -⟩ := run_target hw hx
          rw [hn] at ho; cases ho
        · by_cases hx : wr.Target x
          · obtain ⟨path', ho', hx'⟩ := run_target hw hx
            rw [ho] at ho'; cases ho'
            exact .inr (.inl hx')
          · exact .inl (run_frame env wr r _ _ _ hrun x hx)
      cases hm : wr.run env r ⟨p.cout, fs⟩ with
      | mk res W =>
        cases res with
        | error e => exact key _ _ hm
        | ok u => exact key _ _ hm
  | failed e => exact ⟨fun _ => rfl, fun _ _ x => .inl rfl⟩

/-! ## What a step depends on -/

/-- For a process with output path `p`, the shared file system is as good as the one it would have alone: the same below `p`, and on
the way to `p` directories may have appeared. -/
def Agrees (p : Path) (fsA fsS : FS F) : Prop :=
  (∀ x, p <+: x → fsS x = fsA x) ∧ ∀ x, x <+: p → fsS x = fsA x ∨ (fsA x = none ∧ fsS x = some .dir)

theorem Agrees.other {p q : Path} {fsA fsS fsS' : FS F} (h : Agrees p fsA fsS) (ht : Touches q fsS fsS') (h1 : ¬ p <+: q)
    (h2 : ¬ q <+: p) : Agrees p fsA fsS' := by
  refine ⟨fun x hx => ?_, fun x hx => ?_⟩
  · rw [← h.1 x hx]
    rcases ht x with h' | h' | ⟨h', -⟩
    · exact h'
    · rcases List.prefix_or_prefix_of_prefix hx h' with h3 | h3
      · exact absurd h3 h1
      · exact absurd h3 h2
    · exact absurd (hx.trans h') h1
  · rcases ht x with h' | h' | ⟨h', h3, h4⟩
    · rw [h']; exact h.2 x hx
    · exact absurd (h'.trans hx) h2
    · rcases h.2 x hx with h5 | ⟨h5, h6⟩
      · exact .inr ⟨by rw [← h5]; exact h3, h4⟩
      · rw [h6] at h3; cases h3

theorem Agrees.isDir {p : Path} {fsA fsS : FS F} (h : Agrees p fsA fsS) {x : Path} (hx : x <+: p) (hd : fsA.isDir x = true) :
    fsS.isDir x = true := by
  have hd' : fsA x = some .dir := by
    unfold FS.isDir at hd
    split at hd
    · assumption
    · cases hd
  rcases h.2 x hx with h1 | ⟨h1, h2⟩
  · unfold FS.isDir; rw [h1, hd']
  · rw [h1] at hd'; cases hd'

theorem Agrees.set {p : Path} {fsA fsS : FS F} (h : Agrees p fsA fsS) (x : Path) (nd : Node F) : Agrees p (fsA.set x nd) (fsS.set x nd) := by
  refine ⟨fun y hy => ?_, fun y hy => ?_⟩
  · unfold FS.set; split
    · rfl
    · exact h.1 y hy
  · unfold FS.set; split
    · exact .inl rfl
    · exact h.2 y hy

theorem Agrees.createDirs (env : OsEnv) {p : Path} (done : Path) (rest : List String) (hp : done ++ rest = p) {fsA fsS fsA' : FS F}
    (h : Agrees p fsA fsS) (hA : FS.createDirs env done rest fsA = (.ok (), fsA')) :
    ∃ fsS', FS.createDirs env done rest fsS = (.ok (), fsS') ∧ Agrees p fsA' fsS' := by
  induction rest generalizing done fsA fsS with
  | nil =>
    rw [FS.createDirs] at hA ⊢
    cases hA
    exact ⟨fsS, rfl, h⟩
  | cons c rest ih =>
    have hp' : (done ++ [c]) ++ rest = p := by simpa using hp
    have hpre : done ++ [c] <+: p := ⟨rest, hp'⟩
    rw [FS.createDirs] at hA ⊢
    rcases h.2 _ hpre with heq | ⟨h1, h2⟩
    · rw [heq]
      cases hx : fsA (done ++ [c]) with
      | some nd =>
        rw [hx] at hA
        cases nd with
        | dir => exact ih _ hp' h hA
        | file _ => cases hA
      | none =>
        simp only [hx] at hA ⊢
        by_cases hcond : (fsA.isDir done && env.mkdirOk (done ++ [c])) = true
        · rw [if_pos hcond] at hA
          rw [Bool.and_eq_true] at hcond
          have hd := h.isDir (x := done) ⟨c :: rest, hp⟩ hcond.1
          rw [hd, hcond.2]
          exact ih _ hp' (h.set _ _) hA
        · rw [if_neg hcond] at hA; cases hA
    · simp only [h1] at hA
      rw [h2]
      by_cases hcond : (fsA.isDir done && env.mkdirOk (done ++ [c])) = true
      · rw [if_pos hcond] at hA
        refine ih _ hp' ?_ hA
        refine ⟨fun y hy => ?_, fun y hy => ?_⟩
        · by_cases hyc : y = done ++ [c]
          · subst hyc; rw [FS.set_same, h2]
          · rw [FS.set_other _ _ hyc]; exact h.1 y hy
        · by_cases hyc : y = done ++ [c]
          · subst hyc; left; rw [FS.set_same, h2]
          · rw [FS.set_other _ _ hyc]; exact h.2 y hy
      · rw [if_neg hcond] at hA; cases hA

theorem Agrees.isEmpty {p : Path} {fsA fsS : FS F} (h : Agrees p fsA fsS) : fsS.isEmpty p = fsA.isEmpty p := by
  unfold FS.isEmpty
  rw [h.1 p List.prefix_rfl]
  have : ∀ name, fsS (p ++ [name]) = fsA (p ++ [name]) := fun name => h.1 _ (List.prefix_append _ _)
  split
  · exact decide_eq_decide.mpr (forall_congr' fun name => by rw [this])
  all_goals rfl

theorem Agrees.make (env : OsEnv) (hdf5 : Bool) (N : ℤ) (o : OutOptions) {path : String} (ho : o.output = some path) (cout : OStream)
    {fsA fsS : FS F} (h : Agrees (env.resolve path) fsA fsS) {wrs : List Writer} {W : World F}
    (hA : outputMake env hdf5 N o ⟨cout, fsA⟩ = (.ok wrs, W)) :
    ∃ fsS', outputMake env hdf5 N o ⟨cout, fsS⟩ = (.ok wrs, ⟨W.cout, fsS'⟩) ∧ Agrees (env.resolve path) W.fs fsS' := by
  have hp := h.1 _ List.prefix_rfl
  unfold outputMake at hA ⊢
  cases hw : castInt (ceil (log10 (ofInt N : F))) with
  | error e => simp only [hw] at hA; cases hA
  | ok width =>
    simp only [hw, ho] at hA ⊢
    by_cases hh : filenameIsHdf5 path = true
    · simp only [hh, if_true] at hA ⊢
      by_cases hb : hdf5 = true
      · simp only [hb, Bool.not_true, Bool.false_eq_true, if_false] at hA ⊢
        rw [h.isEmpty, show fsS.exists (env.resolve path) = fsA.exists (env.resolve path) by unfold FS.exists; rw [hp]]
        by_cases he : (fsA.exists (env.resolve path) && !fsA.isEmpty (env.resolve path)) = true
        · rw [if_pos he] at hA; cases hA
        · rw [if_neg he] at hA ⊢
          by_cases hc : fsA.canOpen env (env.resolve path) = true
          · rw [if_pos hc] at hA
            have hc' : fsS.canOpen env (env.resolve path) = true := by
              unfold FS.canOpen at hc ⊢
              simp only [Bool.and_eq_true] at hc ⊢
              refine ⟨⟨⟨hc.1.1.1, h.isDir (List.dropLast_prefix _) hc.1.1.2⟩, ?_⟩, hc.2⟩
              rw [show fsS.isDir (env.resolve path) = fsA.isDir (env.resolve path) by unfold FS.isDir; rw [hp]]
              exact hc.1.2
            rw [if_pos hc']
            cases hA
            exact ⟨_, rfl, h.set _ _⟩
          · rw [if_neg hc] at hA; cases hA
      · simp only [hb, Bool.not_false, if_true] at hA; cases hA
    · simp only [hh, Bool.false_eq_true, if_false] at hA ⊢
      rw [h.isEmpty, show fsS.exists (env.resolve path) = fsA.exists (env.resolve path) by unfold FS.exists; rw [hp]]
      by_cases he : fsA.exists (env.resolve path) = true
      · rw [if_pos he] at hA ⊢
        by_cases hem : (!fsA.isEmpty (env.resolve path)) = true
        · rw [if_pos hem] at hA; cases hA
        · rw [if_neg hem] at hA ⊢
          cases hA
          exact ⟨fsS, rfl, h⟩
      · rw [if_neg he] at hA ⊢
        cases hc : FS.createDirs env [] (env.resolve path) fsA with
        | mk res fs1 =>
          cases res with
          | error e => simp only [hc] at hA; cases hA
          | ok u =>
            simp only [hc] at hA
            obtain ⟨fsS', h1, h2⟩ := h.createDirs env [] (env.resolve path) rfl hc
            rw [h1]
            cases hA
            exact ⟨fsS', rfl, h2⟩

theorem Agrees.run (env : OsEnv) {o : OutOptions} {path : String} (ho : o.output = some path) {wr : Writer} (hw : WriterOf env o wr)
    {n : ℕ} (r : EventRecord F n) (cout : OStream) {fsA fsS : FS F} (h : Agrees (env.resolve path) fsA fsS) :
    ∃ fsS', wr.run env r ⟨cout, fsS⟩ = ((wr.run env r ⟨cout, fsA⟩).1, ⟨(wr.run env r ⟨cout, fsA⟩).2.cout, fsS'⟩) ∧
      Agrees (env.resolve path) (wr.run env r ⟨cout, fsA⟩).2.fs fsS' := by
  rcases hw with ⟨wd, rfl⟩ | ⟨path', ho', ⟨wd, hd, rfl⟩ | rfl⟩
  · exact ⟨fsS, rfl, h⟩
  · rw [ho] at ho'; cases ho'
    have hcan : fsS.canOpen env (env.resolve path ++ [String.ofList (textFileName wd r.num)]) =
        fsA.canOpen env (env.resolve path ++ [String.ofList (textFileName wd r.num)]) := by
      unfold FS.canOpen FS.isDir
      rw [List.dropLast_concat, h.1 _ List.prefix_rfl, h.1 _ (List.prefix_append _ _)]
    simp only [Writer.run, writeTextFile, hcan]
    split
    · split
      · exact ⟨_, rfl, h.set _ _⟩
      · exact ⟨_, rfl, h.set _ _⟩
    · split
      · exact ⟨_, rfl, h⟩
      · exact ⟨_, rfl, h⟩
  · rw [ho] at ho'; cases ho'
    simp only [Writer.run, h5Write, h.1 _ List.prefix_rfl]
    split
    · split
      · exact ⟨_, rfl, h⟩
      · split
        · exact ⟨_, rfl, h⟩
        · exact ⟨_, rfl, h.set _ _⟩
    · exact ⟨_, rfl, h⟩

/-- One step alone and the same step in company. -/
theorem step_agrees (env : OsEnv) (hdf5 : Bool) {n : ℕ} (p : OutProc F n) (hp : p.Own env) {fsA fsS : FS F}
    (h : ∀ path, p.opts.output = some path → Agrees (env.resolve path) fsA fsS)
    (hok : ∀ e, (p.step env hdf5 fsA).1.pc ≠ .failed e) :
    (p.step env hdf5 fsS).1 = (p.step env hdf5 fsA).1 ∧
      ∀ path, p.opts.output = some path → Agrees (env.resolve path) (p.step env hdf5 fsA).2 (p.step env hdf5 fsS).2 := by
  cases ho : p.opts.output with
  | none =>
    refine ⟨?_, fun _ h => by cases h⟩
    unfold OutProc.step
    cases hpc : p.pc with
    | start =>
      dsimp only
      unfold outputMake
      simp only [ho]
      cases castInt (ceil (log10 (ofInt (p.records.length : ℤ) : F))) <;> rfl
    | running todo =>
      cases todo with
      | nil => rfl
      | cons c todo =>
        obtain ⟨r, wr⟩ := c
        dsimp only
        rcases hp _ hpc (r, wr) (by simp) with ⟨wd, hwd⟩ | ⟨path, hpath, -⟩
        · rw [show wr = .stdout wd from hwd]; rfl
        · rw [ho] at hpath; cases hpath
    | failed e => rfl
  | some path =>
    have h := h path ho
    have goal : (p.step env hdf5 fsS).1 = (p.step env hdf5 fsA).1 ∧ Agrees (env.resolve path) (p.step env hdf5 fsA).2 (p.step env hdf5 fsS).2 := by
      unfold OutProc.step at hok ⊢
      cases hpc : p.pc with
      | start =>
        simp only [hpc] at hok ⊢
        cases hm : outputMake env hdf5 (p.records.length : ℤ) p.opts ⟨p.cout, fsA⟩ with
        | mk res W =>
          rw [hm] at hok
          cases res with
          | error e => exact absurd rfl (hok e)
          | ok wrs =>
            obtain ⟨fsS', h1, h2⟩ := Agrees.make env hdf5 _ p.opts ho p.cout h hm
            rw [h1]
            exact ⟨rfl, h2⟩
      | running todo =>
        cases todo with
        | nil => exact ⟨rfl, h⟩
        | cons c todo =>
          obtain ⟨r, wr⟩ := c
          dsimp only
          obtain ⟨fsS', h1, h2⟩ := Agrees.run env ho (hp _ hpc (r, wr) (by simp)) r p.cout h
          rw [h1]
          cases hm : wr.run env r ⟨p.cout, fsA⟩ with
          | mk res W =>
            rw [hm] at h2
            cases res with
            | error e => exact ⟨rfl, h2⟩
            | ok u => exact ⟨rfl, h2⟩
      | failed e => exact ⟨rfl, h⟩
    refine ⟨goal.1, fun path' hpath => ?_⟩
    cases hpath
    exact goal.2

/-! ## C74 -/

/-- The first `k` steps of a process that is alone. -/
noncomputable def Spec.outAlone (env : OsEnv) (hdf5 : Bool) {n : ℕ} : ℕ → OutProc F n → FS F → OutProc F n × FS F
  | 0, p, fs => (p, fs)
  | k+1, p, fs => outAlone env hdf5 k (p.step env hdf5 fs).1 (p.step env hdf5 fs).2

theorem outAlone_failed (env : OsEnv) (hdf5 : Bool) {n : ℕ} (k : ℕ) (p : OutProc F n) (fs : FS F) {e : Err} (h : p.pc = .failed e) :
    outAlone env hdf5 k p fs = (p, fs) := by
  induction k with
  | zero => rfl
  | succ k ih =>
    have hs : p.step env hdf5 fs = (p, fs) := by unfold OutProc.step; rw [h]
    rw [outAlone, hs]
    exact ih

theorem outSchedule_cons (env : OsEnv) (hdf5 : Bool) {n : ℕ} {ι : Type} [DecidableEq ι] (i : ι) (is : List ι) (ps : ι → OutProc F n)
    (fs : FS F) : outSchedule env hdf5 (i :: is) ps fs =
      outSchedule env hdf5 is (fun j => if j = i then ((ps i).step env hdf5 fs).1 else ps j) ((ps i).step env hdf5 fs).2 := rfl

/-- **C74: processes with separate output paths.**  Any number of processes, none of whose output paths is, contains or lies in the
output path of another one, make their steps in any order, starting from any file system.  A process whose first steps succeed when it
is alone makes the same steps in company: it is as far, has printed the same, and everything at and below its output path is the
same. -/
theorem C74_separate_outputs (env : OsEnv) (hdf5 : Bool) {n : ℕ} {ι : Type} [DecidableEq ι] (ps : ι → OutProc F n)
    (hstart : ∀ i, (ps i).pc = .start)
    (hsep : ∀ i j, i ≠ j → ∀ p q, (ps i).opts.output = some p → (ps j).opts.output = some q → ¬ env.resolve p <+: env.resolve q)
    (sched : List ι) (fs : FS F) (i : ι)
    (halone : ∀ e, (outAlone env hdf5 (sched.count i) (ps i) fs).1.pc ≠ .failed e) :
    (outSchedule env hdf5 sched ps fs).1 i = (outAlone env hdf5 (sched.count i) (ps i) fs).1 ∧
    ∀ path, (ps i).opts.output = some path → ∀ x, env.resolve path <+: x →
      (outSchedule env hdf5 sched ps fs).2 x = (outAlone env hdf5 (sched.count i) (ps i) fs).2 x := by
  have key : ∀ (sched : List ι) (qs : ι → OutProc F n) (fsA fsS : FS F), (∀ j, (qs j).opts = (ps j).opts) → (∀ j, (qs j).Own env) →
      (∀ path, (ps i).opts.output = some path → Agrees (env.resolve path) fsA fsS) →
      (∀ e, (outAlone env hdf5 (sched.count i) (qs i) fsA).1.pc ≠ .failed e) →
      (outSchedule env hdf5 sched qs fsS).1 i = (outAlone env hdf5 (sched.count i) (qs i) fsA).1 ∧
      ∀ path, (ps i).opts.output = some path →
        Agrees (env.resolve path) (outAlone env hdf5 (sched.count i) (qs i) fsA).2 (outSchedule env hdf5 sched qs fsS).2 := by
    intro sched
    induction sched with
    | nil => intro qs fsA fsS _ _ h _; exact ⟨rfl, h⟩
    | cons j is ih =>
      intro qs fsA fsS hopts hown h hok
      rw [outSchedule_cons]
      have hopts' : ∀ j', ((fun j' => if j' = j then ((qs j).step env hdf5 fsS).1 else qs j') j').opts = (ps j').opts := by
        intro j'
        by_cases hj : j' = j
        · subst hj; dsimp only; rw [if_pos rfl, (step_opts env hdf5 (qs j') fsS).1]; exact hopts j'
        · dsimp only; rw [if_neg hj]; exact hopts j'
      have hown' : ∀ j', ((fun j' => if j' = j then ((qs j).step env hdf5 fsS).1 else qs j') j').Own env := by
        intro j'
        by_cases hj : j' = j
        · subst hj; dsimp only; rw [if_pos rfl]; exact step_own env hdf5 (qs j') fsS (hown j')
        · dsimp only; rw [if_neg hj]; exact hown j'
      by_cases hj : j = i
      · subst hj
        rw [List.count_cons_self, outAlone] at hok ⊢
        have hok1 : ∀ e, ((qs j).step env hdf5 fsA).1.pc ≠ .failed e := by
          intro e he
          rw [outAlone_failed _ _ _ _ _ he] at hok
          exact hok e he
        obtain ⟨h1, h2⟩ := step_agrees env hdf5 (qs j) (hown j) (by rw [hopts]; exact h) hok1
        rw [hopts] at h2
        have := ih (fun j' => if j' = j then ((qs j).step env hdf5 fsS).1 else qs j') _ _ hopts' hown' h2 (by
          simp only [if_true]; rw [h1]; exact hok)
        simp only [if_true] at this
        rw [h1] at this ⊢
        exact this
      · rw [List.count_cons_of_ne hj] at hok ⊢
        have hij : i ≠ j := fun h => hj h.symm
        have := ih (fun j' => if j' = j then ((qs j).step env hdf5 fsS).1 else qs j') fsA ((qs j).step env hdf5 fsS).2 hopts' hown' (by
          intro path ho
          obtain ⟨t1, t2⟩ := step_touches env hdf5 (qs j) fsS (hown j)
          rw [hopts] at t1 t2
          cases hq : (ps j).opts.output with
          | none => rw [t1 hq]; exact h path ho
          | some q => exact (h path ho).other (t2 q hq) (hsep i j hij _ _ ho hq) (hsep j i hj _ _ hq ho)) (by
          simp only [if_neg hij]; exact hok)
        simp only [if_neg hij] at this
        exact this
  obtain ⟨h1, h2⟩ := key sched ps fs fs (fun _ => rfl) (fun j todo h => by rw [hstart] at h; cases h)
    (fun _ _ => ⟨fun _ _ => rfl, fun _ _ => .inl rfl⟩) halone
  exact ⟨h1, fun path ho x hx => (h2 path ho).1 x hx⟩

/-! ## The same output directory -/

theorem outSchedule_append (env : OsEnv) (hdf5 : Bool) {n : ℕ} {ι : Type} [DecidableEq ι] (s t : List ι) (ps : ι → OutProc F n)
    (fs : FS F) : outSchedule env hdf5 (s ++ t) ps fs =
      outSchedule env hdf5 t (outSchedule env hdf5 s ps fs).1 (outSchedule env hdf5 s ps fs).2 := by
  induction s generalizing ps fs with
  | nil => rfl
  | cons i s ih => rw [List.cons_append, outSchedule_cons, outSchedule_cons]; exact ih _ _

theorem outSchedule_replicate (env : OsEnv) (hdf5 : Bool) {n : ℕ} {ι : Type} [DecidableEq ι] (k : ℕ) (i : ι) (ps : ι → OutProc F n)
    (fs : FS F) : outSchedule env hdf5 (List.replicate k i) ps fs =
      (fun j => if j = i then (outAlone env hdf5 k (ps i) fs).1 else ps j, (outAlone env hdf5 k (ps i) fs).2) := by
  induction k generalizing ps fs with
  | zero =>
    refine Prod.ext (funext fun j => ?_) rfl
    show ps j = if j = i then ps i else ps j
    split
    · rename_i h; rw [h]
    · rfl
  | succ k ih =>
    rw [List.replicate_succ, outSchedule_cons, ih, outAlone]
    simp only [if_true]
    refine Prod.ext (funext fun j => ?_) rfl
    dsimp only
    split
    · rfl
    · rfl

/-- A process with only its writer calls left, alone. -/
theorem outAlone_calls (env : OsEnv) (hdf5 : Bool) {n : ℕ} (todo : List (EventRecord F n × Writer)) (p : OutProc F n) (fs : FS F)
    (hp : p.pc = .running todo) {W : World F} (hW : calls env todo ⟨p.cout, fs⟩ = (.ok (), W)) :
    outAlone env hdf5 todo.length p fs = ({ p with cout := W.cout, pc := .running [] }, W.fs) := by
  induction todo generalizing p fs with
  | nil =>
    rw [calls] at hW; cases hW
    obtain ⟨o, r, c, pc⟩ := p
    simp only at hp
    subst hp
    rfl
  | cons c todo ih =>
    obtain ⟨r, wr⟩ := c
    rw [calls] at hW
    cases h : wr.run env r ⟨p.cout, fs⟩ with
    | mk res W1 =>
      cases res with
      | error e => simp only [h] at hW; cases hW
      | ok u =>
        simp only [h] at hW
        have hs : p.step env hdf5 fs = ({ p with cout := W1.cout, pc := .running todo }, W1.fs) := by
          unfold OutProc.step; rw [hp]; simp only [h]
        rw [List.length_cons, outAlone, hs]
        exact ih { p with cout := W1.cout, pc := .running todo } W1.fs rfl hW

/-- Alone, a process does what the program does: the construction, then every writer with every event in order (see C40). -/
theorem C74_alone (env : OsEnv) (hdf5 : Bool) {n : ℕ} (p : OutProc F n) (hp : p.pc = .start) (fs : FS F) {wrs : List Writer} {W W' : World F}
    (hm : outputMake env hdf5 (p.records.length : ℤ) p.opts ⟨p.cout, fs⟩ = (.ok wrs, W))
    (hc : calls env (allCalls wrs p.records) W = (.ok (), W')) :
    outAlone env hdf5 (1 + (allCalls wrs p.records).length) p fs = ({ p with cout := W'.cout, pc := .running [] }, W'.fs) := by
  have hs : p.step env hdf5 fs = (⟨p.opts, p.records, W.cout, .running (allCalls wrs p.records)⟩, W.fs) := by
    unfold OutProc.step
    simp only [hp, hm]
    rfl
  rw [Nat.add_comm, outAlone, hs]
  exact outAlone_calls env hdf5 (allCalls wrs p.records) ⟨p.opts, p.records, W.cout, .running (allCalls wrs p.records)⟩ W.fs rfl hc

/-- **C74, the exception: the same output directory.**  The same command run twice at the same time: although the output directory
must be empty, there is an order of the steps in which both runs pass the check and end without an error, and every event file
holds an event of the second run: those of the first one are lost. -/
theorem C74_same_directory (env : OsEnv) (hdf5 : Bool) {n : ℕ} (h1 : n ≠ 1) {ι : Type} [DecidableEq ι] (ps : ι → OutProc F n)
    (hstart : ∀ i, (ps i).pc = .start) (a b : ι) (hab : a ≠ b) (o : OutOptions) (hoa : (ps a).opts = o) (hob : (ps b).opts = o)
    (path : String) (ho : o.output = some path) (hh : filenameIsHdf5 path = false) (N : ℕ)
    (hna : (ps a).records.map (·.num) = List.range N) (hnb : (ps b).records.map (·.num) = List.range N) (fs : FS F)
    (hwf : WellFormed fs) (hroot : fs [] = some .dir) (hfile : ∀ c, fs (env.resolve path) ≠ some (.file c))
    (hopen : ∀ name, env.openOk (env.resolve path ++ [name]) = true)
    (halone : ∀ e, ((ps a).step env hdf5 fs).1.pc ≠ .failed e) :
    ∃ sched width, ((outSchedule env hdf5 sched ps fs).1 a).pc = .running [] ∧ ((outSchedule env hdf5 sched ps fs).1 b).pc = .running [] ∧
      (∀ r ∈ (ps b).records, (outSchedule env hdf5 sched ps fs).2 (eventPath (env.resolve path) width r.num) =
        some (.file (.text (eventText (!o.noHeader) r)))) ∧
      ∀ name, (outSchedule env hdf5 sched ps fs).2 (env.resolve path ++ [name]) ≠ none →
        ∃ r ∈ (ps b).records, name = String.ofList (textFileName width r.num) := by
  have hla : (ps a).records.length = N := by have := congrArg List.length hna; simpa using this
  have hlb : (ps b).records.length = N := by have := congrArg List.length hnb; simpa using this
  have hba : b ≠ a := fun h => hab h.symm
  -- the first construction
  obtain ⟨wrs, W1, hm1⟩ : ∃ wrs W1, outputMake env hdf5 (N : ℤ) o ⟨(ps a).cout, fs⟩ = (.ok wrs, W1) := by
    unfold OutProc.step at halone
    rw [hstart, hoa, hla] at halone
    cases hm : outputMake env hdf5 (N : ℤ) o ⟨(ps a).cout, fs⟩ with
    | mk res W =>
      cases res with
      | error e => simp only [hm] at halone; exact absurd rfl (halone e)
      | ok wrs => exact ⟨wrs, W, rfl⟩
  have hs1 : (ps a).step env hdf5 fs = (⟨(ps a).opts, (ps a).records, W1.cout, .running (allCalls wrs (ps a).records)⟩, W1.fs) := by
    unfold OutProc.step
    simp only [hstart, hoa, hla, hm1]
    rfl
  obtain ⟨wd, std, hwrs, hstd, hdir, hnone, -⟩ := outputMake_text env hdf5 N o ⟨(ps a).cout, fs⟩ W1 wrs path ho hh hwf hroot hfile hm1
  -- the second construction finds an empty directory
  obtain ⟨width, hcast⟩ : ∃ width, castInt (ceil (log10 (ofInt (N : ℤ) : F))) = .ok width := by
    unfold outputMake at hm1
    split at hm1
    · cases hm1
    · rename_i width hwd; exact ⟨width, hwd⟩
  have hmk : ∀ (c : OStream) (fs' : FS F), fs' (env.resolve path) = some .dir → (∀ name, fs' (env.resolve path ++ [name]) = none) →
      outputMake env hdf5 (N : ℤ) o ⟨c, fs'⟩ = (.ok ((if o.quiet then [] else [Writer.stdout width.toNat]) ++
        [.text (env.resolve path) width.toNat (!o.noHeader)]), ⟨c, fs'⟩) := by
    intro c fs' hd hn
    unfold outputMake
    have he : FS.exists fs' (env.resolve path) = true := by simp [FS.exists, hd]
    have hem : FS.isEmpty fs' (env.resolve path) = true := by unfold FS.isEmpty; rw [hd]; simpa using hn
    simp only [hcast, ho, hh, Bool.false_eq_true, if_false, he, hem, Bool.not_true, if_true]
  obtain ⟨stdb, hstdb⟩ : ∃ stdb, stdb = (if o.quiet then [] else [Writer.stdout width.toNat]) := ⟨_, rfl⟩
  have hstdb' : ∀ wr ∈ stdb, ∃ wd, wr = .stdout wd := by
    intro wr hwr
    rw [hstdb] at hwr
    split at hwr
    · cases hwr
    · rw [List.mem_singleton] at hwr; exact ⟨_, hwr⟩
  have hm2 := hmk (ps b).cout W1.fs hdir hnone
  rw [← hstdb] at hm2
  have hs2 : (ps b).step env hdf5 W1.fs = (⟨(ps b).opts, (ps b).records, (ps b).cout, .running
      (allCalls (stdb ++ [.text (env.resolve path) width.toNat (!o.noHeader)]) (ps b).records)⟩, W1.fs) := by
    unfold OutProc.step
    simp only [hstart, hob, hlb, hm2]
    rfl
  -- the calls of the first run
  have hnd : ∀ rs : List (EventRecord F n), rs.map (·.num) = List.range N → (rs.map (·.num)).Nodup := fun rs h => by
    rw [h]; exact List.nodup_range
  subst hwrs
  obtain ⟨W2, k1, k2, k3⟩ := outputText_all env std hstd (env.resolve path) wd (!o.noHeader) h1 (ps a).records (hnd _ hna)
    ⟨W1.cout, W1.fs⟩ hdir (fun r _ => by show W1.fs (_ ++ [_]) ≠ _; rw [hnone]; simp)
  have hwd : wd = width.toNat := by
    unfold outputMake at hm1
    simp only [hcast, ho, hh, Bool.false_eq_true, if_false] at hm1
    split at hm1
    · split at hm1
      · cases hm1
      · simp only [Prod.mk.injEq, Except.ok.injEq] at hm1
        have := List.append_inj_right' hm1.1 rfl
        simp only [List.cons.injEq, Writer.text.injEq] at this
        exact this.1.2.1.symm
    · split at hm1
      · cases hm1
      · simp only [Prod.mk.injEq, Except.ok.injEq] at hm1
        have := List.append_inj_right' hm1.1 rfl
        simp only [List.cons.injEq, Writer.text.injEq] at this
        exact this.1.2.1.symm
  subst hwd
  have hpne : ∀ k : ℕ, env.resolve path ≠ eventPath (env.resolve path) width.toNat k := by
    intro k h
    unfold eventPath at h
    have := congrArg List.length h
    simp at this
  obtain ⟨W3, l1, l2, l3⟩ := outputText_all env stdb hstdb' (env.resolve path) width.toNat (!o.noHeader) h1 (ps b).records (hnd _ hnb)
    ⟨(ps b).cout, W2.fs⟩ (by rw [show (⟨(ps b).cout, W2.fs⟩ : World F).fs = W2.fs from rfl, k3 _ fun r _ _ => hpne _]; exact hdir)
    (fun r _ => by
      show W2.fs _ ≠ _
      by_cases hr : ∃ r' ∈ (ps a).records, eventPath (env.resolve path) width.toNat r.num = eventPath (env.resolve path) width.toNat r'.num
      · obtain ⟨r', hr', he⟩ := hr
        rw [he, k2 r' hr' (hopen _)]; simp
      · push Not at hr
        rw [k3 _ fun r' hr' _ => hr r' hr']
        show W1.fs (_ ++ [_]) ≠ _
        rw [hnone]; simp)
  refine ⟨[a, b] ++ (List.replicate (allCalls (std ++ [.text (env.resolve path) width.toNat (!o.noHeader)]) (ps a).records).length a ++
    List.replicate (allCalls (stdb ++ [.text (env.resolve path) width.toNat (!o.noHeader)]) (ps b).records).length b), width.toNat, ?_⟩
  have hfin : ∀ x, (outSchedule env hdf5 ([a, b] ++ (List.replicate
        (allCalls (std ++ [.text (env.resolve path) width.toNat (!o.noHeader)]) (ps a).records).length a ++
      List.replicate (allCalls (stdb ++ [.text (env.resolve path) width.toNat (!o.noHeader)]) (ps b).records).length b)) ps fs) = x →
      (x.1 a).pc = .running [] ∧ (x.1 b).pc = .running [] ∧ x.2 = W3.fs := by
    intro x hx
    rw [outSchedule_append, outSchedule_append, outSchedule_cons, hs1, outSchedule_cons] at hx
    simp only [if_neg hba] at hx
    rw [hs2] at hx
    simp only [outSchedule] at hx
    rw [outSchedule_replicate, outSchedule_replicate] at hx
    simp only [if_neg hab, if_neg hba, if_true] at hx
    rw [outAlone_calls env hdf5 _ _ W1.fs rfl k1] at hx
    simp only at hx
    have hb := outAlone_calls env hdf5 (allCalls (stdb ++ [Writer.text (env.resolve path) width.toNat (!o.noHeader)]) (ps b).records)
      ⟨(ps b).opts, (ps b).records, (ps b).cout, .running
        (allCalls (stdb ++ [Writer.text (env.resolve path) width.toNat (!o.noHeader)]) (ps b).records)⟩ W2.fs rfl l1
    rw [hb] at hx
    rw [← hx]
    simp [hab]
  obtain ⟨f1, f2, f3⟩ := hfin _ rfl
  refine ⟨f1, f2, ?_, ?_⟩
  · intro r hr
    rw [f3]; exact l2 r hr (hopen _)
  · intro name hne
    rw [f3] at hne
    by_contra hno
    push Not at hno
    have hnb' : ∀ r ∈ (ps b).records, env.resolve path ++ [name] ≠ eventPath (env.resolve path) width.toNat r.num := by
      intro r hr h
      unfold eventPath at h
      rw [List.append_right_inj] at h
      injection h with h
      exact hno r hr h
    apply hne
    rw [l3 _ fun r hr _ => hnb' r hr]
    show W2.fs _ = none
    rw [k3 _ ?_, hnone]
    intro r hr _ h
    have : r.num ∈ (ps a).records.map (·.num) := List.mem_map.mpr ⟨r, hr, rfl⟩
    rw [hna, ← hnb] at this
    obtain ⟨r', hr', he⟩ := List.mem_map.mp this
    exact hnb' r' hr' (by rw [he]; exact h)

/-! ## The hypotheses are met -/

/-- A small operating system: `resolve` puts every name into the root directory, everything is permitted. -/
def outEnv : OsEnv := { resolve := fun s => [s], mkdirOk := fun _ => true, openOk := fun _ => true }

/-- Two runs of two events into one directory, and into two: the hypotheses of both parts of C74 are met (from an empty root
directory). -/
example (ev : Event ℝ 2) :
    let fs : FS ℝ := fun p => if p = [] then some .dir else none
    let ps : Bool → OutProc ℝ 2 := fun b => ⟨⟨true, some "out", false⟩, [⟨0, if b then 1 else 2, 0, ev⟩, ⟨1, 3, 0, ev⟩], {}, .start⟩
    let qs : Bool → OutProc ℝ 2 := fun b => ⟨⟨true, some (if b then "out1" else "out2"), false⟩, [⟨0, 1, 0, ev⟩, ⟨1, 3, 0, ev⟩], {}, .start⟩
    WellFormed fs ∧ filenameIsHdf5 "out" = false ∧ (∀ i, (ps i).records.map (·.num) = List.range 2) ∧
    (∀ i e, ((ps i).step outEnv true fs).1.pc ≠ .failed e) ∧
    (∀ i j, i ≠ j → ∀ p q, (qs i).opts.output = some p → (qs j).opts.output = some q → ¬ outEnv.resolve p <+: outEnv.resolve q) ∧
    ∀ i e, (outAlone outEnv true 1 (qs i) fs).1.pc ≠ .failed e := by
  intro fs ps qs
  have hw : castInt (ceil (log10 (ofInt (2 : ℤ) : ℝ))) = .ok 1 := by
    rw [C41_width (by norm_num) (by norm_num)]; rfl
  have hh : filenameIsHdf5 "out" = false ∧ filenameIsHdf5 "out1" = false ∧ filenameIsHdf5 "out2" = false := by decide
  have hmake : ∀ (o : OutOptions) (s : String) (c : OStream), o.output = some s → filenameIsHdf5 s = false →
      ∃ wrs W, outputMake outEnv true 2 o ⟨c, fs⟩ = (.ok wrs, W) := by
    intro o s c ho hs
    unfold outputMake
    rw [hw]
    simp [ho, hs, FS.exists, fs, outEnv, FS.createDirs, FS.isDir]
  refine ⟨?_, hh.1, fun i => rfl, ?_, ?_, ?_⟩
  · intro p name h
    exact absurd (if_neg (by simp)) h
  · intro i e
    obtain ⟨wrs, W, h⟩ := hmake (ps i).opts "out" (ps i).cout rfl hh.1
    unfold OutProc.step
    have h' : outputMake outEnv true ((ps i).records.length : ℤ) (ps i).opts ⟨(ps i).cout, fs⟩ = (.ok wrs, W) := h
    rw [show (ps i).pc = .start from rfl]
    simp only [h']
    simp
  · intro i j hij p q hp hq
    cases i <;> cases j <;> simp_all [qs, outEnv]
    all_goals (subst hp hq; decide)
  · intro i e
    obtain ⟨wrs, W, h⟩ := hmake (qs i).opts (if i then "out1" else "out2") (qs i).cout rfl (by cases i <;> simp [hh])
    rw [outAlone, outAlone]
    unfold OutProc.step
    have h' : outputMake outEnv true ((qs i).records.length : ℤ) (qs i).opts ⟨(qs i).cout, fs⟩ = (.ok wrs, W) := h
    rw [show (qs i).pc = .start from rfl]
    simp only [h']
    simp

end Trento
