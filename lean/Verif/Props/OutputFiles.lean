import Verif.Props.OutputText
import Verif.Props.Collider
import Verif.Props.NoUB

/-! # Output: each event once (C40), files (C44, C45, C49), the ncoll entry (C46), no undefined behaviour (C61) -/

namespace Trento
open Spec
set_option linter.unusedSectionVars false
variable {F : Type} [Arith F] [NumFmt F]

/-! ## C40 -/

/-- Calling writers one after the other, each with its event; the first exception ends the sequence. -/
def Spec.calls (env : OsEnv) {n : ℕ} : List (EventRecord F n × Writer) → World F → Res Unit × World F
  | [], W => (.ok (), W)
  | (r, wr) :: cs, W =>
    match wr.run env r W with
    | (.error e, W) => (.error e, W)
    | (.ok (), W) => calls env cs W

/-- All calls for a list of events: for each event, in order, every writer, in order. -/
def Spec.allCalls {n : ℕ} (wrs : List Writer) (rs : List (EventRecord F n)) : List (EventRecord F n × Writer) :=
  rs.flatMap fun r => wrs.map fun wr => (r, wr)

theorem outputEvent_calls (env : OsEnv) {n : ℕ} (r : EventRecord F n) (wrs : List Writer) (W : World F) :
    outputEvent env r wrs W = calls env (wrs.map fun wr => (r, wr)) W := by
  induction wrs generalizing W with
  | nil => rfl
  | cons wr wrs ih =>
    rw [outputEvent, List.map_cons, calls]
    cases h : wr.run env r W with
    | mk res W' =>
      cases res with
      | error e => rfl
      | ok u => exact ih W'

theorem calls_append (env : OsEnv) {n : ℕ} (a b : List (EventRecord F n × Writer)) (W : World F) :
    calls env (a ++ b) W = match calls env a W with
      | (.error e, W) => (.error e, W)
      | (.ok (), W) => calls env b W := by
  induction a generalizing W with
  | nil => rfl
  | cons c a ih =>
    obtain ⟨r, wr⟩ := c
    rw [List.cons_append, calls, calls]
    cases h : wr.run env r W with
    | mk res W' =>
      cases res with
      | error e => rfl
      | ok u => exact ih W'

section
variable {E D : Type} [Rng F E D]

/-- A loop that finishes has produced the events of `runLoop` and called every writer with every event. -/
theorem runLoopOut_ok (rfuel fuel : ℕ) (c : Collider F) (ec : EventCfg F) (debug : Bool) (env : OsEnv) (wrs : List Writer) {n : ℕ}
    (k num : ℕ) (s s' : RunState F E D n) (W W' : World F)
    (h : runLoopOut rfuel fuel c ec debug env wrs k num s W = (.ok s', W')) :
    ∃ rs, runLoop rfuel fuel c ec debug k num s = .ok (rs, s') ∧ calls env (allCalls wrs rs) W = (.ok (), W') := by
  induction k generalizing num s W with
  | zero =>
    simp only [runLoopOut, Prod.mk.injEq, Except.ok.injEq] at h
    obtain ⟨rfl, rfl⟩ := h
    exact ⟨[], rfl, rfl⟩
  | succ k ih =>
    rw [runLoopOut] at h
    rw [runLoop]
    cases hsc : c.sampleCollision rfuel fuel s.A s.B s.rand with
    | error e => simp only [hsc] at h; cases h
    | ok res =>
      obtain ⟨⟨b, ncoll, A, B⟩, w⟩ := res
      simp only [hsc] at h ⊢
      cases hev : s.event.compute ec c.nc debug A.nucleons B.nucleons with
      | error e => simp only [hev] at h; cases h
      | ok ev =>
        simp only [hev] at h ⊢
        cases ho : outputEvent env ⟨num, b, ncoll, ev⟩ wrs W with
        | mk r1 W1 =>
          cases r1 with
          | error e => simp only [ho] at h; cases h
          | ok u =>
            simp only [ho] at h
            obtain ⟨rs, h1, h2⟩ := ih _ _ _ h
            refine ⟨⟨num, b, ncoll, ev⟩ :: rs, by rw [h1], ?_⟩
            unfold allCalls
            rw [List.flatMap_cons, calls_append, ← outputEvent_calls, ho]
            exact h2

/-- A loop that ends with an error has completely output the events before the failing one. -/
theorem runLoopOut_error (rfuel fuel : ℕ) (c : Collider F) (ec : EventCfg F) (debug : Bool) (env : OsEnv) (wrs : List Writer) {n : ℕ}
    (k num : ℕ) (s : RunState F E D n) (W W' : World F) (e : Err)
    (h : runLoopOut rfuel fuel c ec debug env wrs k num s W = (.error e, W')) :
    ∃ (j : ℕ) (rs : List (EventRecord F n)) (s' : RunState F E D n) (W1 : World F), j < k ∧
      runLoop rfuel fuel c ec debug j num s = .ok (rs, s') ∧ calls env (allCalls wrs rs) W = (.ok (), W1) ∧
      (W' = W1 ∨ ∃ r : EventRecord F n, r.num = num + j ∧ outputEvent env r wrs W1 = (.error e, W')) := by
  induction k generalizing num s W with
  | zero => simp only [runLoopOut, Prod.mk.injEq] at h; cases h.1
  | succ k ih =>
    rw [runLoopOut] at h
    cases hsc : c.sampleCollision rfuel fuel s.A s.B s.rand with
    | error e' =>
      simp only [hsc, Prod.mk.injEq] at h
      exact ⟨0, [], s, W, by omega, rfl, rfl, .inl h.2.symm⟩
    | ok res =>
      obtain ⟨⟨b, ncoll, A, B⟩, w⟩ := res
      simp only [hsc] at h
      cases hev : s.event.compute ec c.nc debug A.nucleons B.nucleons with
      | error e' =>
        simp only [hev, Prod.mk.injEq] at h
        exact ⟨0, [], s, W, by omega, rfl, rfl, .inl h.2.symm⟩
      | ok ev =>
        simp only [hev] at h
        cases ho : outputEvent env ⟨num, b, ncoll, ev⟩ wrs W with
        | mk r1 W1 =>
          cases r1 with
          | error e' =>
            simp only [ho, Prod.mk.injEq, Except.error.injEq] at h
            obtain ⟨rfl, rfl⟩ := h
            exact ⟨0, [], s, W, by omega, rfl, rfl, .inr ⟨⟨num, b, ncoll, ev⟩, rfl, ho⟩⟩
          | ok u =>
            simp only [ho] at h
            obtain ⟨j, rs, s', W2, hj, h1, h2, h3⟩ := ih _ _ _ h
            refine ⟨j+1, ⟨num, b, ncoll, ev⟩ :: rs, s', W2, by omega, ?_, ?_, ?_⟩
            · rw [runLoop]; simp only [hsc, hev, h1]
            · unfold allCalls
              rw [List.flatMap_cons, calls_append, ← outputEvent_calls, ho]
              exact h2
            · rcases h3 with h3 | ⟨r, h3, h4⟩
              · exact .inl h3
              · exact .inr ⟨r, by omega, h4⟩

/-- **C40.** A run over `N` events that finishes has called every configured writer exactly once for every event, with event
numbers 0, …, N−1 in this order (and nothing else; nothing at all for `N ≤ 0`), and the events are those of the run without
output.  If it ends with an error, the events before the failing one have been output completely in the same way, and the
failing one at most by a part of the writers. -/
theorem C40_each_event_once {rfuel fuel : ℕ} {c : Collider F} (hc : c.Valid E D) {ec : EventCfg F} {debug : Bool} {env : OsEnv}
    {wrs : List Writer} {n : ℕ} {ev : Event F n} {w : Rand E D} {W W' : World F} {res : Res (RunState F E D n)}
    (h : runLoopOut rfuel fuel c ec debug env wrs c.nevents.toNat 0 ⟨c.nucleusA, c.nucleusB, ev, w⟩ W = (res, W')) :
    (∀ s', res = .ok s' → ∃ rs, c.runEvents rfuel fuel ec debug ev w = .ok rs ∧ rs.map (·.num) = List.range c.nevents.toNat ∧
      calls env (allCalls wrs rs) W = (.ok (), W')) ∧
    (c.nevents ≤ 0 → W' = W) ∧
    (∀ e, res = .error e → ∃ (j : ℕ) (rs : List (EventRecord F n)) (W1 : World F), j < c.nevents.toNat ∧
      rs.map (·.num) = List.range j ∧ calls env (allCalls wrs rs) W = (.ok (), W1) ∧
      (W' = W1 ∨ ∃ r : EventRecord F n, r.num = j ∧ outputEvent env r wrs W1 = (.error e, W'))) := by
  refine ⟨?_, ?_, ?_⟩
  · rintro s' rfl
    obtain ⟨rs, h1, h2⟩ := runLoopOut_ok _ _ _ _ _ _ _ _ _ _ _ _ _ h
    have h3 : c.runEvents rfuel fuel ec debug ev w = .ok rs := by unfold Collider.runEvents; rw [h1]
    exact ⟨rs, h3, (C40_records_in_order hc h3).1, h2⟩
  · intro h0
    have : c.nevents.toNat = 0 := by omega
    rw [this] at h
    simp only [runLoopOut, Prod.mk.injEq] at h
    exact h.2.symm
  · rintro e rfl
    obtain ⟨j, rs, s', W1, hj, h1, h2, h3⟩ := runLoopOut_error _ _ _ _ _ _ _ _ _ _ _ _ _ h
    refine ⟨j, rs, W1, hj, ?_, h2, ?_⟩
    · rw [List.range_eq_range']
      exact (runLoop_records _ _ _ _ _ _ _ _ _ _ hc.histA hc.histB h1).1
    · simpa using h3

end

/-! ## C44: existing data is never overwritten -/

/-- Every entry lies in a directory. -/
def Spec.WellFormed (fs : FS F) : Prop := ∀ (p : Path) (name : String), fs (p ++ [name]) ≠ none → fs p = some .dir

/-- Everything that had content (directories and non-empty files) is unchanged. -/
def Spec.Preserved (fs fs' : FS F) : Prop := ∀ (q : Path) (nd : Node F), fs q = some nd → nd ≠ .file (.text []) → fs' q = some nd

theorem Spec.Preserved.refl (fs : FS F) : Preserved fs fs := fun _ _ h _ => h

/-- The paths a writer may write to. -/
def Writer.Target : Writer → Path → Prop
  | .stdout _, _ => False
  | .text dir _ _, q => ∃ name, q = dir ++ [name]
  | .hdf5 file, q => q = file

theorem FS.set_other (fs : FS F) {p q : Path} (nd : Node F) (h : q ≠ p) : fs.set p nd q = fs q := if_neg h
theorem FS.set_same (fs : FS F) (p : Path) (nd : Node F) : fs.set p nd p = some nd := if_pos rfl

theorem run_frame (env : OsEnv) (wr : Writer) {n : ℕ} (r : EventRecord F n) (W W' : World F) (res : Res Unit)
    (h : wr.run env r W = (res, W')) (q : Path) (hq : ¬ wr.Target q) : W'.fs q = W.fs q := by
  cases wr with
  | stdout width =>
    simp only [Writer.run, Prod.mk.injEq] at h
    rw [← h.2]
  | text dir width header =>
    have hq' : q ≠ dir ++ [String.ofList (textFileName width (r.num : ℤ))] := fun he => hq ⟨_, he⟩
    simp only [Writer.run, Prod.mk.injEq] at h
    rw [← h.2]
    show (writeTextFile env dir width r.num r.b r.ncoll r.event header W.fs).2 q = _
    unfold writeTextFile
    dsimp only
    split
    · split <;> exact FS.set_other _ _ hq'
    · split <;> rfl
  | hdf5 file =>
    simp only [Writer.run, Prod.mk.injEq] at h
    rw [← h.2]
    show (h5Write file (h5Event r.num r.b r.ncoll r.event) W.fs).2 q = _
    unfold h5Write
    split
    · split
      · rfl
      · split
        · rfl
        · exact FS.set_other _ _ hq
    · rfl

theorem calls_frame (env : OsEnv) {n : ℕ} (cs : List (EventRecord F n × Writer)) (W W' : World F) (res : Res Unit)
    (h : calls env cs W = (res, W')) (q : Path) (hq : ∀ c ∈ cs, ¬ c.2.Target q) : W'.fs q = W.fs q := by
  induction cs generalizing W with
  | nil => simp only [calls, Prod.mk.injEq] at h; rw [← h.2]
  | cons c cs ih =>
    obtain ⟨r, wr⟩ := c
    rw [calls] at h
    cases h1 : wr.run env r W with
    | mk r1 W1 =>
      have hf := run_frame env wr r W W1 r1 h1 q (hq (r, wr) (by simp))
      cases r1 with
      | error e =>
        simp only [h1, Prod.mk.injEq] at h
        rw [← h.2, hf]
      | ok u =>
        simp only [h1] at h
        rw [ih W1 h (fun c hc => hq c (by simp [hc])), hf]

theorem createDirs_preserved (env : OsEnv) (done : Path) (rest : List String) (fs : FS F) :
    Preserved fs (FS.createDirs env done rest fs).2 ∧
    ∀ q, fs q = none → (FS.createDirs env done rest fs).2 q = none ∨ (FS.createDirs env done rest fs).2 q = some .dir := by
  induction rest generalizing done fs with
  | nil => exact ⟨Preserved.refl fs, fun q hq => .inl hq⟩
  | cons c rest ih =>
    rw [FS.createDirs]
    cases hp : fs (done ++ [c]) with
    | some nd =>
      cases nd with
      | dir => exact ih _ _
      | file _ => exact ⟨Preserved.refl fs, fun q hq => .inl hq⟩
    | none =>
      dsimp only
      split
      · obtain ⟨h1, h2⟩ := ih (done ++ [c]) (fs.set (done ++ [c]) .dir)
        refine ⟨?_, ?_⟩
        · intro q nd hq hne
          apply h1 q nd _ hne
          rw [FS.set_other]
          · exact hq
          · rintro rfl; rw [hp] at hq; cases hq
        · intro q hq
          by_cases he : q = done ++ [c]
          · subst he
            right
            exact h1 _ _ (FS.set_same _ _ _) (by simp)
          · exact h2 q (by rw [FS.set_other _ _ he]; exact hq)
      · exact ⟨Preserved.refl fs, fun q hq => .inl hq⟩

/-- What the constructor does: it preserves all content, and the writers it returns write only to places that had no content. -/
theorem outputMake_safe (env : OsEnv) (hdf5 : Bool) (N : ℤ) (o : OutOptions) (W W' : World F) (res : Res (List Writer))
    (hwf : WellFormed W.fs) (h : outputMake env hdf5 N o W = (res, W')) :
    Preserved W.fs W'.fs ∧ ∀ wrs, res = .ok wrs → ∀ wr ∈ wrs, ∀ q, wr.Target q → ∀ nd, W.fs q = some nd → nd = .file (.text []) := by
  have hstd : ∀ (width : ℕ) (wr : Writer), wr ∈ (if o.quiet then [] else [Writer.stdout width]) → ∀ q, ¬ wr.Target q := by
    intro width wr hwr q
    split at hwr
    · cases hwr
    · rw [List.mem_singleton] at hwr; subst hwr; exact id
  unfold outputMake at h
  split at h
  · simp only [Prod.mk.injEq] at h
    obtain ⟨rfl, rfl⟩ := h
    exact ⟨Preserved.refl _, fun wrs hw => by cases hw⟩
  · rename_i width hwd
    dsimp only at h
    cases ho : o.output with
    | none =>
      simp only [ho, Prod.mk.injEq] at h
      obtain ⟨rfl, rfl⟩ := h
      refine ⟨Preserved.refl _, fun wrs hw => ?_⟩
      injection hw with hw
      subst hw
      exact fun wr hwr q hq => absurd hq (hstd _ wr hwr q)
    | some path =>
      simp only [ho] at h
      by_cases hh : filenameIsHdf5 path = true
      · simp only [hh, if_true] at h
        by_cases hb : hdf5 = true
        · simp only [hb, Bool.not_true, Bool.false_eq_true, if_false] at h
          by_cases he : (W.fs.exists (env.resolve path) && !W.fs.isEmpty (env.resolve path)) = true
          · simp only [he, if_true, Prod.mk.injEq] at h
            obtain ⟨rfl, rfl⟩ := h
            exact ⟨Preserved.refl _, fun wrs hw => by cases hw⟩
          · simp only [he, Bool.false_eq_true, if_false] at h
            by_cases hc : W.fs.canOpen env (env.resolve path) = true
            · simp only [hc, if_true, Prod.mk.injEq] at h
              obtain ⟨rfl, rfl⟩ := h
              have hempty : ∀ nd, W.fs (env.resolve path) = some nd → nd = .file (.text []) := by
                intro nd hnd
                have hnd' : W.fs.isEmpty (env.resolve path) = true := by
                  by_contra hne
                  apply he
                  rw [Bool.not_eq_true] at hne
                  simp [FS.exists, hnd, hne]
                unfold FS.canOpen FS.isDir at hc
                unfold FS.isEmpty at hnd'
                cases nd with
                | dir => simp [hnd] at hc
                | file c =>
                  cases c with
                  | text s =>
                    simp only [hnd, List.isEmpty_iff] at hnd'
                    rw [hnd']
                  | h5 ds => simp [hnd] at hnd'
              refine ⟨?_, ?_⟩
              · intro q nd hq hne
                show (W.fs.set _ _) q = _
                rw [FS.set_other]
                · exact hq
                · rintro rfl; exact hne (hempty nd hq)
              · intro wrs hw wr hwr q hq nd hnd
                injection hw with hw
                subst hw
                rw [List.mem_append, List.mem_singleton] at hwr
                rcases hwr with hwr | rfl
                · exact absurd hq (hstd _ wr hwr q)
                · have hq' : q = env.resolve path := hq
                  subst hq'
                  exact hempty nd hnd
            · simp only [hc, Bool.false_eq_true, if_false, Prod.mk.injEq] at h
              obtain ⟨rfl, rfl⟩ := h
              exact ⟨Preserved.refl _, fun wrs hw => by cases hw⟩
        · rw [Bool.not_eq_true] at hb
          simp only [hb, Bool.not_false, if_true, Prod.mk.injEq] at h
          obtain ⟨rfl, rfl⟩ := h
          exact ⟨Preserved.refl _, fun wrs hw => by cases hw⟩
      · simp only [hh, Bool.false_eq_true, if_false] at h
        have hchild : ∀ {wrs : List Writer} {hd : Bool}, (∀ name, W.fs (env.resolve path ++ [name]) = none) →
            wrs = (if o.quiet then [] else [Writer.stdout width.toNat]) ++ [.text (env.resolve path) width.toNat hd] →
            ∀ wr ∈ wrs, ∀ q, wr.Target q → ∀ nd, W.fs q = some nd → nd = .file (.text []) := by
          intro wrs hd hn hw wr hwr q hq nd hnd
          subst hw
          rw [List.mem_append, List.mem_singleton] at hwr
          rcases hwr with hwr | rfl
          · exact absurd hq (hstd _ wr hwr q)
          · obtain ⟨name, rfl⟩ := hq
            rw [hn name] at hnd; cases hnd
        by_cases he : W.fs.exists (env.resolve path) = true
        · simp only [he, if_true] at h
          by_cases hem : W.fs.isEmpty (env.resolve path) = true
          · simp only [hem, Bool.not_true, Bool.false_eq_true, if_false, Prod.mk.injEq] at h
            obtain ⟨rfl, rfl⟩ := h
            refine ⟨Preserved.refl _, fun wrs hw => ?_⟩
            injection hw with hw
            refine hchild (hd := !o.noHeader) ?_ hw.symm
            intro name
            by_contra hne
            have hd := hwf _ _ hne
            unfold FS.isEmpty at hem
            rw [hd] at hem
            simp only [decide_eq_true_eq] at hem
            exact hne (hem name)
          · rw [Bool.not_eq_true] at hem
            simp only [hem, Bool.not_false, if_true, Prod.mk.injEq] at h
            obtain ⟨rfl, rfl⟩ := h
            exact ⟨Preserved.refl _, fun wrs hw => by cases hw⟩
        · simp only [he, Bool.false_eq_true, if_false] at h
          have hnone : ∀ name, W.fs (env.resolve path ++ [name]) = none := by
            intro name
            by_contra hne
            have hd := hwf _ _ hne
            apply he
            simp [FS.exists, hd]
          cases hcd : FS.createDirs env [] (env.resolve path) W.fs with
          | mk r1 fs1 =>
            have hpre := (createDirs_preserved env [] (env.resolve path) W.fs).1
            rw [hcd] at hpre
            cases r1 with
            | error e =>
              simp only [hcd, Prod.mk.injEq] at h
              obtain ⟨rfl, rfl⟩ := h
              exact ⟨hpre, fun wrs hw => by cases hw⟩
            | ok u =>
              simp only [hcd, Prod.mk.injEq] at h
              obtain ⟨rfl, rfl⟩ := h
              refine ⟨hpre, fun wrs hw => ?_⟩
              injection hw with hw
              exact hchild (hd := !o.noHeader) hnone hw.symm

/-- **C44.** Whatever the options and the file system: constructing the output (successfully or not) and then any sequence of
calls of its writers, even one that ends with an exception, leaves every directory and every file that had content exactly as
it was. -/
theorem C44_no_overwrite (env : OsEnv) (hdf5 : Bool) (N : ℤ) (o : OutOptions) (W W1 : World F) (res : Res (List Writer))
    (hwf : WellFormed W.fs) (h : outputMake env hdf5 N o W = (res, W1)) :
    Preserved W.fs W1.fs ∧
    ∀ wrs, res = .ok wrs → ∀ {n : ℕ} (cs : List (EventRecord F n × Writer)), (∀ c ∈ cs, c.2 ∈ wrs) →
      ∀ res' W2, calls env cs W1 = (res', W2) → Preserved W.fs W2.fs := by
  obtain ⟨h1, h2⟩ := outputMake_safe env hdf5 N o W W1 res hwf h
  refine ⟨h1, ?_⟩
  intro wrs hw n cs hcs res' W2 h3 q nd hq hne
  rw [calls_frame env cs W1 W2 res' h3 q fun c hc ht => hne (h2 wrs hw c.2 (hcs c hc) q ht nd hq)]
  exact h1 q nd hq hne

/-- **C44, refusal.** If the output path names a directory with entries or a file with content, construction ends with an
exception and the world is unchanged. -/
theorem C44_refuses (env : OsEnv) (hdf5 : Bool) (N : ℤ) (o : OutOptions) (W : World F) (path : String) (ho : o.output = some path)
    (hne : (W.fs (env.resolve path) = some .dir ∧ ∃ name, W.fs (env.resolve path ++ [name]) ≠ none) ∨
      ∃ c, W.fs (env.resolve path) = some (.file c) ∧ c ≠ .text []) :
    ∃ e, outputMake env hdf5 N o W = (.error e, W) := by
  have hex : W.fs.exists (env.resolve path) = true := by
    rcases hne with ⟨h, -⟩ | ⟨c, h, -⟩ <;> simp [FS.exists, h]
  have hem : W.fs.isEmpty (env.resolve path) = false := by
    unfold FS.isEmpty
    rcases hne with ⟨h, name, hn⟩ | ⟨c, h, hc⟩
    · rw [h]
      simp only [decide_eq_false_iff_not]
      exact fun hall => hn (hall name)
    · rw [h]
      cases c with
      | text s =>
        rw [List.isEmpty_eq_false_iff]
        rintro rfl
        exact hc rfl
      | h5 ds => rfl
  unfold outputMake
  split
  · exact ⟨_, rfl⟩
  · simp only [ho, hex, hem, Bool.not_false, Bool.and_true, if_true]
    split
    · split <;> exact ⟨_, rfl⟩
    · exact ⟨_, rfl⟩

/-! ## C45: text files -/

theorem textFileName_injective (width : ℕ) {i j : ℕ} (h : textFileName width i = textFileName width j) : i = j := by
  rw [textFileName_eq, textFileName_eq, List.append_left_inj] at h
  have hz : ∀ k n, digitsVal (List.replicate k '0' ++ natDigits n) = n := by
    intro k n
    rw [digitsVal_append, digitsVal_natDigits]
    have : digitsVal (List.replicate k '0') = 0 := by
      induction k with
      | zero => rfl
      | succ k ih => rw [List.replicate_succ', digitsVal_append, ih]; rfl
    rw [this]; omega
  rw [← hz (width - (natDigits i).length) i, h, hz]

theorem string_ofList_inj {a b : List Char} (h : String.ofList a = String.ofList b) : a = b := by
  have := congrArg String.toList h
  simpa using this

/-- The text of the file for an event. -/
def Spec.eventText (header : Bool) {n : ℕ} (r : EventRecord F n) : List Char :=
  unlines ((if header then headerLines r.num r.b r.ncoll r.event else []) ++
    (gridLists r.event.TR).map (rowText (if header then 10 else 6)))

/-- The path of the file for an event. -/
def Spec.eventPath (p : Path) (width num : ℕ) : Path := p ++ [String.ofList (textFileName width num)]

theorem eventPath_injective (p : Path) (width : ℕ) {i j : ℕ} (h : eventPath p width i = eventPath p width j) : i = j := by
  unfold eventPath at h
  rw [List.append_right_inj] at h
  injection h with h
  exact textFileName_injective width (string_ofList_inj h)

/-- One event through the writers `[stdout?, text]`: the event file is written if it can be opened, otherwise nothing is. -/
theorem outputEvent_text (env : OsEnv) (std : List Writer) (hstd : ∀ wr ∈ std, ∃ wd, wr = .stdout wd) (p : Path) (width : ℕ)
    (header : Bool) {n : ℕ} (h1 : n ≠ 1) (r : EventRecord F n) (W : World F) (hdir : W.fs p = some .dir)
    (hnd : W.fs (eventPath p width r.num) ≠ some .dir) :
    ∃ W', outputEvent env r (std ++ [.text p width header]) W = (.ok (), W') ∧
      W'.fs = if env.openOk (eventPath p width r.num) = true then
        W.fs.set (eventPath p width r.num) (.file (.text (eventText header r))) else W.fs := by
  induction std generalizing W with
  | nil =>
    rw [List.nil_append, outputEvent, Writer.run]
    have hcan : W.fs.canOpen env (p ++ [String.ofList (textFileName width r.num)]) = env.openOk (eventPath p width r.num) := by
      unfold FS.canOpen
      have e2 : W.fs.isDir (p ++ [String.ofList (textFileName width r.num)]) = false := by
        unfold FS.isDir
        split
        · rename_i hd; exact absurd hd hnd
        · rfl
      rw [e2]
      simp [FS.isDir, hdir, eventPath]
    by_cases hopen : env.openOk (eventPath p width r.num) = true
    · rw [hopen] at hcan
      simp only [writeTextFile, hcan, if_true, textFileBody_eq _ _ _ h1, hopen]
      exact ⟨_, rfl, rfl⟩
    · rw [Bool.not_eq_true] at hopen
      rw [hopen] at hcan
      obtain ⟨os, hb⟩ := textFileBody_bad r.num r.b r.ncoll h1 r.event header
      simp only [writeTextFile, hcan, hb, hopen, Bool.false_eq_true, if_false]
      exact ⟨_, rfl, rfl⟩
  | cons wr std ih =>
    obtain ⟨wd, rfl⟩ := hstd wr (by simp)
    rw [List.cons_append, outputEvent, Writer.run]
    dsimp only
    exact ih (fun wr hwr => hstd wr (by simp [hwr])) _ hdir hnd

/-- Any number of events through the writers `[stdout?, text]`. -/
theorem outputText_all (env : OsEnv) (std : List Writer) (hstd : ∀ wr ∈ std, ∃ wd, wr = .stdout wd) (p : Path) (width : ℕ)
    (header : Bool) {n : ℕ} (h1 : n ≠ 1) (rs : List (EventRecord F n)) (hnum : (rs.map (·.num)).Nodup) (W : World F)
    (hdir : W.fs p = some .dir) (hnd : ∀ r ∈ rs, W.fs (eventPath p width r.num) ≠ some .dir) :
    ∃ W', calls env (allCalls (std ++ [.text p width header]) rs) W = (.ok (), W') ∧
      (∀ r ∈ rs, env.openOk (eventPath p width r.num) = true →
        W'.fs (eventPath p width r.num) = some (.file (.text (eventText header r)))) ∧
      (∀ q, (∀ r ∈ rs, env.openOk (eventPath p width r.num) = true → q ≠ eventPath p width r.num) → W'.fs q = W.fs q) := by
  induction rs generalizing W with
  | nil => exact ⟨W, rfl, by simp, fun q _ => rfl⟩
  | cons r rs ih =>
    rw [List.map_cons, List.nodup_cons] at hnum
    obtain ⟨W1, h3, h4⟩ := outputEvent_text env std hstd p width header h1 r W hdir (hnd r (by simp))
    have hpne : p ≠ eventPath p width r.num := by
      unfold eventPath; intro h
      have := congrArg List.length h
      simp at this
    have hne : ∀ r' ∈ rs, eventPath p width r'.num ≠ eventPath p width r.num := by
      intro r' hr' h
      exact hnum.1 (List.mem_map.mpr ⟨r', hr', eventPath_injective p width h⟩)
    have hoth : ∀ q, (env.openOk (eventPath p width r.num) = true → q ≠ eventPath p width r.num) → W1.fs q = W.fs q := by
      intro q hq
      rw [h4]
      split
      · rename_i ho; exact FS.set_other _ _ (hq ho)
      · rfl
    obtain ⟨W2, h5, h6, h7⟩ := ih hnum.2 W1 (by rw [hoth _ fun _ => hpne]; exact hdir)
      (fun r' hr' => by rw [hoth _ fun _ => hne r' hr']; exact hnd r' (by simp [hr']))
    refine ⟨W2, ?_, ?_, ?_⟩
    · unfold allCalls
      rw [List.flatMap_cons, calls_append, ← outputEvent_calls, h3]
      exact h5
    · intro r' hr' ho
      rcases List.mem_cons.mp hr' with rfl | hr'
      · rw [h7 _ (fun r2 hr2 _ h => hne r2 hr2 h.symm), h4, if_pos ho, FS.set_same]
      · exact h6 r' hr' ho
    · intro q hq
      rw [h7 q fun r hr => hq r (by simp [hr]), hoth q (hq r (by simp))]

/-- The width of the event numbers in file names for `N` events: the decimal logarithm of `N`, rounded up. -/
def Spec.NumberWidth (F : Type) [Arith F] (N : ℤ) (width : ℕ) : Prop :=
  ∃ k : ℤ, castInt (ceil (log10 (ofInt N : F))) = .ok k ∧ width = k.toNat

/-- After a successful construction for a text directory that was not an existing file. -/
theorem outputMake_text (env : OsEnv) (hdf5 : Bool) (N : ℤ) (o : OutOptions) (W W' : World F) (wrs : List Writer) (path : String)
    (ho : o.output = some path) (hh : filenameIsHdf5 path = false) (hwf : WellFormed W.fs) (hroot : W.fs [] = some .dir)
    (hfile : ∀ c, W.fs (env.resolve path) ≠ some (.file c)) (h : outputMake env hdf5 N o W = (.ok wrs, W')) :
    ∃ width std, wrs = std ++ [.text (env.resolve path) width (!o.noHeader)] ∧ (∀ wr ∈ std, ∃ wd, wr = .stdout wd) ∧
      W'.fs (env.resolve path) = some .dir ∧ (∀ name, W'.fs (env.resolve path ++ [name]) = none) ∧ NumberWidth F N width := by
  unfold outputMake at h
  split at h
  · simp only [Prod.mk.injEq] at h; cases h.1
  · rename_i width hwd
    simp only [ho, hh, Bool.false_eq_true, if_false] at h
    have hstd : ∀ wr ∈ (if o.quiet then [] else [Writer.stdout width.toNat]), ∃ wd, wr = .stdout wd := by
      intro wr hwr
      split at hwr
      · cases hwr
      · rw [List.mem_singleton] at hwr; exact ⟨_, hwr⟩
    by_cases he : W.fs.exists (env.resolve path) = true
    · simp only [he, if_true] at h
      by_cases hem : W.fs.isEmpty (env.resolve path) = true
      · simp only [hem, Bool.not_true, Bool.false_eq_true, if_false, Prod.mk.injEq, Except.ok.injEq] at h
        obtain ⟨rfl, rfl⟩ := h
        refine ⟨_, _, rfl, hstd, ?_⟩
        unfold FS.isEmpty at hem
        cases hnd : W.fs (env.resolve path) with
        | none => simp [FS.exists, hnd] at he
        | some nd =>
          cases nd with
          | dir =>
            rw [hnd] at hem
            simp only [decide_eq_true_eq] at hem
            exact ⟨rfl, hem, width, hwd, rfl⟩
          | file c => exact absurd hnd (hfile c)
      · rw [Bool.not_eq_true] at hem
        simp only [hem, Bool.not_false, if_true, Prod.mk.injEq] at h
        cases h.1
    · simp only [he, Bool.false_eq_true, if_false] at h
      have hnone : W.fs (env.resolve path) = none := by
        cases hnd : W.fs (env.resolve path) with
        | none => rfl
        | some nd => simp [FS.exists, hnd] at he
      cases hcd : FS.createDirs env [] (env.resolve path) W.fs with
      | mk r1 fs1 =>
        cases r1 with
        | error e => simp only [hcd, Prod.mk.injEq] at h; cases h.1
        | ok u =>
          simp only [hcd, Prod.mk.injEq, Except.ok.injEq] at h
          obtain ⟨rfl, rfl⟩ := h
          refine ⟨_, _, rfl, hstd, ?_⟩
          -- the path becomes a directory, nothing is created below it
          have key : ∀ (rest : List String) (done : Path) (fs fs' : FS F), FS.createDirs env done rest fs = (.ok (), fs') →
              fs done = some .dir → fs' (done ++ rest) = some .dir ∧ ∀ q, rest.length + done.length < q.length → fs' q = fs q := by
            intro rest
            induction rest with
            | nil =>
              intro done fs fs' h hd
              simp only [FS.createDirs, Prod.mk.injEq, true_and] at h
              subst h
              simpa using hd
            | cons c rest ih =>
              intro done fs fs' h hd
              rw [FS.createDirs] at h
              cases hp : fs (done ++ [c]) with
              | some nd =>
                cases nd with
                | dir =>
                  simp only [hp] at h
                  have := ih _ _ _ h hp
                  simp only [List.append_assoc, List.singleton_append, List.length_append, List.length_singleton] at this
                  refine ⟨this.1, fun q hq => this.2 q ?_⟩
                  simp only [List.length_cons] at hq; omega
                | file _ => simp only [hp, Prod.mk.injEq] at h; cases h.1
              | none =>
                simp only [hp] at h
                split at h
                · have := ih _ _ _ h (FS.set_same _ _ _)
                  simp only [List.append_assoc, List.singleton_append, List.length_append, List.length_singleton] at this
                  refine ⟨this.1, fun q hq => ?_⟩
                  simp only [List.length_cons] at hq
                  rw [this.2 q (by omega), FS.set_other]
                  rintro rfl
                  simp at hq
                · simp only [Prod.mk.injEq] at h; cases h.1
          obtain ⟨k1, k2⟩ := key _ _ _ _ hcd hroot
          refine ⟨by simpa using k1, fun name => ?_, width, hwd, rfl⟩
          show fs1 _ = none
          rw [k2 _ (by simp)]
          by_contra hne
          have := hwf _ _ hne
          rw [hnone] at this; cases this

/-- The events land in the output directory: after a successful construction for a path that was not an existing file. -/
theorem textFiles_dir (env : OsEnv) (hdf5 : Bool) (N : ℕ) (o : OutOptions) (W W1 : World F) (wrs : List Writer) (path : String)
    (ho : o.output = some path) (hh : filenameIsHdf5 path = false) (hwf : WellFormed W.fs) (hroot : W.fs [] = some .dir)
    (hfile : ∀ c, W.fs (env.resolve path) ≠ some (.file c)) (h : outputMake env hdf5 N o W = (.ok wrs, W1))
    {n : ℕ} (h1 : n ≠ 1) (rs : List (EventRecord F n)) (hrs : rs.map (·.num) = List.range N) :
    ∃ width W2, NumberWidth F N width ∧ calls env (allCalls wrs rs) W1 = (.ok (), W2) ∧
      (∀ r ∈ rs, env.openOk (eventPath (env.resolve path) width r.num) = true →
        W2.fs (eventPath (env.resolve path) width r.num) = some (.file (.text (eventText (!o.noHeader) r)))) ∧
      (∀ name, W2.fs (env.resolve path ++ [name]) ≠ none ↔
        ∃ i < N, name = String.ofList (textFileName width i) ∧ env.openOk (env.resolve path ++ [name]) = true) := by
  obtain ⟨width, std, rfl, hstd, hdir, hnone, hnw⟩ := outputMake_text env hdf5 N o W W1 wrs path ho hh hwf hroot hfile h
  obtain ⟨W2, h3, h4, h5⟩ := outputText_all env std hstd (env.resolve path) width (!o.noHeader) h1 rs
    (by rw [hrs]; exact List.nodup_range) W1 hdir (fun r _ => by
      show W1.fs (_ ++ [_]) ≠ _
      rw [hnone]; simp)
  refine ⟨width, W2, hnw, h3, h4, fun name => ⟨?_, ?_⟩⟩
  · intro hne
    by_contra hno
    apply hne
    rw [h5 _ ?_, hnone]
    intro r hr hop he
    rw [← he] at hop
    unfold eventPath at he
    rw [List.append_right_inj] at he
    injection he with he
    apply hno
    refine ⟨r.num, ?_, he, hop⟩
    have : r.num ∈ rs.map (·.num) := List.mem_map.mpr ⟨r, hr, rfl⟩
    rw [hrs] at this
    exact List.mem_range.mp this
  · rintro ⟨i, hi, rfl, hop⟩
    have : i ∈ rs.map (·.num) := by rw [hrs]; exact List.mem_range.mpr hi
    obtain ⟨r, hr, rfl⟩ := List.mem_map.mp this
    have := h4 r hr hop
    unfold eventPath at this
    rw [this]; simp

/-- The exception in C45: an output path that is an existing empty file is accepted, every event is "written" successfully,
and nothing is stored. -/
theorem C45_empty_file_swallows (env : OsEnv) (hdf5 : Bool) (N : ℤ) (o : OutOptions) (W : World F) (path : String)
    (ho : o.output = some path) (hh : filenameIsHdf5 path = false) {wd : ℤ}
    (hw : castInt (ceil (log10 (ofInt N : F))) = .ok wd) (hfile : W.fs (env.resolve path) = some (.file (.text []))) :
    ∃ wrs, outputMake env hdf5 N o W = (.ok wrs, W) ∧
      ∀ {n : ℕ}, n ≠ 1 → ∀ rs : List (EventRecord F n), ∃ W2, calls env (allCalls wrs rs) W = (.ok (), W2) ∧ W2.fs = W.fs := by
  have hmake : outputMake env hdf5 N o W =
      (.ok ((if o.quiet then [] else [Writer.stdout wd.toNat]) ++ [.text (env.resolve path) wd.toNat (!o.noHeader)]), W) := by
    unfold outputMake
    simp [hw, ho, hh, FS.exists, FS.isEmpty, hfile]
  refine ⟨_, hmake, ?_⟩
  intro n h2 rs
  have step : ∀ (r : EventRecord F n) (wr : Writer), (wr ∈ (if o.quiet then [] else [Writer.stdout wd.toNat]) ++
      [Writer.text (env.resolve path) wd.toNat (!o.noHeader)]) → ∀ W1 : World F, W1.fs = W.fs →
      ∃ W2, wr.run env r W1 = (.ok (), W2) ∧ W2.fs = W.fs := by
    intro r wr hwr W1 hW1
    rw [List.mem_append, List.mem_singleton] at hwr
    rcases hwr with hwr | rfl
    · split at hwr
      · cases hwr
      · rw [List.mem_singleton] at hwr; subst hwr
        exact ⟨_, rfl, hW1⟩
    · have hcan : W1.fs.canOpen env (env.resolve path ++ [String.ofList (textFileName wd.toNat r.num)]) = false := by
        unfold FS.canOpen
        have : FS.isDir W1.fs (env.resolve path) = false := by unfold FS.isDir; rw [hW1, hfile]
        simp [this]
      obtain ⟨os, hb⟩ := textFileBody_bad r.num r.b r.ncoll h2 r.event (!o.noHeader)
      refine ⟨W1, ?_, hW1⟩
      simp [Writer.run, writeTextFile, hcan, hb]
  have all : ∀ (cs : List (EventRecord F n × Writer)), (∀ c ∈ cs, c.2 ∈ (if o.quiet then [] else [Writer.stdout wd.toNat]) ++
      [Writer.text (env.resolve path) wd.toNat (!o.noHeader)]) → ∀ W1 : World F, W1.fs = W.fs →
      ∃ W2, calls env cs W1 = (.ok (), W2) ∧ W2.fs = W.fs := by
    intro cs
    induction cs with
    | nil => intro _ W1 hW1; exact ⟨W1, rfl, hW1⟩
    | cons c cs ih =>
      intro hc W1 hW1
      obtain ⟨r, wr⟩ := c
      obtain ⟨W2, h3, h4⟩ := step r wr (hc (r, wr) (by simp)) W1 hW1
      rw [calls, h3]
      exact ih (fun c hc' => hc c (by simp [hc'])) W2 h4
  apply all _ _ W rfl
  intro c hc
  unfold allCalls at hc
  rw [List.mem_flatMap] at hc
  obtain ⟨r, -, hc⟩ := hc
  rw [List.mem_map] at hc
  obtain ⟨wr, hwr, rfl⟩ := hc
  exact hwr

/-- **C45: where the events go, every initial file system.**  If construction for a text output path succeeds, outputting the
events numbered 0, …, N−1 succeeds.  Either the path was not an existing file: then it is a directory holding exactly the files
`<number>.dat` (the number padded with zeros to the documented width) which the system let the program open, each with the text of its event (all `N` of them if every open
succeeds).  Or the path was an existing file: then it was empty, and nothing at all is stored. -/
theorem C45_text_files (env : OsEnv) (hdf5 : Bool) (N : ℕ) (o : OutOptions) (W W1 : World F) (wrs : List Writer) (path : String)
    (ho : o.output = some path) (hh : filenameIsHdf5 path = false) (hwf : WellFormed W.fs) (hroot : W.fs [] = some .dir)
    (h : outputMake env hdf5 N o W = (.ok wrs, W1))
    {n : ℕ} (h1 : n ≠ 1) (rs : List (EventRecord F n)) (hrs : rs.map (·.num) = List.range N) :
    ∃ W2, calls env (allCalls wrs rs) W1 = (.ok (), W2) ∧
      (((∀ c, W.fs (env.resolve path) ≠ some (.file c)) ∧ ∃ width, NumberWidth F N width ∧
        (∀ r ∈ rs, env.openOk (eventPath (env.resolve path) width r.num) = true →
          W2.fs (eventPath (env.resolve path) width r.num) = some (.file (.text (eventText (!o.noHeader) r)))) ∧
        (∀ name, W2.fs (env.resolve path ++ [name]) ≠ none ↔
          ∃ i < N, name = String.ofList (textFileName width i) ∧ env.openOk (env.resolve path ++ [name]) = true) ∧
        ((∀ name, env.openOk (env.resolve path ++ [name]) = true) →
          Set.ncard {name | W2.fs (env.resolve path ++ [name]) ≠ none} = N)) ∨
      (W.fs (env.resolve path) = some (.file (.text [])) ∧ W2.fs = W.fs)) := by
  by_cases hfile : ∀ c, W.fs (env.resolve path) ≠ some (.file c)
  · obtain ⟨width, W2, hnw, h3, h4, hiff⟩ := textFiles_dir env hdf5 N o W W1 wrs path ho hh hwf hroot hfile h h1 rs hrs
    refine ⟨W2, h3, .inl ⟨hfile, width, hnw, h4, hiff, fun hopen => ?_⟩⟩
    have : {name | W2.fs (env.resolve path ++ [name]) ≠ none} =
        (fun i : ℕ => String.ofList (textFileName width i)) '' (Finset.range N : Set ℕ) := by
      ext name
      rw [Set.mem_ofPred_eq, hiff]
      constructor
      · rintro ⟨i, hi, rfl, -⟩; exact ⟨i, by simpa using hi, rfl⟩
      · rintro ⟨i, hi, rfl⟩; exact ⟨i, by simpa using hi, rfl, hopen _⟩
    rw [this, Set.ncard_image_of_injective _ (fun i j hij => textFileName_injective width (string_ofList_inj hij)),
      Set.ncard_coe_finset, Finset.card_range]
  · push Not at hfile
    obtain ⟨c, hc⟩ := hfile
    have hw : ∃ wd, castInt (ceil (log10 (ofInt N : F))) = .ok wd := by
      unfold outputMake at h
      split at h
      · simp only [Prod.mk.injEq] at h; cases h.1
      · rename_i width hwd; exact ⟨width, hwd⟩
    obtain ⟨wd, hw⟩ := hw
    have hempty : c = .text [] := by
      unfold outputMake at h
      simp only [hw, ho, hh, Bool.false_eq_true, if_false] at h
      have he : W.fs.exists (env.resolve path) = true := by simp [FS.exists, hc]
      simp only [he, if_true] at h
      by_cases hem : W.fs.isEmpty (env.resolve path) = true
      · unfold FS.isEmpty at hem
        rw [hc] at hem
        cases c with
        | text s => simp only [List.isEmpty_iff] at hem; rw [hem]
        | h5 _ => cases hem
      · rw [Bool.not_eq_true] at hem
        simp only [hem, Bool.not_false, if_true, Prod.mk.injEq] at h
        cases h.1
    subst hempty
    obtain ⟨wrs', h3, h4⟩ := C45_empty_file_swallows env hdf5 N o W path ho hh hw hc
    rw [h, Prod.mk.injEq, Except.ok.injEq] at h3
    obtain ⟨rfl, rfl⟩ := h3
    obtain ⟨W2, h5, h6⟩ := h4 h1 rs
    exact ⟨W2, h5, .inr ⟨hc, h6⟩⟩

/-! ## C49: HDF5 -/

theorem h5Event_name_injective {n : ℕ} {r r' : EventRecord F n}
    (h : (h5Event r.num r.b r.ncoll r.event).name = (h5Event r'.num r'.b r'.ncoll r'.event).name) : r.num = r'.num := by
  unfold h5Event at h
  dsimp only at h
  rw [List.append_right_inj, intDigits_ofNat, intDigits_ofNat] at h
  exact natDigits_injective h

/-- The dataset of an event record. -/
def Spec.datasetOf {n : ℕ} (r : EventRecord F n) : H5Dataset F := h5Event r.num r.b r.ncoll r.event

theorem outputEvent_hdf5 (env : OsEnv) (std : List Writer) (hstd : ∀ wr ∈ std, ∃ wd, wr = .stdout wd) (p : Path)
    {n : ℕ} (h1 : 1 ≤ n) (r : EventRecord F n) (W : World F) (ds : List (H5Dataset F)) (hp : W.fs p = some (.file (.h5 ds)))
    (hname : (datasetOf r).name ∉ ds.map (·.name)) :
    ∃ W', outputEvent env r (std ++ [.hdf5 p]) W = (.ok (), W') ∧ W'.fs = W.fs.set p (.file (.h5 (ds ++ [datasetOf r]))) := by
  induction std generalizing W with
  | nil =>
    rw [List.nil_append, outputEvent, Writer.run]
    have h0 : ¬ (0 ∈ (h5Event r.num r.b r.ncoll r.event).shape) := by
      unfold h5Event
      simp; omega
    have hname' : ¬ ((h5Event r.num r.b r.ncoll r.event).name ∈ ds.map (·.name)) := hname
    simp only [h5Write, hp, if_neg h0, if_neg hname']
    exact ⟨_, rfl, rfl⟩
  | cons wr std ih =>
    obtain ⟨wd, rfl⟩ := hstd wr (by simp)
    rw [List.cons_append, outputEvent, Writer.run]
    dsimp only
    exact ih (fun wr hwr => hstd wr (by simp [hwr])) _ hp

theorem outputH5_all (env : OsEnv) (std : List Writer) (hstd : ∀ wr ∈ std, ∃ wd, wr = .stdout wd) (p : Path)
    {n : ℕ} (h1 : 1 ≤ n) (rs : List (EventRecord F n)) (W : World F) (ds : List (H5Dataset F)) (hp : W.fs p = some (.file (.h5 ds)))
    (hname : (ds.map (·.name) ++ rs.map (fun r => (datasetOf r).name)).Nodup) :
    ∃ W', calls env (allCalls (std ++ [.hdf5 p]) rs) W = (.ok (), W') ∧ W'.fs p = some (.file (.h5 (ds ++ rs.map datasetOf))) := by
  induction rs generalizing W ds with
  | nil => exact ⟨W, rfl, by simpa using hp⟩
  | cons r rs ih =>
    rw [List.map_cons] at hname
    have hnot : (datasetOf r).name ∉ ds.map (·.name) := by
      intro hin
      rw [List.nodup_append] at hname
      exact hname.2.2 _ hin _ (by simp) rfl
    obtain ⟨W1, h3, h4⟩ := outputEvent_hdf5 env std hstd p h1 r W ds hp hnot
    obtain ⟨W2, h5, h6⟩ := ih W1 (ds ++ [datasetOf r]) (by rw [h4, FS.set_same]) (by simpa using hname)
    refine ⟨W2, ?_, by simpa using h6⟩
    unfold allCalls
    rw [List.flatMap_cons, calls_append, ← outputEvent_calls, h3]
    exact h5

/-- After a successful construction for an HDF5 file. -/
theorem outputMake_hdf5 (env : OsEnv) (hdf5 : Bool) (N : ℤ) (o : OutOptions) (W W' : World F) (wrs : List Writer) (path : String)
    (ho : o.output = some path) (hh : filenameIsHdf5 path = true) (h : outputMake env hdf5 N o W = (.ok wrs, W')) :
    ∃ std, wrs = std ++ [.hdf5 (env.resolve path)] ∧ (∀ wr ∈ std, ∃ wd, wr = .stdout wd) ∧
      W'.fs (env.resolve path) = some (.file (.h5 [])) := by
  unfold outputMake at h
  split at h
  · simp only [Prod.mk.injEq] at h; cases h.1
  · rename_i width hwd
    simp only [ho, hh, if_true] at h
    have hstd : ∀ wr ∈ (if o.quiet then [] else [Writer.stdout width.toNat]), ∃ wd, wr = .stdout wd := by
      intro wr hwr
      split at hwr
      · cases hwr
      · rw [List.mem_singleton] at hwr; exact ⟨_, hwr⟩
    split at h
    · simp only [Prod.mk.injEq] at h; cases h.1
    · split at h
      · simp only [Prod.mk.injEq] at h; cases h.1
      · split at h
        · simp only [Prod.mk.injEq, Except.ok.injEq] at h
          obtain ⟨rfl, rfl⟩ := h
          exact ⟨_, rfl, hstd, FS.set_same _ _ _⟩
        · simp only [Prod.mk.injEq] at h; cases h.1

/-- **C49.** If construction for an HDF5 path succeeds, outputting the events 0, …, N−1 (grid not empty) succeeds and the file
contains exactly one dataset per event, in order, named `event_<number>`, with pairwise distinct names. -/
theorem C49_hdf5_file (env : OsEnv) (hdf5 : Bool) (N : ℕ) (o : OutOptions) (W W1 : World F) (wrs : List Writer) (path : String)
    (ho : o.output = some path) (hh : filenameIsHdf5 path = true) (h : outputMake env hdf5 N o W = (.ok wrs, W1))
    {n : ℕ} (h1 : 1 ≤ n) (rs : List (EventRecord F n)) (hrs : rs.map (·.num) = List.range N) :
    ∃ W2 ds, calls env (allCalls wrs rs) W1 = (.ok (), W2) ∧ W2.fs (env.resolve path) = some (.file (.h5 ds)) ∧
      ds = rs.map datasetOf ∧ ds.map (·.name) = (List.range N).map (fun i => "event_".toList ++ natDigits i) ∧
      (ds.map (·.name)).Nodup := by
  obtain ⟨std, rfl, hstd, hp⟩ := outputMake_hdf5 env hdf5 N o W W1 wrs path ho hh h
  have hnames : (rs.map datasetOf).map (·.name) = (List.range N).map (fun i => "event_".toList ++ natDigits i) := by
    rw [← hrs, List.map_map, List.map_map]
    apply List.map_congr_left
    intro r _
    simp [datasetOf, h5Event, intDigits_ofNat]
  have hnd : ((rs.map datasetOf).map (·.name)).Nodup := by
    rw [hnames]
    refine List.Nodup.map ?_ List.nodup_range
    intro i j hij
    exact natDigits_injective (List.append_right_inj _ |>.mp hij)
  have hnd' : (([] : List (H5Dataset F)).map (·.name) ++ rs.map (fun r => (datasetOf r).name)).Nodup := by
    rw [List.map_map] at hnd
    exact hnd
  obtain ⟨W2, h3, h4⟩ := outputH5_all env std hstd _ h1 rs W1 [] hp hnd'
  exact ⟨W2, rs.map datasetOf, h3, h4, rfl, hnames, hnd⟩

/-- **C49, contents.** The dataset of an event: the extent is that of the grid, the values are the cells in row-major order, and
the attributes are exactly `b`, `npart`, `ncoll` (only if positive), `mult`, `e2`, …, `e5` with the values of the event. -/
theorem C49_hdf5_dataset {n : ℕ} (r : EventRecord F n) :
    (datasetOf r).shape = [n, n] ∧ (datasetOf r).data.length = n * n ∧
    (∀ iy ix : Fin n, (datasetOf r).data[iy.1 * n + ix.1]? = some (r.event.TR iy ix)) ∧
    (datasetOf r).attrs = [("b".toList, .dbl r.b), ("npart".toList, .int r.event.npart)] ++
      (if 0 < r.ncoll then [("ncoll".toList, .int r.ncoll)] else []) ++
      [("mult".toList, .dbl r.event.multiplicity), ("e2".toList, .dbl r.event.ecc.e2), ("e3".toList, .dbl r.event.ecc.e3),
        ("e4".toList, .dbl r.event.ecc.e4), ("e5".toList, .dbl r.event.ecc.e5)] := by
  have hflat : ∀ (rows : List (List F)) (m : ℕ), (∀ row ∈ rows, row.length = m) → rows.flatten.length = rows.length * m ∧
      ∀ (i j : ℕ) (row : List F), rows[i]? = some row → j < m → rows.flatten[i * m + j]? = row[j]? := by
    intro rows m
    induction rows with
    | nil => intro _; exact ⟨by simp, by intro i j row h; simp at h⟩
    | cons r0 rows ih =>
      intro hl
      have hl0 := hl r0 (by simp)
      obtain ⟨ih1, ih2⟩ := ih fun row hrow => hl row (by simp [hrow])
      refine ⟨by rw [List.flatten_cons, List.length_append, ih1, List.length_cons, hl0]; ring, ?_⟩
      intro i j row hi hj
      cases i with
      | zero =>
        simp only [List.getElem?_cons_zero, Option.some.injEq] at hi
        subst hi
        rw [List.flatten_cons, zero_mul, zero_add, List.getElem?_append_left (by omega)]
      | succ i =>
        rw [List.getElem?_cons_succ] at hi
        have e : (i + 1) * m + j = r0.length + (i * m + j) := by rw [hl0]; ring
        rw [List.flatten_cons, e, List.getElem?_append_right (by omega), Nat.add_sub_cancel_left]
        exact ih2 i j row hi hj
  obtain ⟨hl1, hl2⟩ := gridLists_length r.event.TR
  obtain ⟨f1, f2⟩ := hflat (gridLists r.event.TR) n hl2
  refine ⟨rfl, f1.trans (congrArg (· * n) hl1), ?_, ?_⟩
  · intro iy ix
    show (gridLists r.event.TR).flatten[_]? = _
    have hrow : (gridLists r.event.TR)[iy.1]? = some (List.ofFn fun ix => r.event.TR iy ix) := by
      unfold gridLists
      rw [List.getElem?_ofFn]; simp
    rw [f2 iy.1 ix.1 _ hrow ix.2, List.getElem?_ofFn]; simp
  · have d2 : intDigits 2 = ['2'] := by rw [intDigits, if_neg (by decide)]; exact natDigits_lt (n := 2) (by decide)
    have d3 : intDigits 3 = ['3'] := by rw [intDigits, if_neg (by decide)]; exact natDigits_lt (n := 3) (by decide)
    have d4 : intDigits 4 = ['4'] := by rw [intDigits, if_neg (by decide)]; exact natDigits_lt (n := 4) (by decide)
    have d5 : intDigits 5 = ['5'] := by rw [intDigits, if_neg (by decide)]; exact natDigits_lt (n := 5) (by decide)
    unfold datasetOf h5Event eccList
    by_cases hn : 0 < r.ncoll
    · simp [hn, d2, d3, d4, d5]
    · simp [hn, d2, d3, d4, d5]

/-! ## C46: the ncoll entry -/

/-- The lines of an event file. -/
theorem lines_eventText {n : ℕ} (header : Bool) (r : EventRecord ℝ n) : lines (eventText header r) =
    (if header then headerLines r.num r.b r.ncoll r.event else []) ++
      (gridLists r.event.TR).map (rowText (if header then 10 else 6)) := by
  have := lines_unlines (ls := (if header then headerLines r.num r.b r.ncoll r.event else []) ++
    (gridLists r.event.TR).map (rowText (if header then 10 else 6))) (by
      intro l hl
      rw [List.mem_append] at hl
      rcases hl with hl | hl
      · cases header
        · cases hl
        · exact headerLines_nl printsWords_real _ _ _ _ l hl
      · rw [List.mem_map] at hl
        obtain ⟨r, -, rfl⟩ := hl
        exact (words_rowText printsWords_real _ r).2) []
  rw [List.append_nil] at this
  unfold eventText
  rw [this]
  simp [lines, linesFrom]

theorem rowText_chars (p : ℕ) (xs : List ℝ) : ∀ c ∈ rowText p xs, NumChar c ∨ c = ' ' := by
  induction xs with
  | nil => intro c hc; cases hc
  | cons x xs ih =>
    cases xs with
    | nil => exact fun c hc => .inl (fmt_numChar _ _ _ c hc)
    | cons y ys =>
      intro c hc
      have e : rowText p (x :: y :: ys) = NumFmt.fmt FloatField.general p x ++ ' ' :: rowText p (y :: ys) := rfl
      rw [e, List.mem_append, List.mem_cons] at hc
      rcases hc with hc | hc | hc
      · exact .inl (fmt_numChar _ _ _ c hc)
      · exact .inr hc
      · exact ih c hc

/-- The header has the `# ncoll` line exactly if there is a positive number of collisions. -/
theorem headerLines_ncoll (num : ℤ) (b : ℝ) (ncoll : ℕ) {n : ℕ} (ev : Event ℝ n) :
    (∃ l ∈ headerLines num b ncoll ev, "# ncoll".toList <+: l) ↔ 0 < ncoll := by
  constructor
  · rintro ⟨l, hl, hp⟩
    by_contra hn
    have hn' : ¬ (0:ℤ) < ncoll := by exact_mod_cast hn
    unfold headerLines at hl
    rw [if_neg hn'] at hl
    simp only [List.append_nil, List.mem_append, List.mem_cons, List.not_mem_nil, or_false] at hl
    have h4 := List.IsPrefix.take hp 4
    have key : ∀ (p s : List Char), 4 ≤ p.length → List.take 4 (p ++ s) = List.take 4 p :=
      fun p s hp => List.take_append_of_le_length hp
    rcases hl with (rfl | rfl | rfl) | rfl | rfl | rfl | rfl | rfl <;> rw [key _ _ (by decide)] at h4 <;>
      exact absurd h4 (by decide)
  · intro hn
    have hn' : (0:ℤ) < ncoll := by exact_mod_cast hn
    refine ⟨"# ncoll = ".toList ++ intDigits ncoll, ?_, ?_⟩
    · unfold headerLines
      rw [if_pos hn']
      exact List.mem_append_left _ (List.mem_append_right _ (List.mem_singleton.mpr rfl))
    · exact (show "# ncoll".toList <+: "# ncoll = ".toList by decide).trans (List.prefix_append _ _)

/-- **C46.** In a run with `--ncoll` every event's standard output line has nine columns, its file (with header) has a line
`# ncoll …` and its dataset the `ncoll` attribute; in a run without, the line has eight columns and neither entry exists. -/
theorem C46_ncoll_entries {E D : Type} [Rng ℝ E D] {rfuel fuel : ℕ} {c : Collider ℝ} (hc : c.Valid E D) {ec : EventCfg ℝ}
    {debug : Bool} {n : ℕ} {ev : Event ℝ n} {w : Rand E D} {rs : List (EventRecord ℝ n)}
    (h : c.runEvents rfuel fuel ec debug ev w = .ok rs) :
    ∀ r ∈ rs,
      (∀ (width : ℕ) (os : OStream), Plain os → Printable r.b r.event.npart r.ncoll r.event.multiplicity r.event.ecc →
        ∃ l, (writeStream width r.num r.b r.ncoll r.event os).out = os.out ++ l ++ ['\n'] ∧ '\n' ∉ l ∧
          (words l).length = if c.calcNcoll then 9 else 8) ∧
      ((∃ l ∈ lines (eventText true r), "# ncoll".toList <+: l) ↔ c.calcNcoll = true) ∧
      ("ncoll".toList ∈ (datasetOf r).attrs.map (·.1) ↔ c.calcNcoll = true) := by
  intro r hr
  obtain ⟨h1, h2⟩ := C37_ncoll_bounds hc h r hr
  have hpos : 0 < r.ncoll ↔ c.calcNcoll = true := by
    cases hn : c.calcNcoll with
    | false => rw [h1 hn]; simp
    | true => exact ⟨fun _ => rfl, fun _ => (h2 hn).1⟩
  refine ⟨?_, ?_, ?_⟩
  · intro width os hos hp
    obtain ⟨l, hl1, hl2, hl3⟩ := C42_line width r.num r.ncoll r.b r.event hos hp
    refine ⟨l, hl1, hl2, ?_⟩
    rw [hl3]
    by_cases hn : 0 < r.ncoll
    · rw [if_pos hn, if_pos (hpos.mp hn)]; rfl
    · rw [if_neg hn, if_neg (fun h => hn (hpos.mpr h))]; rfl
  · rw [← hpos, ← headerLines_ncoll r.num r.b r.ncoll r.event, lines_eventText]
    constructor
    · rintro ⟨l, hl, hp⟩
      rw [List.mem_append] at hl
      rcases hl with hl | hl
      · exact ⟨l, hl, hp⟩
      · exfalso
        rw [List.mem_map] at hl
        obtain ⟨xs, -, rfl⟩ := hl
        have := rowText_chars _ xs '#' (hp.subset (by decide))
        rcases this with h | h
        · rcases h with h | h | h | h | h <;> revert h <;> decide
        · revert h; decide
    · rintro ⟨l, hl, hp⟩
      exact ⟨l, List.mem_append_left _ hl, hp⟩
  · rw [(C49_hdf5_dataset r).2.2.2, ← hpos]
    by_cases hn : 0 < r.ncoll
    · simp [hn]
    · simp [hn]

end Trento
