import Verif.Props.Program

/-! # The program: how it ends and what it leaves behind (C58) -/

namespace Trento
open Spec
set_option linter.unusedSectionVars false

section
variable {F : Type} [Arith F]

/-! ## Which command lines are accepted -/

/-- Every option mentioned exists, and its mentions mean a value. -/
def Spec.Acceptable (L : Lib F) (desc : List (OptDesc F)) (src : List ParsedOption) : Prop :=
  ∀ k, givenIn k src ≠ [] → ∃ d ∈ desc, d.name = k ∧ ∃ v, Means L d.type (givenIn k src) v

/-- An exception that is a `po::error` of the library. -/
def Spec.IsPoError (e : Err) : Prop := ∃ msg, e = .throw .poError msg

theorem orInvalid_error {α : Type} (o : Option α) (e : Err) (h : orInvalid o = .error e) : IsPoError e := by
  cases o with
  | none => cases h; exact ⟨_, rfl⟩
  | some y => cases h

theorem singleToken_error (toks : List String) (e : Err) (h : singleToken toks = .error e) : IsPoError e := by
  match toks with
  | [] => cases h; exact ⟨_, rfl⟩
  | [_] => cases h
  | _ :: _ :: _ => cases h; exact ⟨_, rfl⟩

theorem boolToken_error (toks : List String) (e : Err) (h : boolToken toks = .error e) : IsPoError e := by
  match toks with
  | [] => cases h
  | [s] =>
    unfold boolToken at h
    dsimp only at h
    split at h
    · cases h
    · split at h
      · cases h
      · cases h; exact ⟨_, rfl⟩
  | _ :: _ :: _ => cases h; exact ⟨_, rfl⟩

theorem mapRes_error {α β : Type} (f : α → Res β) (hf : ∀ a e, f a = .error e → IsPoError e) (l : List α) (e : Err)
    (h : mapRes f l = .error e) : IsPoError e := by
  induction l with
  | nil => cases h
  | cons a l ih =>
    rw [mapRes] at h
    cases ha : f a with
    | error e' => simp only [ha] at h; cases h; exact hf a _ ha
    | ok b =>
      simp only [ha] at h
      cases hl : mapRes f l with
      | error e' => simp only [hl] at h; cases h; exact ih hl
      | ok bs => simp only [hl] at h; cases h

theorem scalarVal_error (L : Lib F) (ty : OptType) (toks : List String) (e : Err) (h : scalarVal L ty toks = .error e) : IsPoError e := by
  have two : ∀ {α : Type} (f : String → Option α) (g : α → OptVal F),
      (do let x ← orInvalid (f (← singleToken toks)); return g x : Res (OptVal F)) = .error e → IsPoError e := by
    intro α f g h
    simp only [bind, Except.bind, pure, Except.pure] at h
    cases h1 : singleToken toks with
    | error e' => simp only [h1] at h; cases h; exact singleToken_error _ _ h1
    | ok s =>
      simp only [h1] at h
      cases h2 : orInvalid (f s) with
      | error e' => simp only [h2] at h; cases h; exact orInvalid_error _ _ h2
      | ok x => simp only [h2] at h; cases h
  have plain : (match toks with
      | [] => (return .str "" : Res (OptVal F))
      | [s] => return .str s
      | _ => throw (Err.throw .poError "multiple values not allowed")) = .error e → IsPoError e := by
    intro h
    match toks with
    | [] => cases h
    | [_] => cases h
    | _ :: _ :: _ => cases h; exact ⟨_, rfl⟩
  cases ty with
  | switch =>
    unfold scalarVal at h
    simp only [bind, Except.bind, pure, Except.pure] at h
    cases h1 : boolToken toks with
    | error e' => simp only [h1] at h; cases h; exact boolToken_error _ _ h1
    | ok s => simp only [h1] at h; cases h
  | int => exact two L.toInt .int h
  | int64 => exact two L.toInt64 .int h
  | double => exact two L.toDouble .dbl h
  | path => exact two L.toPath .str h
  | none => exact plain h
  | strings => exact plain h
  | paths => exact plain h

theorem parseVal_error (L : Lib F) (ty : OptType) (old : Option (OptVal F)) (toks : List String) (e : Err)
    (h : parseVal L ty old toks = .error e) : IsPoError e := by
  unfold parseVal at h
  split at h
  · split at h
    · rename_i e' hv
      cases h
      unfold vectorVals at hv
      split at hv
      · exact mapRes_error _ (fun a e he => orInvalid_error _ _ he) _ _ hv
      · cases hv
    · split at h <;> cases h
  · split at h
    · cases h; exact ⟨_, rfl⟩
    · exact scalarVal_error L ty toks e h

theorem storeParsed_error (L : Lib F) (desc : List (OptDesc F)) (parsed : List ParsedOption) (nf : List String) (vm : VarMap F) (e : Err)
    (h : storeParsed L desc parsed nf vm = .error e) : IsPoError e := by
  induction parsed generalizing nf vm with
  | nil => cases h
  | cons o rest ih =>
    obtain ⟨k, toks⟩ := o
    rw [storeParsed] at h
    split at h
    · exact ih _ _ h
    · split at h
      · cases h; exact ⟨_, rfl⟩
      · dsimp only at h
        split at h
        · rename_i e' hp
          cases h
          exact parseVal_error _ _ _ _ _ hp
        · exact ih _ _ h

theorem store_error (L : Lib F) (desc : List (OptDesc F)) (parsed : List ParsedOption) (vm : VarMap F) (e : Err)
    (h : store L desc parsed vm = .error e) : IsPoError e := by
  unfold store at h
  split at h
  · rename_i e' hs
    cases h
    exact storeParsed_error _ _ _ _ _ _ hs
  · cases h

/-- A meaning of several mentions gives a successful parse. -/
theorem foldParse_of_means (L : Lib F) (ty : OptType) (ms : List (List String)) (v : OptVal F) (hne : ms ≠ []) (h : Means L ty ms v) :
    ∃ r, foldParse L ty none ms = .ok r := by
  obtain ⟨t, ts, rfl⟩ := List.exists_cons_of_ne_nil hne
  have scalar : ∀ (h1 : ty ≠ .strings) (h2 : ty ≠ .paths), (∃ toks, t :: ts = [toks] ∧ scalarVal L ty toks = .ok v) →
      ∃ r, foldParse L ty none (t :: ts) = .ok r := by
    rintro h1 h2 ⟨toks, he, hs⟩
    cases he
    have hn : ¬ (ty = .strings ∨ ty = .paths) := by tauto
    refine ⟨some v, ?_⟩
    rw [foldParse, parseVal, if_neg hn]
    simp only [hs, foldParse]
  cases ty with
  | strings =>
    refine ⟨some (.strs (t ++ ts.flatten)), ?_⟩
    rw [foldParse, parseVal, if_pos (.inl rfl)]
    simp only [vectorVals]
    exact foldParse_strings L t ts
  | paths =>
    obtain ⟨l, hl, -⟩ := h
    have hall : ∀ s ∈ (t :: ts).flatten, ∃ p, L.toPath s = some p := by
      generalize (t :: ts).flatten = toks at hl
      intro s hs
      induction hl with
      | nil => cases hs
      | cons hab _ ih =>
        rcases List.mem_cons.mp hs with rfl | hs
        · exact ⟨_, hab⟩
        · exact ih hs
    have hmap : ∀ toks : List String, (∀ s ∈ toks, ∃ p, L.toPath s = some p) → ∃ bs, mapRes (fun s => orInvalid (L.toPath s)) toks = .ok bs := by
      intro toks htoks
      induction toks with
      | nil => exact ⟨[], rfl⟩
      | cons s toks ih =>
        obtain ⟨p, hp⟩ := htoks s (by simp)
        obtain ⟨bs, hbs⟩ := ih fun s hs => htoks s (by simp [hs])
        exact ⟨p :: bs, by rw [mapRes, hp, hbs]; rfl⟩
    have go : ∀ (ms : List (List String)) (old : Option (OptVal F)), (∀ s ∈ ms.flatten, ∃ p, L.toPath s = some p) →
        ∃ r, foldParse L .paths old ms = .ok r := by
      intro ms
      induction ms with
      | nil => exact fun old _ => ⟨old, rfl⟩
      | cons m ms ih =>
        intro old hms
        obtain ⟨bs, hbs⟩ := hmap m fun s hs => hms s (by simp [hs])
        rw [foldParse]
        unfold parseVal
        rw [if_pos (.inr rfl)]
        simp only [vectorVals, hbs]
        split
        · rename_i e he; split at he <;> cases he
        · exact ih _ fun s hs => hms s (by simp only [List.flatten_cons, List.mem_append]; exact .inr hs)
    exact go _ none hall
  | none => exact scalar (by simp) (by simp) h
  | switch => exact scalar (by simp) (by simp) h
  | int => exact scalar (by simp) (by simp) h
  | int64 => exact scalar (by simp) (by simp) h
  | double => exact scalar (by simp) (by simp) h
  | path => exact scalar (by simp) (by simp) h

theorem storeParsed_ok (L : Lib F) (desc : List (OptDesc F)) (parsed : List ParsedOption) (nf : List String) (vm : VarMap F)
    (h : ∀ k, k ∉ vm.final → givenIn k parsed ≠ [] → ∃ d r, desc.find? (fun d => d.name = k) = some d ∧
      foldParse L d.type (explicitVal (vm.vals k)) (givenIn k parsed) = .ok r) :
    ∃ r, storeParsed L desc parsed nf vm = .ok r := by
  induction parsed generalizing nf vm with
  | nil => exact ⟨_, rfl⟩
  | cons o rest ih =>
    obtain ⟨k', toks⟩ := o
    rw [storeParsed]
    by_cases hf : k' ∈ vm.final
    · rw [if_pos hf]
      apply ih
      intro k hk hg
      have hgk : givenIn k ((k', toks) :: rest) = givenIn k rest := by
        rw [givenIn_cons, if_neg]
        rintro rfl; exact hk hf
      rw [← hgk] at hg ⊢
      exact h k hk hg
    · rw [if_neg hf]
      obtain ⟨d, r, hd, hr⟩ := h k' hf (by rw [givenIn_cons, if_pos rfl]; simp)
      rw [givenIn_cons, if_pos rfl, foldParse] at hr
      simp only [hd]
      change ∃ r, (match parseVal L d.type (explicitVal (vm.vals k')) toks with
          | .error e => (.error e : Res (VarMap F × List String))
          | .ok v => storeParsed L desc rest (k' :: nf) (vm.set k' ⟨v, false⟩)) = .ok r
      cases hp : parseVal L d.type (explicitVal (vm.vals k')) toks with
      | error e => simp only [hp] at hr; cases hr
      | ok v =>
        simp only [hp] at hr
        dsimp only
        apply ih
        intro k hk hg
        by_cases hkk : k' = k
        · subst hkk
          refine ⟨d, r, hd, ?_⟩
          have hself : (vm.set k' ⟨v, false⟩).vals k' = some ⟨v, false⟩ := if_pos rfl
          rw [hself]
          exact hr
        · have hother : (vm.set k' ⟨v, false⟩).vals k = vm.vals k := if_neg (Ne.symm hkk)
          rw [hother]
          have := h k hk (by rw [givenIn_cons, if_neg hkk]; exact hg)
          rw [givenIn_cons, if_neg hkk] at this
          exact this

/-- A command line is stored exactly if it is acceptable. -/
theorem store_iff (L : Lib F) (cmd : List ParsedOption) :
    (∃ vm, store L allOpts cmd VarMap.empty = .ok vm) ↔ Acceptable L allOpts cmd := by
  constructor
  · rintro ⟨vm, h⟩ k hk
    unfold store at h
    cases hp : storeParsed L allOpts cmd [] VarMap.empty with
    | error e => simp only [hp] at h; cases h
    | ok r =>
      obtain ⟨vm1, nf⟩ := r
      obtain ⟨-, -, -, h4⟩ := storeParsed_spec L allOpts cmd [] nf VarMap.empty vm1 hp k
      obtain ⟨-, d, v, e2, e3, -⟩ := h4 (by simp [VarMap.empty]) hk
      obtain ⟨v', -, hm⟩ := foldParse_means L d.type _ hk _ e3
      refine ⟨d, List.mem_of_find?_eq_some e2, ?_, v', hm⟩
      simpa using List.find?_some e2
  · intro h
    obtain ⟨⟨vm1, nf⟩, hr⟩ := storeParsed_ok L allOpts cmd [] VarMap.empty (by
      intro k _ hk
      obtain ⟨d, hd, rfl, v, hm⟩ := h k hk
      obtain ⟨r, hr⟩ := foldParse_of_means L d.type _ v hk hm
      exact ⟨d, r, find?_name allOpts allOpts_nodup d hd, hr⟩)
    refine ⟨storeDefaults allOpts { vm1 with final := nf ++ vm1.final }, ?_⟩
    unfold store
    rw [hr]

/-! ## C58 -/

/-- The library parsers report errors as exceptions derived from `std::exception` (Boost.Program_options errors). -/
def Spec.ParsersThrow (L : Lib F) : Prop :=
  (∀ args e, L.parseArgs args = .error e → IsPoError e) ∧ (∀ text e, L.parseConfig text = .error e → IsPoError e)

/-- An error exit: status 1, a message on standard error. -/
theorem handle_po (e : Err) (h : IsPoError e) : (handle e).1 = .status 1 ∧ (handle e).2 ≠ [] := by
  obtain ⟨msg, rfl⟩ := h
  exact ⟨rfl, by simp [handle]⟩

theorem mergeConfigs_error (L : Lib F) (hL : ParsersThrow L) (env : OsEnv) (ce : CacheEnv) (fs : FS F) (paths : List String) (vm : VarMap F)
    (e : Err) (h : mergeConfigs L env ce fs paths vm = .error e) : IsPoError e := by
  induction paths generalizing vm with
  | nil => cases h
  | cons path rest ih =>
    rw [mergeConfigs] at h
    split at h
    · cases h; exact ⟨_, rfl⟩
    · split at h
      · rename_i e' hp
        cases h
        unfold readConfig at hp
        split at hp
        · rename_i e2 hq
          cases hp
          exact hL.2 _ _ hq
        · split at hp
          · cases hp
          · cases hp; exact ⟨_, rfl⟩
      · split at h
        · rename_i e' hs
          cases h
          exact store_error _ _ _ _ _ hs
        · exact ih _ h

/-- An exception `main` reports as the requirement of two projectiles. -/
def Spec.IsReported (e : Err) : Prop := (∃ msg, e = .throw .poError msg) ∨ ∃ msg, e = .throw .poRequiredOption msg

theorem handle_reported (e : Err) (h : IsReported e) : (handle e).1 = .status 1 ∧ (handle e).2 ≠ [] := by
  rcases h with ⟨msg, rfl⟩ | ⟨msg, rfl⟩
  · exact ⟨rfl, by simp [handle]⟩
  · refine ⟨rfl, ?_⟩
    simp only [handle]
    decide

theorem checkWidths_error (w v : F) (m : Int) (e : Err) (h : checkWidths w v m = .error e) : IsPoError e := by
  unfold checkWidths at h
  repeat' split at h
  all_goals cases h
  all_goals exact ⟨_, rfl⟩

theorem notify_error (vm : VarMap F) (e : Err) (h : notify vm = .error e) : IsReported e := by
  unfold notify at h
  split at h
  · split at h
    · cases h; exact .inr ⟨_, rfl⟩
    · cases h
  · cases h; exact .inr ⟨_, rfl⟩

theorem typed_reads (L : Lib F) (srcs : List (List ParsedOption)) (vm : VarMap F) (h : Stored L configOpts srcs vm) :
    (∃ w, vm.dbl "nucleon-width" = .ok w) ∧ (∃ v, vm.dbl "constit-width" = .ok v) ∧ ∃ m, vm.int "constit-number" = .ok m := by
  have dbl : ∀ (k : String) (q : Rat), (⟨k, .double, some (.dbl (lit q))⟩ : OptDesc F) ∈ configOpts (F := F) → ∃ x, vm.dbl k = .ok x := by
    intro k q hm
    have := (h _ hm).1
    unfold Takes at this
    unfold VarMap.dbl
    split at this
    · dsimp only [Option.map] at this; rw [this]; exact ⟨_, rfl⟩
    · obtain ⟨v, ⟨toks, -, hs⟩, hk⟩ := this
      obtain ⟨x, rfl⟩ := scalarVal_dbl L _ _ hs
      dsimp only at hk; rw [hk]; exact ⟨_, rfl⟩
  refine ⟨dbl _ _ nucleonWidth_mem, dbl _ _ constitWidth_mem, ?_⟩
  have := (h ⟨"constit-number", .int, some (.int 1)⟩ (by simp [configOpts, physOpts])).1
  unfold Takes at this
  unfold VarMap.int
  split at this
  · dsimp only [Option.map] at this; rw [this]; exact ⟨_, rfl⟩
  · obtain ⟨v, ⟨toks, -, hs⟩, hk⟩ := this
    obtain ⟨x, rfl⟩ := scalarVal_int L .int (.inl rfl) _ _ hs
    dsimp only at hk; rw [hk]; exact ⟨_, rfl⟩

theorem finalize_error (L : Lib F) (srcs : List (List ParsedOption)) (vm1 : VarMap F) (hst : Stored L configOpts srcs vm1)
    (e : Err) (h : finalize vm1 = .error e) : IsReported e := by
  obtain ⟨⟨w, hw⟩, ⟨v, hv⟩, m, hm⟩ := typed_reads L srcs vm1 hst
  have hd : ∃ vm2 v', defaultConstitWidth vm1 = .ok vm2 ∧ vm2.dbl "nucleon-width" = .ok w ∧ vm2.dbl "constit-width" = .ok v' ∧
      vm2.int "constit-number" = .ok m := by
    unfold defaultConstitWidth
    split
    · split
      · rw [hw]
        refine ⟨_, w, rfl, ?_, rfl, ?_⟩
        · exact hw
        · exact hm
      · exact ⟨vm1, v, rfl, hw, hv, hm⟩
    · exact ⟨vm1, v, rfl, hw, hv, hm⟩
  obtain ⟨vm2, v', h1, h2, h3, h4⟩ := hd
  unfold finalize at h
  simp only [bind, Except.bind, pure, Except.pure, h1, h2, h3, h4] at h
  cases h5 : checkWidths w v' m with
  | error e' => simp only [h5] at h; cases h; exact .inl (checkWidths_error _ _ _ _ h5)
  | ok u =>
    simp only [h5] at h
    cases h6 : notify vm2 with
    | error e' => simp only [h6] at h; cases h; exact notify_error _ _ h6
    | ok u' => simp only [h6] at h; cases h

/-- Whatever goes wrong before the collider is constructed is reported by `main`. -/
theorem configure_error (L : Lib F) (hL : ParsersThrow L) (env : OsEnv) (ce : CacheEnv) (fs : FS F) (args : List String) (e : Err)
    (h : configure L env ce fs args = .error e) : IsReported e := by
  unfold configure at h
  cases hp : L.parseArgs args with
  | error e' => simp only [hp] at h; cases h; exact .inl (hL.1 _ _ hp)
  | ok cmd =>
    simp only [hp] at h
    cases hs : store L allOpts cmd VarMap.empty with
    | error e' => simp only [hs] at h; cases h; exact .inl (store_error _ _ _ _ _ hs)
    | ok vm0 =>
      simp only [hs] at h
      split at h
      · cases h
      split at h
      · cases h
      split at h
      · cases h
      have hst : Stored L configOpts [cmd] vm0 := fun d hd => stored_cmd L cmd vm0 hs d (configOpts_sub d hd)
      cases hm : withConfigFiles L env ce fs vm0 with
      | error e' =>
        simp only [hm] at h; cases h
        unfold withConfigFiles at hm
        split at hm
        · rename_i hc
          have c4 := count_iff L cmd vm0 hs _ configFile_mem rfl
          dsimp only at c4
          rw [c4] at hc
          obtain ⟨t1, -⟩ := stored_cmd L cmd vm0 hs _ configFile_mem
          unfold Takes at t1
          rw [firstMention_single] at t1
          simp only [hc, if_false] at t1
          obtain ⟨v, ⟨paths, t2, rfl⟩, t3⟩ := t1
          have : vm0.strs "config-file" = .ok paths := by unfold VarMap.strs; rw [t3]
          simp only [this] at hm
          exact .inl (mergeConfigs_error L hL env ce fs paths vm0 _ hm)
        · cases hm
      | ok vm1 =>
        simp only [hm] at h
        have hst1 : ∃ srcs, Stored L configOpts srcs vm1 := by
          unfold withConfigFiles at hm
          split at hm
          · split at hm
            · cases hm
            · obtain ⟨files, -, f2⟩ := mergeConfigs_spec L env ce fs _ vm0 vm1 hm
              exact ⟨_, f2 [cmd] hst⟩
          · cases hm; exact ⟨_, hst⟩
        obtain ⟨srcs, hst1⟩ := hst1
        cases hf : finalize vm1 with
        | error e' => simp only [hf] at h; cases h; exact finalize_error L srcs vm1 hst1 _ hf
        | ok vm2 => simp only [hf] at h; cases h

variable {E D : Type} [NumFmt F] [Toms748 F] [Rng F E D]

section
variable (L : Lib F) (env : OsEnv) (ce : CacheEnv) (fu : Fuel) (h5view : FS F → String → H5View F) (ev0 : (n : Nat) → Event F n)
  (args : List String) (W : World F) (r : Rand E D)

/-- **C58, information.** An acceptable command line that mentions `--help` prints the help text, otherwise one with `--version`
prints the version, otherwise one with `--bibtex` the citation; in each case the status is 0, nothing is written to standard
error and no file is touched, whatever else the command line asks for. -/
theorem C58_information (cmd : List ParsedOption) (hp : L.parseArgs args = .ok cmd) (ha : Acceptable L allOpts cmd) :
    (givenIn "help" cmd ≠ [] → mainProg L env ce fu h5view ev0 args W r =
      (.status 0, { W with cout := W.cout.put (helpText L) }, [])) ∧
    (givenIn "help" cmd = [] → givenIn "version" cmd ≠ [] → mainProg L env ce fu h5view ev0 args W r =
      (.status 0, { W with cout := W.cout.put (versionText L) }, [])) ∧
    (givenIn "help" cmd = [] → givenIn "version" cmd = [] → givenIn "bibtex" cmd ≠ [] → mainProg L env ce fu h5view ev0 args W r =
      (.status 0, { W with cout := W.cout.put bibtexText }, [])) := by
  obtain ⟨vm, hs⟩ := (store_iff L cmd).mpr ha
  have c1 := count_iff L cmd vm hs _ help_mem rfl
  have c2 := count_iff L cmd vm hs _ version_mem rfl
  have c3 := count_iff L cmd vm hs _ bibtex_mem rfl
  dsimp only at c1 c2 c3
  refine ⟨fun h1 => ?_, fun h1 h2 => ?_, fun h1 h2 h3 => ?_⟩
  · unfold mainProg configure
    simp only [hp, hs, c1.mpr h1, if_true]
  · have n1 : vm.count "help" = false := by
      rw [← Bool.not_eq_true, c1]; exact fun h => h h1
    unfold mainProg configure
    simp only [hp, hs, n1, c2.mpr h2, if_true, Bool.false_eq_true, if_false]
  · have n1 : vm.count "help" = false := by
      rw [← Bool.not_eq_true, c1]; exact fun h => h h1
    have n2 : vm.count "version" = false := by
      rw [← Bool.not_eq_true, c2]; exact fun h => h h2
    unfold mainProg configure
    simp only [hp, hs, n1, n2, c3.mpr h3, if_true, Bool.false_eq_true, if_false]

/-- The projectiles offered by the help text. -/
def Spec.helpProjectiles : List String := ["p", "d", "Cu", "Cu2", "Xe", "Au", "Au2", "Pb", "U", "U2", "U3"]

/-- **C58, what is printed.** The help text is the usage line (which states the actual default number of events), the list of projectiles, the option
descriptions and the reference to the documentation; every projectile it offers is accepted, with or without HDF5 support.  (The converse fails: `Xe2` is accepted but not offered.)  The version is
one line. -/
theorem C58_texts :
    helpText L = "usage: trento [options] projectile projectile [number-events = 1]\n\nprojectile = { ".toList ++
      (" | ".intercalate helpProjectiles).toList ++ " }\n".toList ++ L.usageOpts ++
      "\nsee the online documentation for complete usage information\n".toList ∧
    (∀ d ∈ (allOpts : List (OptDesc F)), d.name = "number-events" → d.default = some (.int 1)) ∧
    (∀ s ∈ helpProjectiles, ∀ (hdf5 : Bool) (disk : String → H5View F) (dmin : F), ∃ nuc, createNucleus hdf5 disk s dmin = .ok nuc) ∧
    "Xe2" ∉ helpProjectiles ∧
    versionText L = "trento ".toList ++ L.version.toList ++ ['\n'] := by
  refine ⟨?_, ?_, ?_, by decide, rfl⟩
  · unfold helpText usageStr
    have e : " | ".intercalate helpProjectiles = "p | d | Cu | Cu2 | Xe | Au | Au2 | Pb | U | U2 | U3" := by decide
    rw [e]
    congr 2
  · intro d hd hn
    simp only [allOpts, generalOpts, outputOpts, physOpts, gridOpts, mainOpts, List.cons_append, List.nil_append, List.mem_cons, List.not_mem_nil, or_false] at hd
    rcases hd with rfl | rfl | rfl | rfl | rfl | rfl | rfl | rfl | rfl | rfl | rfl | rfl | rfl | rfl | rfl | rfl | rfl | rfl | rfl | rfl | rfl | rfl | rfl <;>
      first | rfl | exact absurd hn (by simp)
  · intro s hs hdf5 disk dmin
    simp only [helpProjectiles, List.mem_cons, List.not_mem_nil, or_false] at hs
    rcases hs with rfl | rfl | rfl | rfl | rfl | rfl | rfl | rfl | rfl | rfl | rfl <;> exact ⟨_, rfl⟩

/-- **C58, rejected command lines.** An unknown option, an unreadable or repeated value: status 1, a message on standard error,
and nothing else happens. -/
theorem C58_rejected (hL : ParsersThrow L) (h : ∀ cmd, L.parseArgs args = .ok cmd → ¬ Acceptable L allOpts cmd) :
    ∃ err, err ≠ [] ∧ mainProg L env ce fu h5view ev0 args W r = (.status 1, W, err) := by
  have : ∃ e, configure L env ce W.fs args = .error e := by
    unfold configure
    cases hp : L.parseArgs args with
    | error e => exact ⟨e, rfl⟩
    | ok cmd =>
      cases hs : store L allOpts cmd VarMap.empty with
      | error e => exact ⟨e, by simp only [hs]⟩
      | ok vm => exact absurd ((store_iff L cmd).mp ⟨vm, hs⟩) (h cmd hp)
  obtain ⟨e, he⟩ := this
  obtain ⟨h1, h2⟩ := handle_reported e (configure_error L hL env ce W.fs args e he)
  refine ⟨(handle e).2, h2, ?_⟩
  unfold mainProg
  simp only [he, h1]

/-- **C58, projectiles.** If the command line does not ask for information and the first source that names projectiles (command
line, then config files in order) does not name exactly two, or no source names any, then the status is 1, there is a message on
standard error, and nothing else happens. -/
theorem C58_projectiles (hL : ParsersThrow L) (cmd : List ParsedOption) (hp : L.parseArgs args = .ok cmd)
    (h1 : givenIn "help" cmd = []) (h2 : givenIn "version" cmd = []) (h3 : givenIn "bibtex" cmd = [])
    (hwrong : ∀ paths files, List.Forall₂ (fun s p => L.toPath s = some p) (givenIn "config-file" cmd).flatten paths →
      ConfigFiles L env ce W.fs paths files →
      ∀ ms, firstMention "projectile" (cmd :: files) = some ms → ms.flatten.length ≠ 2) :
    ∃ err, err ≠ [] ∧ mainProg L env ce fu h5view ev0 args W r = (.status 1, W, err) := by
  have : ∃ e, configure L env ce W.fs args = .error e := by
    cases hc : configure L env ce W.fs args with
    | error e => exact ⟨e, rfl⟩
    | ok c =>
      exfalso
      cases c with
      | run vm =>
        obtain ⟨a, b, hab⟩ := (configure_typed L env ce W.fs args vm hc).projectile
        obtain ⟨cmd', paths, files, q1, q2, q3, q4, -, -⟩ := C56_precedence L env ce W.fs args vm hc
        rw [hp] at q1
        cases q1
        have ht := q4 ⟨"projectile", .strings, none⟩ (by simp [configOpts, mainOpts]) (by simp)
        unfold Takes at ht
        dsimp only at ht
        cases hm : firstMention "projectile" (cmd :: files) with
        | none =>
          rw [hm] at ht
          dsimp only [Option.map] at ht
          unfold VarMap.strs at hab
          rw [ht] at hab; cases hab
        | some ms =>
          rw [hm] at ht
          obtain ⟨v, hv, ht⟩ := ht
          unfold VarMap.strs at hab
          rw [ht] at hab
          have hv : v = .strs ms.flatten := hv
          rw [hv] at hab
          simp only [Except.ok.injEq] at hab
          exact hwrong paths files q2 q3 ms hm (by rw [hab]; rfl)
      | help | version | bibtex =>
        unfold configure at hc
        simp only [hp] at hc
        cases hs : store L allOpts cmd VarMap.empty with
        | error e => simp only [hs] at hc; cases hc
        | ok vm =>
          have c1 := count_iff L cmd vm hs _ help_mem rfl
          have c2 := count_iff L cmd vm hs _ version_mem rfl
          have c3 := count_iff L cmd vm hs _ bibtex_mem rfl
          dsimp only at c1 c2 c3
          have n1 : vm.count "help" = false := by rw [← Bool.not_eq_true, c1]; exact fun h => h h1
          have n2 : vm.count "version" = false := by rw [← Bool.not_eq_true, c2]; exact fun h => h h2
          have n3 : vm.count "bibtex" = false := by rw [← Bool.not_eq_true, c3]; exact fun h => h h3
          simp only [hs, n1, n2, n3, Bool.false_eq_true, if_false] at hc
          repeat' split at hc
          all_goals cases hc
  obtain ⟨e, he⟩ := this
  obtain ⟨g1, g2⟩ := handle_reported e (configure_error L hL env ce W.fs args e he)
  refine ⟨(handle e).2, g2, ?_⟩
  unfold mainProg
  simp only [he, g1]

/-- If the command line does not ask for information and the configuration is not accepted, the program reports the error. -/
theorem not_run_exit (hL : ParsersThrow L) (cmd : List ParsedOption) (hp : L.parseArgs args = .ok cmd)
    (h1 : givenIn "help" cmd = []) (h2 : givenIn "version" cmd = []) (h3 : givenIn "bibtex" cmd = [])
    (hno : ∀ vm, configure L env ce W.fs args ≠ .ok (.run vm)) :
    ∃ err, err ≠ [] ∧ mainProg L env ce fu h5view ev0 args W r = (.status 1, W, err) := by
  have : ∃ e, configure L env ce W.fs args = .error e := by
    cases hc : configure L env ce W.fs args with
    | error e => exact ⟨e, rfl⟩
    | ok c =>
      exfalso
      cases c with
      | run vm => exact hno vm hc
      | help | version | bibtex =>
        unfold configure at hc
        simp only [hp] at hc
        cases hs : store L allOpts cmd VarMap.empty with
        | error e => simp only [hs] at hc; cases hc
        | ok vm =>
          have c1 := count_iff L cmd vm hs _ help_mem rfl
          have c2 := count_iff L cmd vm hs _ version_mem rfl
          have c3 := count_iff L cmd vm hs _ bibtex_mem rfl
          dsimp only at c1 c2 c3
          have n1 : vm.count "help" = false := by rw [← Bool.not_eq_true, c1]; exact fun h => h h1
          have n2 : vm.count "version" = false := by rw [← Bool.not_eq_true, c2]; exact fun h => h h2
          have n3 : vm.count "bibtex" = false := by rw [← Bool.not_eq_true, c3]; exact fun h => h h3
          simp only [hs, n1, n2, n3, Bool.false_eq_true, if_false] at hc
          repeat' split at hc
          all_goals cases hc
  obtain ⟨e, he⟩ := this
  obtain ⟨g1, g2⟩ := handle_reported e (configure_error L hL env ce W.fs args e he)
  refine ⟨(handle e).2, g2, ?_⟩
  unfold mainProg
  simp only [he, g1]

/-- **C58, config files.** If the command line does not ask for information and one of the config files it names does not exist,
cannot be parsed, or mentions an option that is not allowed in a config file (such as `help` or another `config-file`), then the
status is 1, there is a message on standard error, and nothing else happens. -/
theorem C58_config_files (hL : ParsersThrow L) (cmd : List ParsedOption) (hp : L.parseArgs args = .ok cmd)
    (h1 : givenIn "help" cmd = []) (h2 : givenIn "version" cmd = []) (h3 : givenIn "bibtex" cmd = [])
    (path : String) (hpath : ∃ s ∈ (givenIn "config-file" cmd).flatten, L.toPath s = some path)
    (hbad : W.fs.exists (env.resolve path) = false ∨ (∃ e, L.parseConfig (configText ce W.fs (env.resolve path)) = .error e) ∨
      ∃ file, L.parseConfig (configText ce W.fs (env.resolve path)) = .ok file ∧ ∃ o ∈ file, o.1 ∉ configFileOptions) :
    ∃ err, err ≠ [] ∧ mainProg L env ce fu h5view ev0 args W r = (.status 1, W, err) := by
  refine not_run_exit L env ce fu h5view ev0 args W r hL cmd hp h1 h2 h3 fun vm hc => ?_
  obtain ⟨cmd', paths, files, q1, q2, q3, -, -, -⟩ := C56_precedence L env ce W.fs args vm hc
  rw [hp] at q1
  cases q1
  obtain ⟨s, hs, hsp⟩ := hpath
  have hmem : ∀ (ss ps : List String), List.Forall₂ (fun s p => L.toPath s = some p) ss ps → s ∈ ss → path ∈ ps := by
    intro ss ps hf
    induction hf with
    | nil => intro h; cases h
    | cons hab _ ih =>
      intro h
      rcases List.mem_cons.1 h with rfl | h
      · rw [hsp] at hab; cases hab; exact List.mem_cons_self
      · exact List.mem_cons_of_mem _ (ih h)
  have hm := hmem _ _ q2 hs
  unfold ConfigFiles at q3
  clear q2 hc hmem
  induction q3 with
  | nil => cases hm
  | cons hab _ ih =>
    rcases List.mem_cons.1 hm with rfl | hm
    · obtain ⟨k1, k2, k3⟩ := hab
      rcases hbad with hb | ⟨e, hb⟩ | ⟨file, hb, o, ho, hn⟩
      · rw [k1] at hb; cases hb
      · rw [k2] at hb; cases hb
      · rw [k2] at hb; cases hb; exact hn (k3 o ho)
    · exact ih hm

/-- **C58, widths.** Widths given on the command line that are negative, or a constituent wider than its nucleon, or a single
constituent narrower than its nucleon: status 1, a message on standard error, and nothing else happens. -/
theorem C58_widths (hL : ParsersThrow L) (cmd : List ParsedOption) (hp : L.parseArgs args = .ok cmd)
    (h1 : givenIn "help" cmd = []) (h2 : givenIn "version" cmd = []) (h3 : givenIn "bibtex" cmd = [])
    (sw sv sm : String) (w v : F) (m : Int)
    (gw : givenIn "nucleon-width" cmd = [[sw]]) (gv : givenIn "constit-width" cmd = [[sv]]) (gm : givenIn "constit-number" cmd = [[sm]])
    (tw : L.toDouble sw = some w) (tv : L.toDouble sv = some v) (tm : L.toInt sm = some m)
    (hbad : lt w (lit 0) = true ∨ lt v (lit 0) = true ∨ lt w v = true ∨ (m = 1 ∧ lt v w = true)) :
    ∃ err, err ≠ [] ∧ mainProg L env ce fu h5view ev0 args W r = (.status 1, W, err) := by
  refine not_run_exit L env ce fu h5view ev0 args W r hL cmd hp h1 h2 h3 fun vm hc => ?_
  obtain ⟨cmd', paths, files, q1, q2, q3, -, qd, qi, -, -, -⟩ := C56_values L env ce W.fs args vm hc
  obtain ⟨w', v', m', c1, c2, c3, k1, k2, k3, k4⟩ := C57_validation_any L env ce W.fs args vm hc
  rw [hp] at q1
  cases q1
  have fm : ∀ k s, givenIn k cmd = [[s]] → firstMention k (cmd :: files) = some [[s]] := by
    intro k s hk
    unfold firstMention
    simp [hk]
  obtain ⟨s1, x1, e1, e2, e3⟩ := qd "nucleon-width" (by simp) _ (fm _ _ gw)
  obtain ⟨s2, x2, f1, f2, f3⟩ := qd "constit-width" (by simp) _ (fm _ _ gv)
  obtain ⟨s3, x3, g1, g2, g3⟩ := qi "constit-number" (by simp) _ (fm _ _ gm)
  cases e1; cases f1; cases g1
  rw [tw] at e2; cases e2
  rw [tv] at f2; cases f2
  rw [tm] at g2; cases g2
  rw [e3] at c1; cases c1
  rw [f3] at c2; cases c2
  rw [g3] at c3; cases c3
  rcases hbad with h | h | h | ⟨rfl, h⟩
  · rw [k1] at h; cases h
  · rw [k2] at h; cases h
  · rw [k3] at h; cases h
  · rw [k4 rfl] at h; cases h

end
end
end Trento
