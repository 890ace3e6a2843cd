import Verif.Lemmas.Store
import Verif.Model.RealArith
import Verif.Props.OutputFiles

/-! # The program: option precedence (C56), parameter validation (C57), exit behaviour (C58) -/

namespace Trento
open Spec
set_option linter.unusedSectionVars false
variable {F : Type} [Arith F]

theorem allOpts_nodup : ((allOpts (F := F)).map (·.name)).Nodup := by
  show List.Nodup ["help", "version", "bibtex", "config-file", "quiet", "output", "no-header", "ncoll", "reduced-thickness",
    "fluctuation", "nucleon-width", "constit-width", "constit-number", "nucleon-min-dist", "cross-section", "normalization",
    "b-min", "b-max", "random-seed", "grid-max", "grid-step", "projectile", "number-events"]
  decide

theorem configOpts_nodup : ((configOpts (F := F)).map (·.name)).Nodup := by
  show List.Nodup ["projectile", "number-events", "quiet", "output", "no-header", "ncoll", "reduced-thickness",
    "fluctuation", "nucleon-width", "constit-width", "constit-number", "nucleon-min-dist", "cross-section", "normalization",
    "b-min", "b-max", "random-seed", "grid-max", "grid-step"]
  decide

theorem configOpts_sub (d : OptDesc F) (h : d ∈ configOpts (F := F)) : d ∈ allOpts (F := F) := by
  unfold configOpts at h
  unfold allOpts
  simp only [List.mem_append] at h ⊢
  tauto

/-- The options allowed in a config file (README, `--help`): all but `help`, `version`, `bibtex` and `config-file`. -/
def Spec.configFileOptions : List String :=
  ["projectile", "number-events", "quiet", "output", "no-header", "ncoll", "reduced-thickness", "fluctuation", "nucleon-width",
   "constit-width", "constit-number", "nucleon-min-dist", "cross-section", "normalization", "b-min", "b-max", "random-seed",
   "grid-max", "grid-step"]

/-- The config files in the order given, each existing, parsed, and mentioning only options allowed there. -/
def Spec.ConfigFiles (L : Lib F) (env : OsEnv) (ce : CacheEnv) (fs : FS F) (paths : List String) (files : List (List ParsedOption)) : Prop :=
  List.Forall₂ (fun path file => fs.exists (env.resolve path) = true ∧
    L.parseConfig (configText ce fs (env.resolve path)) = .ok file ∧ ∀ o ∈ file, o.1 ∈ configFileOptions) paths files

theorem readConfig_ok (L : Lib F) (desc : List (OptDesc F)) (text : List Char) (p : List ParsedOption) (h : readConfig L desc text = .ok p) :
    L.parseConfig text = .ok p ∧ ∀ o ∈ p, o.1 ∈ desc.map (·.name) := by
  unfold readConfig at h
  cases hp : L.parseConfig text with
  | error e => simp only [hp] at h; cases h
  | ok q =>
    simp only [hp] at h
    split at h
    · rename_i ha
      cases h
      refine ⟨rfl, fun o ho => ?_⟩
      obtain ⟨d, hd, hn⟩ := List.any_eq_true.1 (List.all_eq_true.1 ha o ho)
      exact List.mem_map.2 ⟨d, hd, by simpa using hn⟩
    · cases h

theorem mergeConfigs_spec (L : Lib F) (env : OsEnv) (ce : CacheEnv) (fs : FS F) (paths : List String) (vm vm' : VarMap F)
    (h : mergeConfigs L env ce fs paths vm = .ok vm') :
    ∃ files, ConfigFiles L env ce fs paths files ∧
      ∀ srcs, Stored L configOpts srcs vm → Stored L configOpts (srcs ++ files) vm' := by
  induction paths generalizing vm with
  | nil =>
    cases h
    exact ⟨[], .nil, fun srcs hs => by simpa using hs⟩
  | cons path rest ih =>
    rw [mergeConfigs] at h
    split at h
    · cases h
    · rename_i hex
      cases hp : readConfig L configOpts (configText ce fs (env.resolve path)) with
      | error e => simp only [hp] at h; cases h
      | ok parsed =>
        simp only [hp] at h
        obtain ⟨hp1, hp2⟩ := readConfig_ok _ _ _ _ hp
        cases hs : store L configOpts parsed vm with
        | error e => simp only [hs] at h; cases h
        | ok vm1 =>
          simp only [hs] at h
          obtain ⟨files, h1, h2⟩ := ih vm1 h
          refine ⟨parsed :: files, .cons ⟨by simpa using hex, hp1, hp2⟩ h1, fun srcs hst => ?_⟩
          have := h2 _ (store_stored L configOpts configOpts_nodup srcs parsed vm vm1 hs (.inr hst))
          simpa using this

theorem stored_cmd (L : Lib F) (cmd : List ParsedOption) (vm : VarMap F) (h : store L allOpts cmd VarMap.empty = .ok vm) :
    Stored L allOpts [cmd] vm :=
  store_stored L allOpts allOpts_nodup [] cmd VarMap.empty vm h (.inl ⟨rfl, rfl⟩)

theorem firstMention_single (k : String) (cmd : List ParsedOption) :
    firstMention k [cmd] = if givenIn k cmd = [] then none else some (givenIn k cmd) :=
  firstMention_concat k [] cmd

/-- Options without a default value count as present exactly if mentioned. -/
theorem count_iff (L : Lib F) (cmd : List ParsedOption) (vm : VarMap F) (h : store L allOpts cmd VarMap.empty = .ok vm)
    (d : OptDesc F) (hd : d ∈ allOpts (F := F)) (hdef : d.default = none) : vm.count d.name = true ↔ givenIn d.name cmd ≠ [] := by
  obtain ⟨h1, -⟩ := stored_cmd L cmd vm h d hd
  unfold Takes at h1
  rw [firstMention_single] at h1
  unfold VarMap.count
  by_cases hg : givenIn d.name cmd = []
  · simp only [hg, if_true, hdef] at h1
    simp [h1, hg]
  · simp only [hg, if_false] at h1
    obtain ⟨v, -, h1⟩ := h1
    simp [h1, hg]

theorem help_mem : (⟨"help", .none, none⟩ : OptDesc F) ∈ allOpts (F := F) := by simp [allOpts, generalOpts]
theorem version_mem : (⟨"version", .none, none⟩ : OptDesc F) ∈ allOpts (F := F) := by simp [allOpts, generalOpts]
theorem bibtex_mem : (⟨"bibtex", .none, none⟩ : OptDesc F) ∈ allOpts (F := F) := by simp [allOpts, generalOpts]
theorem configFile_mem : (⟨"config-file", .paths, none⟩ : OptDesc F) ∈ allOpts (F := F) := by simp [allOpts, generalOpts]

/-- What `main` has done when it is about to construct the collider. -/
theorem configure_run (L : Lib F) (env : OsEnv) (ce : CacheEnv) (fs : FS F) (args : List String) (vm : VarMap F)
    (h : configure L env ce fs args = .ok (.run vm)) :
    ∃ (cmd : List ParsedOption) (paths : List String) (files : List (List ParsedOption)) (vm1 : VarMap F), L.parseArgs args = .ok cmd ∧
      givenIn "help" cmd = [] ∧ givenIn "version" cmd = [] ∧ givenIn "bibtex" cmd = [] ∧
      List.Forall₂ (fun s p => L.toPath s = some p) (givenIn "config-file" cmd).flatten paths ∧
      ConfigFiles L env ce fs paths files ∧ Stored L configOpts (cmd :: files) vm1 ∧ finalize vm1 = .ok vm := by
  unfold configure at h
  cases hp : L.parseArgs args with
  | error e => simp only [hp] at h; cases h
  | ok cmd =>
    simp only [hp] at h
    cases hs : store L allOpts cmd VarMap.empty with
    | error e => simp only [hs] at h; cases h
    | ok vm0 =>
      simp only [hs] at h
      have c1 := count_iff L cmd vm0 hs _ help_mem rfl
      have c2 := count_iff L cmd vm0 hs _ version_mem rfl
      have c3 := count_iff L cmd vm0 hs _ bibtex_mem rfl
      have c4 := count_iff L cmd vm0 hs _ configFile_mem rfl
      dsimp only at c1 c2 c3 c4
      by_cases e1 : vm0.count "help" = true
      · rw [if_pos e1] at h; cases h
      · rw [if_neg e1] at h
        by_cases e2 : vm0.count "version" = true
        · rw [if_pos e2] at h; cases h
        · rw [if_neg e2] at h
          by_cases e3 : vm0.count "bibtex" = true
          · rw [if_pos e3] at h; cases h
          · rw [if_neg e3] at h
            rw [c1, not_not] at e1
            rw [c2, not_not] at e2
            rw [c3, not_not] at e3
            cases hm : withConfigFiles L env ce fs vm0 with
            | error e => simp only [hm] at h; cases h
            | ok vm1 =>
              simp only [hm] at h
              cases hf : finalize vm1 with
              | error e => simp only [hf] at h; cases h
              | ok vm2 =>
                simp only [hf, Except.ok.injEq, Command.run.injEq] at h
                subst h
                have hst : Stored L configOpts [cmd] vm0 := fun d hd => stored_cmd L cmd vm0 hs d (configOpts_sub d hd)
                unfold withConfigFiles at hm
                by_cases e4 : vm0.count "config-file" = true
                · rw [if_pos e4] at hm
                  rw [c4] at e4
                  obtain ⟨t1, -⟩ := stored_cmd L cmd vm0 hs _ configFile_mem
                  unfold Takes at t1
                  rw [firstMention_single] at t1
                  simp only [e4, if_false] at t1
                  obtain ⟨v, ⟨paths, t2, rfl⟩, t3⟩ := t1
                  have : vm0.strs "config-file" = .ok paths := by unfold VarMap.strs; rw [t3]
                  simp only [this] at hm
                  obtain ⟨files, f1, f2⟩ := mergeConfigs_spec L env ce fs paths vm0 vm1 hm
                  exact ⟨cmd, paths, files, vm1, rfl, e1, e2, e3, t2, f1, f2 [cmd] hst, hf⟩
                · rw [if_neg e4] at hm
                  cases hm
                  rw [c4, not_not] at e4
                  exact ⟨cmd, [], [], vm0, rfl, e1, e2, e3, by rw [e4]; exact .nil, .nil, hst, hf⟩

theorem finalize_ok (vm1 vm : VarMap F) (h : finalize vm1 = .ok vm) :
    ∃ w v m, defaultConstitWidth vm1 = .ok vm ∧ vm.dbl "nucleon-width" = .ok w ∧ vm.dbl "constit-width" = .ok v ∧
      vm.int "constit-number" = .ok m ∧ checkWidths w v m = .ok () ∧ notify vm = .ok () := by
  unfold finalize at h
  simp only [bind, Except.bind, pure, Except.pure] at h
  cases h1 : defaultConstitWidth vm1 with
  | error e => simp only [h1] at h; cases h
  | ok vm2 =>
    simp only [h1] at h
    cases h2 : vm2.dbl "nucleon-width" with
    | error e => simp only [h2] at h; cases h
    | ok w =>
      simp only [h2] at h
      cases h3 : vm2.dbl "constit-width" with
      | error e => simp only [h3] at h; cases h
      | ok v =>
        simp only [h3] at h
        cases h4 : vm2.int "constit-number" with
        | error e => simp only [h4] at h; cases h
        | ok m =>
          simp only [h4] at h
          cases h5 : checkWidths w v m with
          | error e => simp only [h5] at h; cases h
          | ok u =>
            simp only [h5] at h
            cases h6 : notify vm2 with
            | error e => simp only [h6] at h; cases h
            | ok u' =>
              simp only [h6, Except.ok.injEq] at h
              subst h
              exact ⟨w, v, m, rfl, h2, h3, h4, h5, h6⟩

theorem constitWidth_mem : (⟨"constit-width", .double, some (.dbl (lit 0.5))⟩ : OptDesc F) ∈ configOpts (F := F) := by
  simp [configOpts, physOpts]
theorem nucleonWidth_mem : (⟨"nucleon-width", .double, some (.dbl (lit 0.5))⟩ : OptDesc F) ∈ configOpts (F := F) := by
  simp [configOpts, physOpts]

/-- **C56.** If the program gets as far as constructing the collider, then every option except the constituent width has the
value given in the first source that mentions it, where the sources are the command line followed by the config files in the
order in which the command line names them; an option mentioned nowhere has its default value.  The constituent width does the
same, except that its default is the (final) nucleon width. -/
theorem C56_precedence (L : Lib F) (env : OsEnv) (ce : CacheEnv) (fs : FS F) (args : List String) (vm : VarMap F)
    (h : configure L env ce fs args = .ok (.run vm)) :
    ∃ (cmd : List ParsedOption) (paths : List String) (files : List (List ParsedOption)), L.parseArgs args = .ok cmd ∧
      List.Forall₂ (fun s p => L.toPath s = some p) (givenIn "config-file" cmd).flatten paths ∧
      ConfigFiles L env ce fs paths files ∧
      (∀ d ∈ configOpts, d.name ≠ "constit-width" → Takes L d (cmd :: files) (vm.vals d.name)) ∧
      (∀ ms, firstMention "constit-width" (cmd :: files) = some ms →
        ∃ v, Means L .double ms v ∧ vm.vals "constit-width" = some ⟨v, false⟩) ∧
      (firstMention "constit-width" (cmd :: files) = none →
        ∃ w, vm.dbl "nucleon-width" = .ok w ∧ vm.dbl "constit-width" = .ok w) := by
  obtain ⟨cmd, paths, files, vm1, h1, -, -, -, h2, h3, h4, h5⟩ := configure_run L env ce fs args vm h
  obtain ⟨w, v, m, f1, f2, f3, -, -, -⟩ := finalize_ok vm1 vm h5
  refine ⟨cmd, paths, files, h1, h2, h3, ?_, ?_, ?_⟩
  · intro d hd hne
    have : vm.vals d.name = vm1.vals d.name := by
      unfold defaultConstitWidth at f1
      split at f1
      · split at f1
        · split at f1
          · cases f1
          · cases f1; exact if_neg hne
        · cases f1; rfl
      · cases f1; rfl
    rw [this]
    exact (h4 d hd).1
  · intro ms hms
    have t := (h4 _ constitWidth_mem).1
    unfold Takes at t
    rw [hms] at t
    obtain ⟨v', t1, t2⟩ := t
    refine ⟨v', t1, ?_⟩
    unfold defaultConstitWidth at f1
    dsimp only at t2
    simp only [t2, Bool.false_eq_true, if_false, Except.ok.injEq] at f1
    rw [← f1]; exact t2
  · intro hn
    have t := (h4 _ constitWidth_mem).1
    unfold Takes at t
    rw [hn] at t
    dsimp only [Option.map] at t
    unfold defaultConstitWidth at f1
    simp only [t, if_true] at f1
    cases hw : vm1.dbl "nucleon-width" with
    | error e => simp only [hw] at f1; cases f1
    | ok w' =>
      simp only [hw, Except.ok.injEq] at f1
      refine ⟨w', ?_, ?_⟩
      · rw [← f1]; exact hw
      · rw [← f1]; rfl

/-- **C56, values.** What the text given for an option means, spelled out: a switch without a text is on; numbers and paths are
read by the standard conversion; list options collect the texts in order.  An option that is not a list is mentioned at most once
per source. -/
theorem C56_values (L : Lib F) (env : OsEnv) (ce : CacheEnv) (fs : FS F) (args : List String) (vm : VarMap F)
    (h : configure L env ce fs args = .ok (.run vm)) :
    ∃ (cmd : List ParsedOption) (paths : List String) (files : List (List ParsedOption)), L.parseArgs args = .ok cmd ∧
      List.Forall₂ (fun s p => L.toPath s = some p) (givenIn "config-file" cmd).flatten paths ∧
      ConfigFiles L env ce fs paths files ∧
      (∀ k ∈ ["quiet", "no-header", "ncoll"], ∀ ms, firstMention k (cmd :: files) = some ms →
        (ms = [[]] ∧ vm.bool k = .ok true) ∨
        (∃ s, ms = [[s]] ∧ s.toLower ∈ ["", "on", "yes", "1", "true"] ∧ vm.bool k = .ok true) ∨
        (∃ s, ms = [[s]] ∧ s.toLower ∈ ["off", "no", "0", "false"] ∧ vm.bool k = .ok false)) ∧
      (∀ k ∈ ["reduced-thickness", "fluctuation", "nucleon-width", "constit-width", "nucleon-min-dist", "cross-section",
          "normalization", "b-min", "b-max", "grid-max", "grid-step"], ∀ ms, firstMention k (cmd :: files) = some ms →
        ∃ s x, ms = [[s]] ∧ L.toDouble s = some x ∧ vm.dbl k = .ok x) ∧
      (∀ k ∈ ["number-events", "constit-number"], ∀ ms, firstMention k (cmd :: files) = some ms →
        ∃ s i, ms = [[s]] ∧ L.toInt s = some i ∧ vm.int k = .ok i) ∧
      (∀ ms, firstMention "random-seed" (cmd :: files) = some ms →
        ∃ s i, ms = [[s]] ∧ L.toInt64 s = some i ∧ vm.int "random-seed" = .ok i) ∧
      (∀ ms, firstMention "output" (cmd :: files) = some ms →
        ∃ s p, ms = [[s]] ∧ L.toPath s = some p ∧ vm.str "output" = .ok p) ∧
      (∀ ms, firstMention "projectile" (cmd :: files) = some ms → vm.strs "projectile" = .ok ms.flatten) := by
  obtain ⟨cmd, paths, files, h1, h2, h3, h4, h5, -⟩ := C56_precedence L env ce fs args vm h
  have key : ∀ d ∈ configOpts (F := F), ∀ ms, firstMention d.name (cmd :: files) = some ms →
      ∃ v, Means L d.type ms v ∧ vm.vals d.name = some ⟨v, false⟩ := by
    intro d hd ms hm
    by_cases hne : d.name = "constit-width"
    · have : d = ⟨"constit-width", .double, some (.dbl (lit 0.5))⟩ := by
        have a := find?_name configOpts configOpts_nodup d hd
        have b := find?_name (F := F) configOpts configOpts_nodup _ constitWidth_mem
        rw [hne] at a
        exact Option.some.inj (a.symm.trans b)
      subst this
      exact h5 ms hm
    · have := h4 d hd hne
      unfold Takes at this
      rw [hm] at this
      exact this
  have tok : ∀ {α : Type} (f : String → Option α) (g : α → OptVal F) (toks : List String) (v : OptVal F),
      (do return g (← orInvalid (f (← singleToken toks))) : Res (OptVal F)) = .ok v → ∃ s x, toks = [s] ∧ f s = some x ∧ v = g x := by
    intro α f g toks v hv
    match toks, hv with
    | [], hv => cases hv
    | [s], hv =>
      cases hf : f s with
      | none => simp only [singleToken, bind, Except.bind, hf, orInvalid] at hv; cases hv
      | some x => simp only [singleToken, bind, Except.bind, hf, orInvalid, pure, Except.pure, Except.ok.injEq] at hv; exact ⟨s, x, rfl, hf, hv.symm⟩
    | _ :: _ :: _, hv => cases hv
  refine ⟨cmd, paths, files, h1, h2, h3, ?_, ?_, ?_, ?_, ?_, ?_⟩
  · have sw : ∀ k, (⟨k, .switch, some (.bool false)⟩ : OptDesc F) ∈ configOpts (F := F) → ∀ ms, firstMention k (cmd :: files) = some ms →
        (ms = [[]] ∧ vm.bool k = .ok true) ∨
        (∃ s, ms = [[s]] ∧ s.toLower ∈ ["", "on", "yes", "1", "true"] ∧ vm.bool k = .ok true) ∨
        (∃ s, ms = [[s]] ∧ s.toLower ∈ ["off", "no", "0", "false"] ∧ vm.bool k = .ok false) := by
      intro k hk ms hm
      obtain ⟨v, ⟨toks, rfl, hs⟩, hv⟩ := key _ hk ms hm
      have hs : (do return OptVal.bool (← boolToken toks) : Res (OptVal F)) = .ok v := hs
      dsimp only at hv
      match toks, hs with
      | [], hs =>
        cases hs
        exact .inl ⟨rfl, by unfold VarMap.bool; rw [hv]⟩
      | [s], hs =>
        unfold boolToken at hs
        dsimp only at hs
        by_cases c1 : s.toLower = "" ∨ s.toLower = "on" ∨ s.toLower = "yes" ∨ s.toLower = "1" ∨ s.toLower = "true"
        · rw [if_pos c1] at hs
          cases hs
          exact .inr (.inl ⟨s, rfl, by simpa using c1, by unfold VarMap.bool; rw [hv]⟩)
        · rw [if_neg c1] at hs
          by_cases c2 : s.toLower = "off" ∨ s.toLower = "no" ∨ s.toLower = "0" ∨ s.toLower = "false"
          · rw [if_pos c2] at hs
            cases hs
            exact .inr (.inr ⟨s, rfl, by simpa using c2, by unfold VarMap.bool; rw [hv]⟩)
          · rw [if_neg c2] at hs; cases hs
      | _ :: _ :: _, hs => cases hs
    intro k hk
    simp only [List.mem_cons, List.not_mem_nil, or_false] at hk
    rcases hk with rfl | rfl | rfl <;> exact sw _ (by simp [configOpts, outputOpts])
  · have db : ∀ k q, (⟨k, .double, q⟩ : OptDesc F) ∈ configOpts (F := F) → ∀ ms, firstMention k (cmd :: files) = some ms →
        ∃ s x, ms = [[s]] ∧ L.toDouble s = some x ∧ vm.dbl k = .ok x := by
      intro k q hk ms hm
      obtain ⟨v, ⟨toks, rfl, hs⟩, hv⟩ := key _ hk ms hm
      obtain ⟨s, x, rfl, hx, rfl⟩ := tok L.toDouble .dbl toks v hs
      exact ⟨s, x, rfl, hx, by unfold VarMap.dbl; dsimp only at hv; rw [hv]⟩
    intro k hk
    simp only [List.mem_cons, List.not_mem_nil, or_false] at hk
    rcases hk with rfl | rfl | rfl | rfl | rfl | rfl | rfl | rfl | rfl | rfl | rfl
    · exact db _ (some (.dbl (lit 0))) (by simp [configOpts, physOpts])
    · exact db _ (some (.dbl (lit 1))) (by simp [configOpts, physOpts])
    · exact db _ (some (.dbl (lit 0.5))) (by simp [configOpts, physOpts])
    · exact db _ (some (.dbl (lit 0.5))) (by simp [configOpts, physOpts])
    · exact db _ (some (.dbl (lit 0))) (by simp [configOpts, physOpts])
    · exact db _ (some (.dbl (lit 6.4))) (by simp [configOpts, physOpts])
    · exact db _ (some (.dbl (lit 1))) (by simp [configOpts, physOpts])
    · exact db _ (some (.dbl (lit 0))) (by simp [configOpts, physOpts])
    · exact db _ (some (.dbl (lit (-1)))) (by simp [configOpts, physOpts])
    · exact db _ (some (.dbl (lit 10))) (by simp [configOpts, gridOpts])
    · exact db _ (some (.dbl (lit 0.2))) (by simp [configOpts, gridOpts])
  · have it : ∀ k q, (⟨k, .int, q⟩ : OptDesc F) ∈ configOpts (F := F) → ∀ ms, firstMention k (cmd :: files) = some ms →
        ∃ s x, ms = [[s]] ∧ L.toInt s = some x ∧ vm.int k = .ok x := by
      intro k q hk ms hm
      obtain ⟨v, ⟨toks, rfl, hs⟩, hv⟩ := key _ hk ms hm
      obtain ⟨s, x, rfl, hx, rfl⟩ := tok L.toInt .int toks v hs
      exact ⟨s, x, rfl, hx, by unfold VarMap.int; dsimp only at hv; rw [hv]⟩
    intro k hk
    simp only [List.mem_cons, List.not_mem_nil, or_false] at hk
    rcases hk with rfl | rfl
    · exact it _ (some (.int 1)) (by simp [configOpts, mainOpts])
    · exact it _ (some (.int 1)) (by simp [configOpts, physOpts])
  · intro ms hm
    obtain ⟨v, ⟨toks, rfl, hs⟩, hv⟩ := key ⟨"random-seed", .int64, some (.int (-1))⟩ (by simp [configOpts, physOpts]) ms hm
    obtain ⟨s, x, rfl, hx, rfl⟩ := tok L.toInt64 .int toks v hs
    exact ⟨s, x, rfl, hx, by unfold VarMap.int; dsimp only at hv; rw [hv]⟩
  · intro ms hm
    obtain ⟨v, ⟨toks, rfl, hs⟩, hv⟩ := key ⟨"output", .path, none⟩ (by simp [configOpts, outputOpts]) ms hm
    obtain ⟨s, x, rfl, hx, rfl⟩ := tok L.toPath .str toks v hs
    exact ⟨s, x, rfl, hx, by unfold VarMap.str; dsimp only at hv; rw [hv]⟩
  · intro ms hm
    obtain ⟨v, rfl, hv⟩ := key ⟨"projectile", .strings, none⟩ (by simp [configOpts, mainOpts]) ms hm
    unfold VarMap.strs; dsimp only at hv; rw [hv]

/-- The documented default values (README / `--help`): an option mentioned neither on the command line nor in a config file. -/
theorem C56_defaults (L : Lib F) (env : OsEnv) (ce : CacheEnv) (fs : FS F) (args : List String) (vm : VarMap F)
    (h : configure L env ce fs args = .ok (.run vm)) :
    ∃ (cmd : List ParsedOption) (paths : List String) (files : List (List ParsedOption)), L.parseArgs args = .ok cmd ∧
      List.Forall₂ (fun s p => L.toPath s = some p) (givenIn "config-file" cmd).flatten paths ∧
      ConfigFiles L env ce fs paths files ∧
      (∀ kv ∈ [("reduced-thickness", (0 : Rat)), ("fluctuation", 1), ("nucleon-width", 0.5), ("nucleon-min-dist", 0),
          ("cross-section", 6.4), ("normalization", 1), ("b-min", 0), ("b-max", -1), ("grid-max", 10), ("grid-step", 0.2)],
        firstMention kv.1 (cmd :: files) = none → vm.dbl kv.1 = .ok (lit kv.2)) ∧
      (∀ kv ∈ [("number-events", (1 : Int)), ("constit-number", 1), ("random-seed", -1)],
        firstMention kv.1 (cmd :: files) = none → vm.int kv.1 = .ok kv.2) ∧
      (∀ k ∈ ["quiet", "no-header", "ncoll"], firstMention k (cmd :: files) = none → vm.bool k = .ok false) ∧
      (firstMention "output" (cmd :: files) = none → vm.count "output" = false) := by
  obtain ⟨cmd, paths, files, h1, h2, h3, h4, -, -⟩ := C56_precedence L env ce fs args vm h
  have key : ∀ d ∈ configOpts (F := F), d.name ≠ "constit-width" → firstMention d.name (cmd :: files) = none →
      vm.vals d.name = d.default.map (⟨·, true⟩) := by
    intro d hd hne hn
    have := h4 d hd hne
    unfold Takes at this
    rw [hn] at this
    exact this
  have dbl : ∀ (k : String) (q : Rat), (⟨k, .double, some (.dbl (lit q))⟩ : OptDesc F) ∈ configOpts (F := F) → k ≠ "constit-width" →
      firstMention k (cmd :: files) = none → vm.dbl k = .ok (lit q) := by
    intro k q hm hne hn
    have := key _ hm hne hn
    unfold VarMap.dbl
    dsimp only at this
    rw [this]; rfl
  have int : ∀ (k : String) (ty : OptType) (q : Int), (⟨k, ty, some (.int q)⟩ : OptDesc F) ∈ configOpts (F := F) → k ≠ "constit-width" →
      firstMention k (cmd :: files) = none → vm.int k = .ok q := by
    intro k ty q hm hne hn
    have := key _ hm hne hn
    unfold VarMap.int
    dsimp only at this
    rw [this]; rfl
  have bool : ∀ (k : String) (ty : OptType), (⟨k, ty, some (.bool false)⟩ : OptDesc F) ∈ configOpts (F := F) → k ≠ "constit-width" →
      firstMention k (cmd :: files) = none → vm.bool k = .ok false := by
    intro k ty hm hne hn
    have := key _ hm hne hn
    unfold VarMap.bool
    dsimp only at this
    rw [this]; rfl
  refine ⟨cmd, paths, files, h1, h2, h3, ?_, ?_, ?_, ?_⟩
  · intro kv hkv
    simp only [List.mem_cons, List.not_mem_nil, or_false] at hkv
    rcases hkv with rfl | rfl | rfl | rfl | rfl | rfl | rfl | rfl | rfl | rfl <;>
      exact dbl _ _ (by simp [configOpts, physOpts, gridOpts, mainOpts, outputOpts]) (by decide)
  · intro kv hkv
    simp only [List.mem_cons, List.not_mem_nil, or_false] at hkv
    rcases hkv with rfl | rfl | rfl
    · exact int _ .int _ (by simp [configOpts, mainOpts]) (by decide)
    · exact int _ .int _ (by simp [configOpts, physOpts]) (by decide)
    · exact int _ .int64 _ (by simp [configOpts, physOpts]) (by decide)
  · intro k hk
    simp only [List.mem_cons, List.not_mem_nil, or_false] at hk
    rcases hk with rfl | rfl | rfl <;> exact bool _ .switch (by simp [configOpts, outputOpts]) (by decide)
  · intro hn
    have := key ⟨"output", .path, none⟩ (by simp [configOpts, outputOpts]) (by simp) hn
    unfold VarMap.count
    dsimp only at this
    rw [this]; rfl

/-! ## C57 -/

/-- The program constructs the collider only with widths that are not negative, a constituent width not above the nucleon width,
and, for one constituent, not below it.  Any arithmetic: each comparison the check needs is false. -/
theorem C57_validation_any (L : Lib F) (env : OsEnv) (ce : CacheEnv) (fs : FS F) (args : List String) (vm : VarMap F)
    (h : configure L env ce fs args = .ok (.run vm)) :
    ∃ w v m, vm.dbl "nucleon-width" = .ok w ∧ vm.dbl "constit-width" = .ok v ∧ vm.int "constit-number" = .ok m ∧
      lt w (lit 0) = false ∧ lt v (lit 0) = false ∧ lt w v = false ∧ (m = 1 → lt v w = false) := by
  obtain ⟨cmd, paths, files, vm1, -, -, -, -, -, -, -, h5⟩ := configure_run L env ce fs args vm h
  obtain ⟨w, v, m, -, f2, f3, f4, f5, -⟩ := finalize_ok vm1 vm h5
  refine ⟨w, v, m, f2, f3, f4, ?_⟩
  unfold checkWidths at f5
  split at f5
  · cases f5
  · rename_i h1
    split at f5
    · cases f5
    · rename_i h2
      split at f5
      · cases f5
      · rename_i h3
        simp only [Bool.or_eq_true, not_or, Bool.not_eq_true] at h1
        simp only [Bool.not_eq_true] at h2
        refine ⟨h1.1, h1.2, h2, fun hm => ?_⟩
        simp only [Bool.and_eq_true, decide_eq_true_eq, not_and, hm, not_true, imp_false] at h3
        simpa using h3

/-- **C57.** Exact reals: the program runs events only with `0 ≤ v ≤ w`, and with `v = w` if there is one constituent; and (see
`C56_precedence`) the constituent width equals the nucleon width if it is not given. -/
theorem C57_validation (L : Lib ℝ) (env : OsEnv) (ce : CacheEnv) (fs : FS ℝ) (args : List String) (vm : VarMap ℝ)
    (h : configure L env ce fs args = .ok (.run vm)) :
    ∃ w v m, vm.dbl "nucleon-width" = .ok w ∧ vm.dbl "constit-width" = .ok v ∧ vm.int "constit-number" = .ok m ∧
      0 ≤ v ∧ v ≤ w ∧ (m = 1 → v = w) := by
  obtain ⟨w, v, m, f2, f3, f4, h1, h2, h3, h4⟩ := C57_validation_any L env ce fs args vm h
  simp only [lt_real, lit_real, decide_eq_false_iff_not, not_lt] at h1 h2 h3 h4
  push_cast at h1 h2
  exact ⟨w, v, m, f2, f3, f4, h2, h3, fun hm => le_antisymm h3 (h4 hm)⟩

/-- What exactly is accepted: the check passes if and only if the conditions of C57 hold. -/
theorem C57_check_iff (w v : ℝ) (m : Int) : checkWidths w v m = .ok () ↔ 0 ≤ v ∧ v ≤ w ∧ (m = 1 → v = w) := by
  unfold checkWidths
  simp only [lt_real, lit_real, Rat.cast_zero]
  constructor
  · intro h
    split at h
    · cases h
    · rename_i h1
      split at h
      · cases h
      · rename_i h2
        split at h
        · cases h
        · rename_i h3
          simp only [Bool.or_eq_true, decide_eq_true_eq, not_or, not_lt] at h1
          simp only [decide_eq_true_eq, not_lt] at h2
          simp only [Bool.and_eq_true, decide_eq_true_eq, not_and] at h3
          refine ⟨h1.2, h2, fun hm => le_antisymm h2 (le_of_not_gt fun hlt => h3 hlt hm)⟩
  · rintro ⟨h1, h2, h3⟩
    rw [if_neg, if_neg, if_neg]
    · simp only [Bool.and_eq_true, decide_eq_true_eq, not_and]
      intro hlt hm
      rw [h3 hm] at hlt
      exact lt_irrefl _ hlt
    · simpa using h2
    · simp only [Bool.or_eq_true, decide_eq_true_eq, not_or, not_lt]
      exact ⟨h1.trans h2, h1⟩

/-! ## Every option has a value of its type -/

theorem scalarVal_dbl (L : Lib F) (toks : List String) (v : OptVal F) (h : scalarVal L .double toks = .ok v) : ∃ x, v = .dbl x := by
  unfold scalarVal at h
  simp only [bind, Except.bind, pure, Except.pure] at h
  split at h
  · cases h
  · split at h
    · cases h
    · cases h; exact ⟨_, rfl⟩

theorem scalarVal_int (L : Lib F) (ty : OptType) (hty : ty = .int ∨ ty = .int64) (toks : List String) (v : OptVal F)
    (h : scalarVal L ty toks = .ok v) : ∃ x, v = .int x := by
  rcases hty with rfl | rfl <;> unfold scalarVal at h <;> simp only [bind, Except.bind, pure, Except.pure] at h
  all_goals
    split at h
    · cases h
    · split at h
      · cases h
      · cases h; exact ⟨_, rfl⟩

theorem scalarVal_path (L : Lib F) (toks : List String) (v : OptVal F) (h : scalarVal L .path toks = .ok v) : ∃ x, v = .str x := by
  unfold scalarVal at h
  simp only [bind, Except.bind, pure, Except.pure] at h
  split at h
  · cases h
  · split at h
    · cases h
    · cases h; exact ⟨_, rfl⟩

theorem scalarVal_bool (L : Lib F) (toks : List String) (v : OptVal F) (h : scalarVal L .switch toks = .ok v) : ∃ x, v = .bool x := by
  unfold scalarVal at h
  simp only [bind, Except.bind, pure, Except.pure] at h
  split at h
  · cases h
  · cases h; exact ⟨_, rfl⟩

/-- The final configuration: every value has the type it is read with. -/
structure Spec.Typed (vm : VarMap F) : Prop where
  dbl : ∀ k ∈ ["reduced-thickness", "fluctuation", "nucleon-width", "constit-width", "nucleon-min-dist", "cross-section",
    "normalization", "b-min", "b-max", "grid-max", "grid-step"], ∃ x, vm.dbl k = .ok x
  int : ∀ k ∈ ["number-events", "constit-number", "random-seed"], ∃ x, vm.int k = .ok x
  bool : ∀ k ∈ ["quiet", "no-header", "ncoll"], ∃ x, vm.bool k = .ok x
  output : vm.count "output" = true → ∃ s, vm.str "output" = .ok s
  projectile : ∃ a b, vm.strs "projectile" = .ok [a, b]

theorem configure_typed (L : Lib F) (env : OsEnv) (ce : CacheEnv) (fs : FS F) (args : List String) (vm : VarMap F)
    (h : configure L env ce fs args = .ok (.run vm)) : Typed vm := by
  obtain ⟨cmd, paths, files, vm1, -, -, -, -, -, -, -, h5⟩ := configure_run L env ce fs args vm h
  obtain ⟨w, v, m, f1, f2, f3, f4, f5, f6⟩ := finalize_ok vm1 vm h5
  obtain ⟨cmd, paths, files, h1, h2, h3, h4, -, -⟩ := C56_precedence L env ce fs args vm h
  have key : ∀ (d : OptDesc F), d ∈ configOpts (F := F) → d.name ≠ "constit-width" →
      vm.vals d.name = d.default.map (⟨·, true⟩) ∨ ∃ ms v, Means L d.type ms v ∧ vm.vals d.name = some ⟨v, false⟩ := by
    intro d hd hne
    have := h4 d hd hne
    unfold Takes at this
    cases hm : firstMention d.name (cmd :: files) with
    | none => rw [hm] at this; exact .inl this
    | some ms => rw [hm] at this; obtain ⟨v, t1, t2⟩ := this; exact .inr ⟨ms, v, t1, t2⟩
  have dbl : ∀ (k : String) (q : Rat), (⟨k, .double, some (.dbl (lit q))⟩ : OptDesc F) ∈ configOpts (F := F) → k ≠ "constit-width" →
      ∃ x, vm.dbl k = .ok x := by
    intro k q hm hne
    unfold VarMap.dbl
    rcases key _ hm hne with hk | ⟨ms, v, ⟨toks, -, hs⟩, hk⟩
    · dsimp only [Option.map] at hk; rw [hk]; exact ⟨_, rfl⟩
    · obtain ⟨x, rfl⟩ := scalarVal_dbl L _ _ hs
      dsimp only at hk; rw [hk]; exact ⟨_, rfl⟩
  have int : ∀ (k : String) (ty : OptType) (q : Int), ty = .int ∨ ty = .int64 → (⟨k, ty, some (.int q)⟩ : OptDesc F) ∈ configOpts (F := F) →
      k ≠ "constit-width" → ∃ x, vm.int k = .ok x := by
    intro k ty q hty hm hne
    unfold VarMap.int
    rcases key _ hm hne with hk | ⟨ms, v, hms, hk⟩
    · dsimp only [Option.map] at hk; rw [hk]; exact ⟨_, rfl⟩
    · have hs : ∃ toks, ms = [toks] ∧ scalarVal L ty toks = .ok v := by
        rcases hty with rfl | rfl <;> exact hms
      obtain ⟨toks, -, hs⟩ := hs
      obtain ⟨x, rfl⟩ := scalarVal_int L ty hty _ _ hs
      dsimp only at hk; rw [hk]; exact ⟨_, rfl⟩
  have bool : ∀ (k : String), (⟨k, .switch, some (.bool false)⟩ : OptDesc F) ∈ configOpts (F := F) → k ≠ "constit-width" →
      ∃ x, vm.bool k = .ok x := by
    intro k hm hne
    unfold VarMap.bool
    rcases key _ hm hne with hk | ⟨ms, v, ⟨toks, -, hs⟩, hk⟩
    · dsimp only [Option.map] at hk; rw [hk]; exact ⟨_, rfl⟩
    · obtain ⟨x, rfl⟩ := scalarVal_bool L _ _ hs
      dsimp only at hk; rw [hk]; exact ⟨_, rfl⟩
  refine ⟨?_, ?_, ?_, ?_, ?_⟩
  · intro k hk
    by_cases hc : k = "constit-width"
    · subst hc; exact ⟨v, f3⟩
    simp only [List.mem_cons, List.not_mem_nil, or_false] at hk
    rcases hk with rfl | rfl | rfl | rfl | rfl | rfl | rfl | rfl | rfl | rfl | rfl
    · exact dbl _ 0 (by simp [configOpts, physOpts]) hc
    · exact dbl _ 1 (by simp [configOpts, physOpts]) hc
    · exact dbl _ 0.5 (by simp [configOpts, physOpts]) hc
    · exact absurd rfl hc
    · exact dbl _ 0 (by simp [configOpts, physOpts]) hc
    · exact dbl _ 6.4 (by simp [configOpts, physOpts]) hc
    · exact dbl _ 1 (by simp [configOpts, physOpts]) hc
    · exact dbl _ 0 (by simp [configOpts, physOpts]) hc
    · exact dbl _ (-1) (by simp [configOpts, physOpts]) hc
    · exact dbl _ 10 (by simp [configOpts, gridOpts]) hc
    · exact dbl _ 0.2 (by simp [configOpts, gridOpts]) hc
  · intro kv hkv
    simp only [List.mem_cons, List.not_mem_nil, or_false] at hkv
    rcases hkv with rfl | rfl | rfl
    · exact int _ .int 1 (.inl rfl) (by simp [configOpts, mainOpts]) (by decide)
    · exact int _ .int 1 (.inl rfl) (by simp [configOpts, physOpts]) (by decide)
    · exact int _ .int64 (-1) (.inr rfl) (by simp [configOpts, physOpts]) (by decide)
  · intro k hk
    simp only [List.mem_cons, List.not_mem_nil, or_false] at hk
    rcases hk with rfl | rfl | rfl <;> exact bool _ (by simp [configOpts, outputOpts]) (by decide)
  · intro hc
    rcases key ⟨"output", .path, none⟩ (by simp [configOpts, outputOpts]) (by simp) with hk | ⟨ms, v, ⟨toks, -, hs⟩, hk⟩
    · dsimp only [Option.map] at hk
      unfold VarMap.count at hc
      rw [hk] at hc; cases hc
    · obtain ⟨x, rfl⟩ := scalarVal_path L _ _ hs
      dsimp only at hk
      exact ⟨x, by unfold VarMap.str; rw [hk]⟩
  · unfold notify at f6
    split at f6
    · rename_i l _ hl
      split at f6
      · cases f6
      · rename_i hlen
        rw [not_not] at hlen
        obtain ⟨a, b, rfl⟩ := List.length_eq_two.mp hlen
        exact ⟨a, b, by unfold VarMap.strs; rw [hl]⟩
    · cases f6

end Trento
