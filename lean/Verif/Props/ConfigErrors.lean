import Verif.Props.ExampleCommandLine

/-!
# C108: how the program ends if a config file is wrong

`C58` describes the exits of the program for parsers that report every error as an exception.  The reader of config files does so unless a file has the section header `[]`, which
Boost reads past the end of an empty string.  Without such a header every broken config file ends in status 1 and a message; with it the behaviour is undefined.
-/

namespace Trento
open Spec

/-- A line `[]`, possibly with blanks and a comment. -/
def Spec.EmptyHeaderLine (l : List Char) : Prop :=
  ∃ a b comment, Blanks a ∧ Blanks b ∧ l = a ++ '[' :: ']' :: b ++ comment ∧ (comment = [] ∨ ∃ t, comment = '#' :: t)

/-- One of the lines of the text is `[]`. -/
def Spec.EmptyHeader (text : List Char) : Prop := ∃ lines : List (List Char), text = ['\n'].intercalate lines ∧ (∀ l ∈ lines, '\n' ∉ l) ∧ ∃ l ∈ lines, EmptyHeaderLine l

theorem cfgLines_ne (text : List Char) : cfgLines text ≠ [] := by
  cases text with
  | nil => simp [cfgLines]
  | cons c cs =>
    rw [cfgLines]
    split
    · simp
    · split <;> simp

theorem cfgLines_nl (text : List Char) : ∀ l ∈ cfgLines text, '\n' ∉ l := by
  induction text with
  | nil => simp [cfgLines]
  | cons c cs ih =>
    rw [cfgLines]
    split
    · intro l hl
      rcases List.mem_cons.mp hl with rfl | hl
      · simp
      · exact ih l hl
    · rename_i hc
      split
      · intro l hl
        simp only [List.mem_singleton] at hl
        subst hl
        simpa using Ne.symm hc
      · rename_i l0 ls he
        intro l hl
        rcases List.mem_cons.mp hl with rfl | hl
        · have := ih l0 (by rw [he]; simp)
          simp only [List.mem_cons, not_or]
          exact ⟨Ne.symm hc, this⟩
        · exact ih l (by rw [he]; simp [hl])

theorem cfgLines_text (text : List Char) : ['\n'].intercalate (cfgLines text) = text := by
  induction text with
  | nil => rfl
  | cons c cs ih =>
    rw [cfgLines]
    split
    · rename_i hc
      subst hc
      cases h : cfgLines cs with
      | nil => exact absurd h (cfgLines_ne cs)
      | cons l ls => rw [h] at ih; rw [List.intercalate_cons_cons, ih]; rfl
    · split
      · rename_i h; exact absurd h (cfgLines_ne cs)
      · rename_i l ls he
        rw [he] at ih
        cases ls with
        | nil => rw [List.intercalate_singleton] at ih ⊢; rw [ih]
        | cons l2 ls => rw [List.intercalate_cons_cons] at ih ⊢; rw [List.cons_append, List.cons_append, ih]

theorem mem_takeWhile_true {α : Type} (p : α → Bool) (l : List α) {c : α} (h : c ∈ l.takeWhile p) : p c = true :=
  List.all_eq_true.mp (List.all_takeWhile (p := p) (l := l)) c h

theorem trimWs_split (s : List Char) : ∃ a b, s = a ++ trimWs s ++ b ∧ (∀ c ∈ a, isTrim c = true) ∧ ∀ c ∈ b, isTrim c = true := by
  refine ⟨s.takeWhile isTrim, ((s.dropWhile isTrim).reverse.takeWhile isTrim).reverse, ?_, fun c hc => mem_takeWhile_true _ _ hc, fun c hc => ?_⟩
  · unfold trimWs
    rw [List.append_assoc, ← List.reverse_append, List.takeWhile_append_dropWhile, List.reverse_reverse, List.takeWhile_append_dropWhile]
  · exact mem_takeWhile_true _ _ (List.mem_reverse.mp hc)

theorem trim_blanks {s : List Char} (h : ∀ c ∈ s, isTrim c = true) (hn : '\n' ∉ s) : Blanks s := by
  intro c hc
  have h1 := (isTrim_iff c).mp (h c hc)
  simp only [List.mem_cons, List.not_mem_nil, or_false] at h1
  rcases h1 with h1 | h1 | h1 | h1
  · exact .inl h1
  · exact .inr (.inl h1)
  · exact .inr (.inr h1)
  · exact absurd (h1 ▸ hc) hn

theorem emptyHeader_of_trim {l : List Char} (hn : '\n' ∉ l) (h : trimWs (l.takeWhile (· ≠ '#')) = ['[', ']']) : EmptyHeaderLine l := by
  obtain ⟨a, b, h1, h2, h3⟩ := trimWs_split (l.takeWhile (· ≠ '#'))
  rw [h] at h1
  have hsub : ∀ c ∈ l.takeWhile (· ≠ '#'), c ∈ l := fun c hc => (List.takeWhile_prefix _).subset hc
  refine ⟨a, b, l.dropWhile (· ≠ '#'), trim_blanks h2 fun hc => hn (hsub _ (by rw [h1]; simp [hc])), trim_blanks h3 fun hc => hn (hsub _ (by rw [h1]; simp [hc])), ?_, ?_⟩
  · conv_lhs => rw [← List.takeWhile_append_dropWhile (p := (· ≠ '#')) (l := l), h1]
    simp
  · cases hd : l.dropWhile (· ≠ '#') with
    | nil => exact .inl rfl
    | cons c t =>
      have := List.head?_dropWhile_not (· ≠ '#') l
      rw [hd] at this
      simp only [List.head?_cons] at this
      simp at this
      exact .inr ⟨t, by rw [this]⟩

/-- The reader of config files throws, or one of the lines is `[]`. -/
theorem cfgLoop_error (lines : List (List Char)) (hn : ∀ l ∈ lines, '\n' ∉ l) (pre : Tok) (e : Err) (h : cfgLoop pre lines = .error e) :
    IsPoError e ∨ ∃ l ∈ lines, EmptyHeaderLine l := by
  induction lines generalizing pre with
  | nil => cases h
  | cons l rest ih =>
    have ih : ∀ pre, cfgLoop pre rest = .error e → IsPoError e ∨ ∃ l' ∈ l :: rest, EmptyHeaderLine l' := by
      intro pre h
      rcases ih (fun l hl => hn l (List.mem_cons_of_mem _ hl)) pre h with h | ⟨l', h1, h2⟩
      · exact .inl h
      · exact .inr ⟨l', List.mem_cons_of_mem _ h1, h2⟩
    rw [cfgLoop] at h
    dsimp only at h
    split at h
    · exact ih _ h
    split at h
    · rename_i hb
      split at h
      · rename_i hp
        right
        refine ⟨l, List.mem_cons_self, emptyHeader_of_trim (hn l List.mem_cons_self) ?_⟩
        obtain ⟨b1, b2⟩ := hb
        rw [List.getLast?_eq_none_iff] at hp
        generalize trimWs (l.takeWhile (· ≠ '#')) = s at b1 b2 hp
        match s, b1, b2, hp with
        | [c], b1, b2, _ => simp at b1 b2; rw [b1] at b2; exact absurd b2 (by decide)
        | [c, d], b1, b2, _ => simp at b1 b2; rw [b1, b2]
        | c :: d :: x :: s, _, _, hp => simp at hp
      · exact ih _ h
    split at h
    · split at h
      · rename_i e' he
        cases h
        exact ih _ he
      · cases h
    · cases h
      exact .inl ⟨_, rfl⟩

theorem cfgParse_error (text : List Char) (e : Err) (h : cfgParse text = .error e) : IsPoError e ∨ EmptyHeader text := by
  rcases cfgLoop_error _ (cfgLines_nl text) _ _ h with h | h
  · exact .inl h
  · exact .inr ⟨cfgLines text, (cfgLines_text text).symm, cfgLines_nl text, h⟩

section
variable {F : Type} [Arith F]

/-- every error as an exception -/
def asThrow {α : Type} : Res α → Res α
  | .ok p => .ok p
  | .error (.throw .poError m) => .error (.throw .poError m)
  | .error _ => .error (.throw .poError "")

/-- The library with a reader of config files that reports everything as an exception. -/
def guarded (L : Lib F) : Lib F := { L with parseConfig := fun t => asThrow (L.parseConfig t) }

omit [Arith F] in
theorem guarded_same (L : Lib F) (t : List Char) (h : ∀ e, L.parseConfig t = .error e → IsPoError e) : (guarded L).parseConfig t = L.parseConfig t := by
  show asThrow (L.parseConfig t) = _
  cases hp : L.parseConfig t with
  | ok p => rfl
  | error e => obtain ⟨m, rfl⟩ := h e hp; rfl

omit [Arith F] in
theorem guarded_throws (L : Lib F) (h : ∀ args e, L.parseArgs args = .error e → IsPoError e) : ParsersThrow (guarded L) := by
  refine ⟨h, fun t e he => ?_⟩
  have he : asThrow (L.parseConfig t) = .error e := he
  unfold asThrow at he
  split at he
  · cases he
  · cases he; exact ⟨_, rfl⟩
  · cases he; exact ⟨_, rfl⟩

omit [Arith F] in
theorem guarded_storeParsed (L : Lib F) (desc : List (OptDesc F)) (ps : List ParsedOption) (nf : List String) (vm : VarMap F) :
    storeParsed (guarded L) desc ps nf vm = storeParsed L desc ps nf vm := by
  induction ps generalizing nf vm with
  | nil => rfl
  | cons p rest ih =>
    obtain ⟨k, toks⟩ := p
    have hv : ∀ ty old toks, parseVal (guarded L) ty old toks = parseVal L ty old toks := fun _ _ _ => rfl
    rw [storeParsed, storeParsed]
    simp only [hv, ih]

omit [Arith F] in
theorem guarded_store (L : Lib F) (desc : List (OptDesc F)) (ps : List ParsedOption) (vm : VarMap F) : store (guarded L) desc ps vm = store L desc ps vm := by
  unfold store
  rw [guarded_storeParsed]

theorem guarded_merge (L : Lib F) (env : OsEnv) (ce : CacheEnv) (fs : FS F) (paths : List String)
    (h : ∀ p ∈ paths, ∀ e, L.parseConfig (configText ce fs (env.resolve p)) = .error e → IsPoError e) (vm : VarMap F) :
    mergeConfigs (guarded L) env ce fs paths vm = mergeConfigs L env ce fs paths vm := by
  induction paths generalizing vm with
  | nil => rfl
  | cons p rest ih =>
    have hr : readConfig (guarded L) configOpts (configText ce fs (env.resolve p)) = readConfig L configOpts (configText ce fs (env.resolve p)) := by
      unfold readConfig
      rw [guarded_same L _ (h p List.mem_cons_self)]
    rw [mergeConfigs, mergeConfigs, hr]
    split
    · rfl
    · split
      · rfl
      · rw [guarded_store]
        split
        · rfl
        · exact ih (fun p hp => h p (List.mem_cons_of_mem _ hp)) _

theorem forall₂_back {α β : Type} {R : α → β → Prop} {l1 : List α} {l2 : List β} (h : List.Forall₂ R l1 l2) (b : β) (hb : b ∈ l2) : ∃ a ∈ l1, R a b := by
  induction h with
  | nil => cases hb
  | cons hab _ ih =>
    rcases List.mem_cons.mp hb with rfl | hb
    · exact ⟨_, List.mem_cons_self, hab⟩
    · obtain ⟨s, h1, h2⟩ := ih hb
      exact ⟨s, List.mem_cons_of_mem _ h1, h2⟩

theorem guarded_configure (L : Lib F) (env : OsEnv) (ce : CacheEnv) (fs : FS F) (args : List String)
    (h : ∀ cmd, L.parseArgs args = .ok cmd → ∀ s ∈ (givenIn "config-file" cmd).flatten, ∀ p, L.toPath s = some p →
      ∀ e, L.parseConfig (configText ce fs (env.resolve p)) = .error e → IsPoError e) :
    configure (guarded L) env ce fs args = configure L env ce fs args := by
  unfold configure
  have ha : (guarded L).parseArgs args = L.parseArgs args := rfl
  rw [ha]
  cases hp : L.parseArgs args with
  | error e => rfl
  | ok cmd =>
    dsimp only
    rw [guarded_store]
    cases hs : store L allOpts cmd VarMap.empty with
    | error e => rfl
    | ok vm0 =>
      dsimp only
      have hw : withConfigFiles (guarded L) env ce fs vm0 = withConfigFiles L env ce fs vm0 := by
        unfold withConfigFiles
        split
        · rename_i hc
          have c4 := count_iff L cmd vm0 hs _ configFile_mem rfl
          dsimp only at c4
          rw [c4] at hc
          obtain ⟨t1, -⟩ := stored_cmd L cmd vm0 hs _ configFile_mem
          unfold Takes at t1
          rw [firstMention_single] at t1
          simp only [hc, if_false] at t1
          obtain ⟨v, ⟨paths, t2, rfl⟩, t3⟩ := t1
          have hst : vm0.strs "config-file" = .ok paths := by unfold VarMap.strs; rw [t3]
          simp only [hst]
          refine guarded_merge L env ce fs paths (fun p hpm => ?_) vm0
          have t2 : List.Forall₂ (fun s p => L.toPath s = some p) (givenIn "config-file" cmd).flatten paths := t2
          obtain ⟨s, hs1, hs2⟩ : ∃ s ∈ (givenIn "config-file" cmd).flatten, L.toPath s = some p := by
            exact forall₂_back t2 p hpm
          exact h cmd hp s hs1 p hs2
        · rfl
      rw [hw]

variable {E D : Type} [NumFmt F] [Toms748 F] [Rng F E D]

theorem guarded_main (L : Lib F) (env : OsEnv) (ce : CacheEnv) (fu : Fuel) (h5view : FS F → String → H5View F) (ev0 : (n : Nat) → Event F n) (args : List String) (W : World F) (r : Rand E D)
    (h : configure (guarded L) env ce W.fs args = configure L env ce W.fs args) :
    mainProg (guarded L) env ce fu h5view ev0 args W r = mainProg L env ce fu h5view ev0 args W r := by
  unfold mainProg
  rw [h]
  rfl

/-- **C108, errors.** A command line that does not ask for information and whose config files have no line `[]`: if no run starts, for whatever reason, the status is 1, there is a message on
standard error, nothing is printed and no file is touched. -/
theorem C108_reported (L : Lib F) (env : OsEnv) (ce : CacheEnv) (fu : Fuel) (h5view : FS F → String → H5View F) (ev0 : (n : Nat) → Event F n) (args : List String) (W : World F) (r : Rand E D)
    (cmd : List ParsedOption) (hp : cliParse F args = .ok cmd) (h1 : givenIn "help" cmd = []) (h2 : givenIn "version" cmd = []) (h3 : givenIn "bibtex" cmd = [])
    (hh : ∀ s ∈ (givenIn "config-file" cmd).flatten, ∀ path, L.toPath s = some path → ¬ EmptyHeader (configText ce W.fs (env.resolve path)))
    (hno : ∀ vm, configure (boostLib L) env ce W.fs args ≠ .ok (.run vm)) :
    ∃ err, err ≠ [] ∧ mainProg (boostLib L) env ce fu h5view ev0 args W r = (.status 1, W, err) := by
  have hc : configure (guarded (boostLib L)) env ce W.fs args = configure (boostLib L) env ce W.fs args := by
    refine guarded_configure _ env ce W.fs args fun cmd' hp' s hs p hpath e he => ?_
    have hp' : cliParse F args = .ok cmd' := hp'
    rw [hp] at hp'
    cases hp'
    rcases cfgParse_error _ e he with h | h
    · exact h
    · exact absurd h (hh s hs p hpath)
  rw [← guarded_main (boostLib L) env ce fu h5view ev0 args W r hc]
  exact not_run_exit (guarded (boostLib L)) env ce fu h5view ev0 args W r (guarded_throws _ fun args e h => cliParse_error F args e h) cmd hp h1 h2 h3 fun vm => by rw [hc]; exact hno vm

/-- **C108, broken files, the exit.** If one of the config files has a line that is neither empty, comment, setting nor section header, or a setting below a section header, and none has a
line `[]`, the program exits with status 1 and a message and nothing else happens. -/
theorem C108_broken_exit (L : Lib F) (env : OsEnv) (ce : CacheEnv) (fu : Fuel) (h5view : FS F → String → H5View F) (ev0 : (n : Nat) → Event F n) (args : List String) (W : World F) (r : Rand E D)
    (cmd : List ParsedOption) (hp : cliParse F args = .ok cmd) (h1 : givenIn "help" cmd = []) (h2 : givenIn "version" cmd = []) (h3 : givenIn "bibtex" cmd = [])
    (hh : ∀ s ∈ (givenIn "config-file" cmd).flatten, ∀ path, L.toPath s = some path → ¬ EmptyHeader (configText ce W.fs (env.resolve path)))
    (s path : String) (hs : s ∈ (givenIn "config-file" cmd).flatten) (hpath : L.toPath s = some path) (hb : BrokenFile (configText ce W.fs (env.resolve path))) :
    ∃ err, err ≠ [] ∧ mainProg (boostLib L) env ce fu h5view ev0 args W r = (.status 1, W, err) :=
  C108_reported L env ce fu h5view ev0 args W r cmd hp h1 h2 h3 hh fun vm => C108_broken L env ce W.fs args cmd hp s path hs hpath hb vm

/-- **C108, the header `[]`.** If the first config file has, after valid lines, the line `[]`, the behaviour of the program is undefined. -/
theorem C108_empty_header_ub (L : Lib F) (env : OsEnv) (ce : CacheEnv) (fu : Fuel) (h5view : FS F → String → H5View F) (ev0 : (n : Nat) → Event F n) (args : List String) (W : World F)
    (r : Rand E D) (cmd : List ParsedOption) (hp : cliParse F args = .ok cmd) (ha : Acceptable (boostLib L) allOpts cmd) (h1 : givenIn "help" cmd = []) (h2 : givenIn "version" cmd = [])
    (h3 : givenIn "bibtex" cmd = []) (s : String) (more : List String) (hs : (givenIn "config-file" cmd).flatten = s :: more) (path : String) (hpath : L.toPath s = some path)
    (hex : W.fs.exists (env.resolve path) = true) (kinds : List (Option (String × String))) (lines rest : List (List Char)) (l : List Char) (hl : List.Forall₂ ConfigLine kinds lines)
    (he : EmptyHeaderLine l) (hn : ∀ l' ∈ l :: rest, '\n' ∉ l') (htext : configText ce W.fs (env.resolve path) = ['\n'].intercalate (lines ++ l :: rest)) :
    mainProg (boostLib L) env ce fu h5view ev0 args W r = (.undefined, W, []) := by
  have hempty : ∀ pre, cfgLoop pre (l :: rest) = .error (.ub "rbegin of an empty string") := by
    intro pre
    obtain ⟨a, b, comment, ha', hb', hle, hc⟩ := he
    have hno : '#' ∉ a ++ '[' :: ']' :: b := by
      simp only [List.mem_append, List.mem_cons, not_or]
      exact ⟨blanks_not ha' '#' (by decide) (by decide) (by decide), by decide, by decide, blanks_not hb' '#' (by decide) (by decide) (by decide)⟩
    have hcut : l.takeWhile (· ≠ '#') = a ++ ['[', ']'] ++ b := by
      rw [hle]
      rcases hc with rfl | ⟨t, rfl⟩
      · rw [List.append_nil, takeWhile_nohash _ hno]; simp
      · rw [takeWhile_hash _ _ hno]; simp
    have htrim : trimWs (l.takeWhile (· ≠ '#')) = ['[', ']'] := by
      rw [hcut]
      exact trimWs_tight a _ b ha' hb' (tight_of _ (by decide))
    rw [cfgLoop]
    simp only [htrim]
    rfl
  have hparse : cfgParse (configText ce W.fs (env.resolve path)) = .error (.ub "rbegin of an empty string") := by
    rw [htext, join_lines _ (by simp) (by
      intro l' hl'
      rcases List.mem_append.mp hl' with h | h
      · exact lines_newline hl l' h
      · exact hn l' h), cfgLoop_lines hl, hempty]
  have hconf : configure (boostLib L) env ce W.fs args = .error (.ub "rbegin of an empty string") := by
    unfold configure
    have hp' : (boostLib L).parseArgs args = .ok cmd := hp
    rw [hp']
    dsimp only
    obtain ⟨vm0, hs0⟩ := (store_iff (boostLib L) cmd).mpr ha
    rw [hs0]
    dsimp only
    have c1 := count_iff (boostLib L) cmd vm0 hs0 _ help_mem rfl
    have c2 := count_iff (boostLib L) cmd vm0 hs0 _ version_mem rfl
    have c3 := count_iff (boostLib L) cmd vm0 hs0 _ bibtex_mem rfl
    have c4 := count_iff (boostLib L) cmd vm0 hs0 _ configFile_mem rfl
    dsimp only at c1 c2 c3 c4
    have n1 : vm0.count "help" = false := by rw [← Bool.not_eq_true, c1]; exact fun h => h h1
    have n2 : vm0.count "version" = false := by rw [← Bool.not_eq_true, c2]; exact fun h => h h2
    have n3 : vm0.count "bibtex" = false := by rw [← Bool.not_eq_true, c3]; exact fun h => h h3
    have hc : givenIn "config-file" cmd ≠ [] := by intro h; rw [h] at hs; cases hs
    have n4 : vm0.count "config-file" = true := c4.mpr hc
    simp only [n1, n2, n3, Bool.false_eq_true, if_false]
    have hw : withConfigFiles (boostLib L) env ce W.fs vm0 = .error (.ub "rbegin of an empty string") := by
      unfold withConfigFiles
      rw [if_pos n4]
      obtain ⟨t1, -⟩ := stored_cmd (boostLib L) cmd vm0 hs0 _ configFile_mem
      unfold Takes at t1
      rw [firstMention_single] at t1
      simp only [hc, if_false] at t1
      obtain ⟨v, ⟨paths, t2, rfl⟩, t3⟩ := t1
      have hst : vm0.strs "config-file" = .ok paths := by unfold VarMap.strs; rw [t3]
      simp only [hst]
      have t2 : List.Forall₂ (fun s p => L.toPath s = some p) (givenIn "config-file" cmd).flatten paths := t2
      rw [hs] at t2
      cases t2 with
      | cons hab _ =>
        rw [hpath] at hab
        cases hab
        rw [mergeConfigs, hex]
        simp only [Bool.not_true, Bool.false_eq_true, if_false]
        unfold readConfig
        have : (boostLib L).parseConfig (configText ce W.fs (env.resolve path)) = .error (.ub "rbegin of an empty string") := hparse
        rw [this]
    rw [hw]
  unfold mainProg
  rw [hconf]
  rfl

end

/-! ### Concrete cases -/

/-- `trento -c trento.conf -w1 --ncoll --random-seed 0 p p 2` where the config file is the line `quiet`, and where it is `b-max = 1`, `[]`. -/
def badWorld (text : List Char) : World ℝ := ⟨{}, fun p => if p = ["trento.conf"] then some (.file (.text text)) else none⟩

theorem bad_text (text : List Char) : configText exCacheEnv (badWorld text).fs (exEnv.resolve "trento.conf") = text := by
  simp [configText, badWorld, exEnv, openRead, exCacheEnv]

theorem demo_cli : cliParse ℝ demoWords.flatten = .ok (demoCmd []) := (C107_spellings ℝ _ _ demo_spelled []).1.trans rfl

example [Toms748 ℝ] (fu : Fuel) (h5view : FS ℝ → String → H5View ℝ) (r : Rand Tape Unit) :
    ∃ err, err ≠ [] ∧ mainProg (boostLib (demoLib [])) exEnv exCacheEnv fu h5view demoEvent demoWords.flatten (badWorld "quiet".toList) r = (.status 1, badWorld "quiet".toList, err) := by
  have hcf : ∀ s ∈ (givenIn "config-file" (demoCmd [])).flatten, s = "trento.conf" := by simp [demoCmd, givenIn]
  refine C108_broken_exit (demoLib []) exEnv exCacheEnv fu h5view demoEvent _ _ r (demoCmd []) demo_cli rfl rfl rfl ?_ "trento.conf" "trento.conf" (by simp [demoCmd, givenIn]) rfl
    (by rw [bad_text]; exact example_broken.1)
  intro s hs path hpath
  have hs := hcf s hs
  subst hs
  have : path = "trento.conf" := by
    have : some "trento.conf" = some path := hpath
    exact (Option.some.inj this).symm
  subst this
  rw [bad_text]
  rintro ⟨lines, h1, h2, l, h3, a, b, comment, h4, h5, h6, h7⟩
  have : '[' ∈ "quiet".toList := by
    rw [h1]
    have hl : '[' ∈ l := by rw [h6]; simp
    clear h1 h2
    induction lines with
    | nil => cases h3
    | cons x xs ih =>
      cases xs with
      | nil =>
        rw [List.intercalate_singleton]
        simp only [List.mem_singleton] at h3
        rw [← h3]; exact hl
      | cons y ys =>
        rw [List.intercalate_cons_cons]
        rcases List.mem_cons.mp h3 with rfl | h3
        · simp [hl]
        · have := ih h3
          simp only [List.mem_append]
          exact .inr this
  exact absurd this (by decide)

theorem bad_cf : (givenIn "config-file" (demoCmd [])).flatten = ["trento.conf"] := by simp [demoCmd, givenIn]

theorem bad_exists (t : List Char) : (badWorld t).fs.exists (exEnv.resolve "trento.conf") = true := by
  simp only [FS.exists]; rfl

example [Toms748 ℝ] (fu : Fuel) (h5view : FS ℝ → String → H5View ℝ) (r : Rand Tape Unit) :
    mainProg (boostLib (demoLib [])) exEnv exCacheEnv fu h5view demoEvent demoWords.flatten (badWorld "b-max = 1\n []# nothing".toList) r =
      (.undefined, badWorld "b-max = 1\n []# nothing".toList, []) := by
  have ha : Acceptable (boostLib (demoLib [])) (allOpts (F := ℝ)) (demoCmd []) := by
    obtain ⟨vm, h⟩ := demo_boost_configure
    refine (store_iff _ _).mp ?_
    unfold configure at h
    have hp : (boostLib (demoLib [])).parseArgs demoWords.flatten = .ok (demoCmd []) := demo_cli
    rw [hp] at h
    dsimp only at h
    cases hs : store (boostLib (demoLib [])) allOpts (demoCmd []) VarMap.empty with
    | error e => rw [hs] at h; cases h
    | ok vm => exact ⟨vm, rfl⟩
  exact C108_empty_header_ub (demoLib []) exEnv exCacheEnv fu h5view demoEvent _ _ r (demoCmd []) demo_cli ha rfl rfl rfl "trento.conf" [] bad_cf "trento.conf" rfl (bad_exists _)
    [some ("b-max", "1")] ["b-max = 1".toList] [] " []# nothing".toList
    (.cons (.setting "b-max" "1" [] [' '] [' '] [] [] (by decide) (by decide) (by decide) (tight_of _ (by decide)) (by decide) (tight_of _ (by decide)) (blanks_of _ rfl) (blanks_of _ rfl) (blanks_of _ rfl)
      (blanks_of _ rfl) (.inl rfl)) .nil)
    ⟨[' '], [], "# nothing".toList, blanks_of _ rfl, blanks_of _ rfl, rfl, .inr ⟨_, rfl⟩⟩ (by decide) (by rw [bad_text]; rfl)

end Trento
