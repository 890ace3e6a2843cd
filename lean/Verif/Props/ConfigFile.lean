import Verif.Props.CommandLine

/-! # Config files (C108)

The parser is the model of `po::parse_config_file` in `Verif/Model/CmdLine.lean`; the documented syntax is in `Verif/Spec/CommandLine.lean`. -/

namespace Trento
open Spec
set_option linter.unusedSectionVars false

/-! ## Lines -/

theorem cfgLines_line (l rest : List Char) (h : '\n' ∉ l) : cfgLines (l ++ '\n' :: rest) = l :: cfgLines rest := by
  induction l with
  | nil => rw [List.nil_append, cfgLines, if_pos rfl]
  | cons a l ih =>
    have ha : a ≠ '\n' := fun he => h (by simp [he])
    rw [List.cons_append, cfgLines, if_neg ha, ih fun hm => h (by simp [hm])]

theorem cfgLines_last (l : List Char) (h : '\n' ∉ l) : cfgLines l = [l] := by
  induction l with
  | nil => rfl
  | cons a l ih =>
    have ha : a ≠ '\n' := fun he => h (by simp [he])
    rw [cfgLines, if_neg ha, ih fun hm => h (by simp [hm])]

theorem cfgLines_join (lines : List (List Char)) (hne : lines ≠ []) (h : ∀ l ∈ lines, '\n' ∉ l) : cfgLines (['\n'].intercalate lines) = lines := by
  induction lines with
  | nil => exact absurd rfl hne
  | cons l lines ih =>
    cases lines with
    | nil => simpa [List.intercalate] using cfgLines_last l (h l (by simp))
    | cons l' lines =>
      have : ['\n'].intercalate (l :: l' :: lines) = l ++ '\n' :: ['\n'].intercalate (l' :: lines) := by simp [List.intercalate]
      rw [this, cfgLines_line l _ (h l (by simp)), ih (by simp) fun x hx => h x (by simp [List.mem_cons.mp hx])]

/-! ## Trimming -/

theorem isTrim_iff (c : Char) : isTrim c = true ↔ c ∈ [' ', '\t', '\r', '\n'] := by
  unfold isTrim
  simp [or_assoc]

theorem blanks_trim {ws : List Char} (h : Blanks ws) : ∀ c ∈ ws, isTrim c = true := by
  intro c hc
  rw [isTrim_iff]
  rcases h c hc with h | h | h <;> simp [h]

theorem dropWhile_blanks (ws s : List Char) (h : ∀ c ∈ ws, isTrim c = true) : (ws ++ s).dropWhile isTrim = s.dropWhile isTrim := by
  induction ws with
  | nil => rfl
  | cons a ws ih =>
    rw [List.cons_append, List.dropWhile_cons_of_pos (h a (by simp)), ih fun c hc => h c (by simp [hc])]

theorem dropWhile_tight (s : List Char) (h : ∀ c, s.head? = some c → isTrim c = false) : s.dropWhile isTrim = s := by
  cases s with
  | nil => rfl
  | cons a s => rw [List.dropWhile_cons_of_neg (by rw [h a rfl]; simp)]

/-- Trimming removes the blanks around tight text. -/
theorem trimWs_tight (a s b : List Char) (ha : Blanks a) (hb : Blanks b) (hs : Tight s) : trimWs (a ++ s ++ b) = s := by
  have h1 : ∀ c, s.head? = some c → isTrim c = false := by
    intro c hc
    by_contra h
    have h := (isTrim_iff c).mp (by simpa using h)
    exact (hs c h).1 hc
  have h2 : ∀ c, s.reverse.head? = some c → isTrim c = false := by
    intro c hc
    rw [List.head?_reverse] at hc
    by_contra h
    have h := (isTrim_iff c).mp (by simpa using h)
    exact (hs c h).2 hc
  unfold trimWs
  rw [List.append_assoc, dropWhile_blanks a _ (blanks_trim ha)]
  cases s with
  | nil =>
    rw [List.nil_append]
    have := dropWhile_blanks b [] (blanks_trim hb)
    rw [List.append_nil] at this
    rw [this]
    rfl
  | cons x s =>
    have : ((x :: s) ++ b).dropWhile isTrim = (x :: s) ++ b := dropWhile_tight _ (by intro c hc; exact h1 c hc)
    rw [this, List.reverse_append, dropWhile_blanks b.reverse _ (fun c hc => blanks_trim hb c (by simpa using hc)), dropWhile_tight _ h2, List.reverse_reverse]

theorem trimWs_blank (a : List Char) (ha : Blanks a) : trimWs a = [] := by
  have := trimWs_tight a [] [] ha (by intro c hc; cases hc) (by intro c hc; exact ⟨by simp, by simp⟩)
  simpa using this

theorem takeWhile_hash (s t : List Char) (h : '#' ∉ s) : (s ++ '#' :: t).takeWhile (· ≠ '#') = s := by
  induction s with
  | nil => simp
  | cons a s ih =>
    have ha : a ≠ '#' := fun he => h (by simp [he])
    rw [List.cons_append, List.takeWhile_cons_of_pos (by simpa using ha), ih fun hm => h (by simp [hm])]

theorem takeWhile_nohash (s : List Char) (h : '#' ∉ s) : s.takeWhile (· ≠ '#') = s := by
  induction s with
  | nil => rfl
  | cons a s ih =>
    have ha : a ≠ '#' := fun he => h (by simp [he])
    rw [List.takeWhile_cons_of_pos (by simpa using ha), ih fun hm => h (by simp [hm])]

theorem blanks_not {ws : List Char} (h : Blanks ws) (c : Char) (h1 : c ≠ ' ') (h2 : c ≠ '\t') (h3 : c ≠ '\r') : c ∉ ws := by
  intro hc
  rcases h c hc with h | h | h
  · exact h1 h
  · exact h2 h
  · exact h3 h

/-- No line contains a newline. -/
theorem configLine_newline {kind : Option (String × String)} {l : List Char} (h : ConfigLine kind l) : '\n' ∉ l := by
  cases h with
  | blank _ h => exact blanks_not h _ (by decide) (by decide) (by decide)
  | comment ws text h hn =>
    have := blanks_not h '\n' (by decide) (by decide) (by decide)
    simp [this, hn]
  | setting k v a b c d com hk hk1 hk2 hk3 hv1 hv2 ha hb hc hd hcom =>
    have e1 := blanks_not ha '\n' (by decide) (by decide) (by decide)
    have e2 := blanks_not hb '\n' (by decide) (by decide) (by decide)
    have e3 := blanks_not hc '\n' (by decide) (by decide) (by decide)
    have e4 := blanks_not hd '\n' (by decide) (by decide) (by decide)
    have e5 := hk2 '\n' (by simp)
    have e6 := hv1 '\n' (by simp)
    have e7 : '\n' ∉ com := by
      rcases hcom with rfl | ⟨t, rfl, ht⟩
      · simp
      · simp [ht]
    simp [e1, e2, e3, e4, e5, e6, e7]

/-- What the parser does with a documented line. -/
theorem cfgLoop_line {kind : Option (String × String)} {l : List Char} (h : ConfigLine kind l) (pre : Tok) (rest : List (List Char)) :
    cfgLoop pre (l :: rest) = match kind with
      | none => cfgLoop pre rest
      | some (k, v) => match cfgLoop pre rest with
        | .error e => .error e
        | .ok ps => .ok ((String.ofList (pre ++ k.toList), [v]) :: ps) := by
  cases h with
  | blank _ h =>
    have h1 : l.takeWhile (· ≠ '#') = l := takeWhile_nohash _ (blanks_not h _ (by decide) (by decide) (by decide))
    rw [cfgLoop]
    simp only [h1, trimWs_blank _ h, if_true]
  | comment ws text h hn =>
    have h1 : (ws ++ '#' :: text).takeWhile (· ≠ '#') = ws := takeWhile_hash _ _ (blanks_not h _ (by decide) (by decide) (by decide))
    rw [cfgLoop]
    simp only [h1, trimWs_blank _ h, if_true]
  | setting k v a b c d com hk hk1 hk2 hk3 hv1 hv2 ha hb hc hd hcom =>
    have hkn : k.toList ≠ [] := toList_ne_nil hk
    have n1 : '#' ∉ a ++ k.toList ++ b ++ '=' :: (c ++ v.toList ++ d) := by
      have e1 := blanks_not ha '#' (by decide) (by decide) (by decide)
      have e2 := blanks_not hb '#' (by decide) (by decide) (by decide)
      have e3 := blanks_not hc '#' (by decide) (by decide) (by decide)
      have e4 := blanks_not hd '#' (by decide) (by decide) (by decide)
      have e5 := hk2 '#' (by simp)
      have e6 := hv1 '#' (by simp)
      simp [e1, e2, e3, e4, e5, e6]
    have h1 : (a ++ k.toList ++ b ++ '=' :: (c ++ v.toList ++ d ++ com)).takeWhile (· ≠ '#') = a ++ k.toList ++ b ++ '=' :: (c ++ v.toList ++ d) := by
      have e : a ++ k.toList ++ b ++ '=' :: (c ++ v.toList ++ d ++ com) = (a ++ k.toList ++ b ++ '=' :: (c ++ v.toList ++ d)) ++ com := by simp
      rw [e]
      rcases hcom with rfl | ⟨t, rfl, ht⟩
      · rw [List.append_nil]; exact takeWhile_nohash _ n1
      · exact takeWhile_hash _ _ n1
    -- the line without comment and outer blanks
    have htrim : ∃ w, trimWs (a ++ k.toList ++ b ++ '=' :: (c ++ v.toList ++ d)) = k.toList ++ b ++ '=' :: w ∧ trimWs w = v.toList := by
      by_cases hv0 : v.toList = []
      · -- an empty value: all blanks after the equal sign go
        refine ⟨[], ?_, by rw [hv0]; rfl⟩
        have e : a ++ k.toList ++ b ++ '=' :: (c ++ v.toList ++ d) = a ++ (k.toList ++ b ++ ['=']) ++ (c ++ d) := by rw [hv0]; simp
        rw [e]
        refine trimWs_tight _ _ _ ha (fun x hx => ?_) fun x hx => ⟨?_, ?_⟩
        · rcases List.mem_append.mp hx with h | h
          · exact hc x h
          · exact hd x h
        · obtain ⟨y, ys, hy⟩ := List.exists_cons_of_ne_nil hkn
          have := (hk3 x hx).1
          rw [hy] at this ⊢
          exact this
        · rw [List.getLast?_append]
          simp only [List.getLast?_singleton, Option.some_or]
          intro he
          cases he
          revert hx; decide
      · refine ⟨c ++ v.toList, ?_, ?_⟩
        · have e : a ++ k.toList ++ b ++ '=' :: (c ++ v.toList ++ d) = a ++ (k.toList ++ b ++ '=' :: (c ++ v.toList)) ++ d := by simp
          rw [e]
          refine trimWs_tight _ _ _ ha hd fun x hx => ⟨?_, ?_⟩
          · obtain ⟨y, ys, hy⟩ := List.exists_cons_of_ne_nil hkn
            have := (hk3 x hx).1
            rw [hy] at this ⊢
            exact this
          · have e2 : k.toList ++ b ++ '=' :: (c ++ v.toList) = (k.toList ++ b ++ '=' :: c) ++ v.toList := by simp
            rw [e2, List.getLast?_append]
            have := (hv2 x hx).2
            cases hg : v.toList.getLast? with
            | none => exact absurd (List.getLast?_eq_none_iff.mp hg) hv0
            | some y => rw [hg] at this; simpa using this
        · have := trimWs_tight c v.toList [] hc (by intro x hx; cases hx) hv2
          simpa using this
    obtain ⟨w, hw1, hw2⟩ := htrim
    have heq : '=' ∉ k.toList ++ b := by
      have e1 := blanks_not hb '=' (by decide) (by decide) (by decide)
      have e2 := hk2 '=' (by simp)
      simp [e1, e2]
    rw [cfgLoop]
    simp only [h1, hw1]
    have hne : k.toList ++ b ++ '=' :: w ≠ [] := by simp
    have hhead : ¬ ((k.toList ++ b ++ '=' :: w).head? = some '[' ∧ (k.toList ++ b ++ '=' :: w).getLast? = some ']') := by
      rintro ⟨h, -⟩
      obtain ⟨y, ys, hy⟩ := List.exists_cons_of_ne_nil hkn
      rw [hy] at h hk1
      exact hk1 h
    have hmem : '=' ∈ k.toList ++ b ++ '=' :: w := by simp
    rw [if_neg hne, if_neg hhead, if_pos hmem]
    have t1 : (k.toList ++ b ++ '=' :: w).takeWhile (· ≠ '=') = k.toList ++ b := takeWhile_ne_eq _ _ heq
    have t2 : (k.toList ++ b ++ '=' :: w).dropWhile (· ≠ '=') = '=' :: w := dropWhile_ne_eq _ _ heq
    have t3 : trimWs (k.toList ++ b) = k.toList := by
      have := trimWs_tight [] k.toList b (by intro x hx; cases hx) hb hk3
      simpa using this
    simp only [t1, t2, t3, List.drop_succ_cons, List.drop_zero, hw2, String.ofList_toList]
    cases cfgLoop pre rest <;> rfl

/-- The settings as the parser gives them. -/
def Spec.asParsed (settings : List (String × String)) : List ParsedOption := settings.map fun s => (s.1, [s.2])

theorem cfgLoop_lines {kinds : List (Option (String × String))} {lines : List (List Char)} (h : List.Forall₂ ConfigLine kinds lines) (rest : List (List Char)) :
    cfgLoop [] (lines ++ rest) = match cfgLoop [] rest with
      | .error e => .error e
      | .ok ps => .ok (asParsed (kinds.filterMap id) ++ ps) := by
  induction h with
  | nil => cases h : cfgLoop [] rest <;> simp [asParsed, h]
  | @cons kind l kinds lines h1 _ ih =>
    rw [List.cons_append, cfgLoop_line h1, ih]
    cases kind with
    | none => cases cfgLoop [] rest <;> simp
    | some kv =>
      obtain ⟨k, v⟩ := kv
      cases cfgLoop [] rest <;> simp [asParsed]

/-- **C108, syntax.** A config file in the documented syntax — settings `key = value`, comments and empty lines, with any blanks around keys and values — gives exactly its settings, in order. -/
theorem C108_syntax (settings : List (String × String)) (text : List Char) (h : IsConfigFile settings text) : cfgParse text = .ok (asParsed settings) := by
  obtain ⟨kinds, lines, h1, rfl, rfl⟩ := h
  unfold cfgParse
  by_cases hne : lines = []
  · subst hne
    cases h1
    rfl
  · have hnl : ∀ l ∈ lines, '\n' ∉ l := by
      intro l hl
      obtain ⟨i, hi, rfl⟩ := List.getElem_of_mem hl
      exact configLine_newline (List.Forall₂.get h1 (by rw [h1.length_eq]; exact hi) hi)
    rw [cfgLines_join lines hne hnl]
    have := cfgLoop_lines h1 []
    rw [List.append_nil, cfgLoop] at this
    rw [this]
    simp

/-! ## Files that are rejected -/

/-- A line that is neither blank, comment, setting nor section header: some text other than `[…]`, without an equal sign. -/
def Spec.BadLine (l : List Char) : Prop :=
  ∃ a s b comment, l = a ++ s ++ b ++ comment ∧ Blanks a ∧ Blanks b ∧ Tight s ∧ s ≠ [] ∧ '=' ∉ s ∧ '#' ∉ s ∧ s.head? ≠ some '[' ∧ '\n' ∉ l ∧
    (comment = [] ∨ ∃ t, comment = '#' :: t)

/-- A section header `[name]`. -/
def Spec.SectionLine (name : List Char) : Prop := name ≠ [] ∧ '#' ∉ name ∧ '\n' ∉ name

/-- A config file that goes wrong somewhere: documented lines, then a bad line, or a section header followed (after lines without settings) by a setting; then anything. -/
def Spec.BrokenFile (text : List Char) : Prop :=
  ∃ kinds lines, List.Forall₂ ConfigLine kinds lines ∧
    ((∃ l rest, BadLine l ∧ (∀ x ∈ rest, '\n' ∉ x) ∧ text = ['\n'].intercalate (lines ++ l :: rest)) ∨
     ∃ name kinds' lines' k v l rest, SectionLine name ∧ List.Forall₂ ConfigLine kinds' lines' ∧ (∀ x ∈ kinds', x = none) ∧ ConfigLine (some (k, v)) l ∧
      (∀ x ∈ rest, '\n' ∉ x) ∧ text = ['\n'].intercalate (lines ++ ('[' :: (name ++ [']'])) :: lines' ++ l :: rest))

theorem cfgLoop_bad (l : List Char) (h : BadLine l) (pre : Tok) (rest : List (List Char)) :
    cfgLoop pre (l :: rest) = .error (.throw .poError "the options configuration file contains an invalid line") := by
  obtain ⟨a, s, b, com, rfl, ha, hb, hs, hne, h1, h2, h3, -, hcom⟩ := h
  have n1 : '#' ∉ a ++ s ++ b := by
    have e1 := blanks_not ha '#' (by decide) (by decide) (by decide)
    have e2 := blanks_not hb '#' (by decide) (by decide) (by decide)
    simp [e1, e2, h2]
  have ht : (a ++ s ++ b ++ com).takeWhile (· ≠ '#') = a ++ s ++ b := by
    rcases hcom with rfl | ⟨t, rfl⟩
    · rw [List.append_nil]; exact takeWhile_nohash _ n1
    · exact takeWhile_hash _ _ n1
  rw [cfgLoop]
  simp only [ht, trimWs_tight a s b ha hb hs]
  rw [if_neg hne, if_neg (fun h => h3 h.1), if_neg h1]

theorem cfgLoop_none {kinds : List (Option (String × String))} {lines : List (List Char)} (h : List.Forall₂ ConfigLine kinds lines) (hn : ∀ x ∈ kinds, x = none)
    (pre : Tok) (rest : List (List Char)) : cfgLoop pre (lines ++ rest) = cfgLoop pre rest := by
  induction h with
  | nil => rfl
  | @cons kind l kinds lines h1 _ ih =>
    have hk := hn kind (by simp)
    subst hk
    rw [List.cons_append, cfgLoop_line h1]
    exact ih fun x hx => hn x (by simp [hx])

theorem cfgLoop_section (name : List Char) (h : SectionLine name) (pre : Tok) (rest : List (List Char)) :
    ∃ p c, cfgLoop pre (('[' :: (name ++ [']'])) :: rest) = cfgLoop (c :: p) rest ∧ '.' ∈ c :: p := by
  obtain ⟨h1, h2, h3⟩ := h
  have n1 : '#' ∉ '[' :: (name ++ [']']) := by simp [h2]
  have ht : ('[' :: (name ++ [']'])).takeWhile (· ≠ '#') = '[' :: (name ++ [']']) := takeWhile_nohash _ n1
  have hl : ('[' :: (name ++ [']'])).getLast? = some ']' := by
    rw [show '[' :: (name ++ [']']) = ('[' :: name) ++ [']'] by simp, List.getLast?_append]
    rfl
  have htr : trimWs ('[' :: (name ++ [']'])) = '[' :: (name ++ [']']) := by
    have := trimWs_tight [] ('[' :: (name ++ [']'])) [] (by intro x hx; cases hx) (by intro x hx; cases hx) (by
      intro c hc
      rw [hl]
      refine ⟨?_, ?_⟩
      · intro he; cases he; revert hc; decide
      · intro he; cases he; revert hc; decide)
    simpa using this
  rw [cfgLoop]
  simp only [ht, htr]
  rw [if_neg (by simp), if_pos ⟨rfl, hl⟩]
  have hd : (List.drop 1 ('[' :: (name ++ [']']))).dropLast = name := by simp
  rw [hd]
  obtain ⟨y, ys, hy⟩ := List.exists_cons_of_ne_nil h1
  cases hg : name.getLast? with
  | none => exact absurd (List.getLast?_eq_none_iff.mp hg) h1
  | some c =>
    dsimp only
    by_cases hc : c = '.'
    · rw [if_neg (by simp [hc])]
      refine ⟨ys, y, by rw [hy], ?_⟩
      rw [← hy, ← hc]
      exact List.mem_of_getLast? hg
    · rw [if_pos hc]
      exact ⟨ys ++ ['.'], y, by rw [hy]; rfl, by simp⟩

section
variable {F : Type} [Arith F]

theorem configNames_dot : ∀ k ∈ (configOpts (F := F)).map (·.name), '.' ∉ k.toList := by
  have : (configOpts (F := F)).map (·.name) = configFileOptions := rfl
  rw [this]
  decide

theorem join_lines (lines : List (List Char)) (hne : lines ≠ []) (hnl : ∀ l ∈ lines, '\n' ∉ l) : cfgParse (['\n'].intercalate lines) = cfgLoop [] lines := by
  unfold cfgParse
  rw [cfgLines_join lines hne hnl]

theorem lines_newline {kinds : List (Option (String × String))} {lines : List (List Char)} (h : List.Forall₂ ConfigLine kinds lines) : ∀ l ∈ lines, '\n' ∉ l := by
  intro l hl
  obtain ⟨i, hi, rfl⟩ := List.getElem_of_mem hl
  exact configLine_newline (List.Forall₂.get h (by rw [h.length_eq]; exact hi) hi)

/-- A parse result under a section either is an error or mentions a name with a dot.  The error may be undefined behaviour if another section header follows. -/
theorem readConfig_broken (L : Lib F) (text : List Char) (h : BrokenFile text) (p : List ParsedOption) : readConfig (boostLib L) configOpts text ≠ .ok p := by
  intro hr
  obtain ⟨h1, h2⟩ := readConfig_ok _ _ _ _ hr
  have h1 : cfgParse text = .ok p := h1
  obtain ⟨kinds, lines, hl, ⟨l, rest, hb, hrest, rfl⟩ | ⟨name, kinds', lines', k, v, l, rest, hsec, hl', hnone, hset, hrest, rfl⟩⟩ := h
  · rw [join_lines _ (by simp) (by
      intro x hx
      rcases List.mem_append.mp hx with hx | hx
      · exact lines_newline hl x hx
      · rcases List.mem_cons.mp hx with rfl | hx
        · obtain ⟨_, _, _, _, _, _, _, _, _, _, _, _, h, _⟩ := hb; exact h
        · exact hrest x hx), cfgLoop_lines hl, cfgLoop_bad l hb] at h1
    cases h1
  · rw [join_lines _ (by simp) (by
      intro x hx
      simp only [List.mem_append, List.mem_cons] at hx
      rcases hx with (hx | rfl | hx) | rfl | hx
      · exact lines_newline hl x hx
      · have := hsec.2.2
        simp [this]
      · exact lines_newline hl' x hx
      · exact configLine_newline hset
      · exact hrest x hx), List.append_assoc, cfgLoop_lines hl, List.cons_append] at h1
    obtain ⟨pp, c, hpp, hdot⟩ := cfgLoop_section name hsec [] (lines' ++ l :: rest)
    rw [hpp, cfgLoop_none hl' hnone, cfgLoop_line hset] at h1
    dsimp only at h1
    cases hx : cfgLoop (c :: pp) rest with
    | error e => rw [hx] at h1; cases h1
    | ok ps =>
      rw [hx] at h1
      cases h1
      have := h2 (String.ofList (c :: pp ++ k.toList), [v]) (by simp)
      refine configNames_dot _ this ?_
      rw [String.toList_ofList]
      exact List.mem_append_left _ hdot

theorem paths_unique (f : String → Option String) (ss ps ps' : List String) (h : List.Forall₂ (fun s p => f s = some p) ss ps)
    (h' : List.Forall₂ (fun s p => f s = some p) ss ps') : ps = ps' := by
  induction h generalizing ps' with
  | nil => cases h'; rfl
  | cons ha _ ih =>
    cases h' with
    | cons hb hr =>
      rw [ha] at hb
      cases hb
      rw [ih _ hr]

/-- **C108, values.** The configuration of a run: every option (the constituent width apart, whose default is the nucleon width) has the value given on the command line, else that of the first
config file that sets it, else its default, where the command line is read as documented and the files are in the documented syntax. -/
theorem C108_values (L : Lib F) (env : OsEnv) (ce : CacheEnv) (fs : FS F) (items : List Item) (words : List (List String)) (hw : List.Forall₂ Spelled items words)
    (cmd : List ParsedOption) (hm : meaning items = some cmd) (paths : List String)
    (hpaths : List.Forall₂ (fun s p => L.toPath s = some p) (givenIn "config-file" cmd).flatten paths)
    (files : List (List (String × String))) (hfiles : List.Forall₂ (fun path f => IsConfigFile f (configText ce fs (env.resolve path))) paths files)
    (vm : VarMap F) (h : configure (boostLib L) env ce fs words.flatten = .ok (.run vm)) :
    (∀ f ∈ files, ∀ s ∈ f, s.1 ∈ configFileOptions) ∧
    (∀ d ∈ configOpts, d.name ≠ "constit-width" → Takes (boostLib L) d (cmd :: files.map asParsed) (vm.vals d.name)) ∧
    (∀ ms, firstMention "constit-width" (cmd :: files.map asParsed) = some ms →
      ∃ v, Means (boostLib L) .double ms v ∧ vm.vals "constit-width" = some ⟨v, false⟩) ∧
    (firstMention "constit-width" (cmd :: files.map asParsed) = none → ∃ w, vm.dbl "nucleon-width" = .ok w ∧ vm.dbl "constit-width" = .ok w) := by
  obtain ⟨cmd', paths', files', q1, q2, q3, q4, q5, q6⟩ := C56_precedence (boostLib L) env ce fs words.flatten vm h
  have p := (C107_spellings F items words hw []).1
  rw [hm] at p
  have q1 : cliParse F words.flatten = .ok cmd' := q1
  rw [p] at q1
  cases q1
  have hpp : paths' = paths := paths_unique L.toPath _ _ _ q2 hpaths
  subst hpp
  have hff : files' = files.map asParsed ∧ ∀ f ∈ files, ∀ s ∈ f, s.1 ∈ configFileOptions := by
    unfold ConfigFiles at q3
    clear hpaths q2 h p q4 q5 q6
    induction hfiles generalizing files' with
    | nil => cases q3; exact ⟨rfl, by simp⟩
    | @cons path f paths files ha _ ih =>
      cases q3 with
      | cons hb hr =>
        obtain ⟨i1, i2⟩ := ih _ hr
        have hb1 : cfgParse (configText ce fs (env.resolve path)) = .ok _ := hb.2.1
        rw [C108_syntax f _ ha] at hb1
        cases hb1
        refine ⟨by rw [List.map_cons, i1], fun g hg s hs => ?_⟩
        rcases List.mem_cons.mp hg with rfl | hg
        · exact hb.2.2 (s.1, [s.2]) (List.mem_map.mpr ⟨s, hs, rfl⟩)
        · exact i2 g hg s hs
  obtain ⟨rfl, hff⟩ := hff
  exact ⟨hff, q4, q5, q6⟩

variable {E D : Type} [NumFmt F] [Toms748 F] [Rng F E D]

omit [NumFmt F] [Toms748 F] in
/-- **C108, broken files.** A run never starts if one of its config files has a line that is neither empty, comment, setting nor section header, or a setting below a section header (trento's
options have no sections): no event is generated, and no output is opened. -/
theorem C108_broken (L : Lib F) (env : OsEnv) (ce : CacheEnv) (fs : FS F) (args : List String) (cmd : List ParsedOption) (hp : cliParse F args = .ok cmd)
    (s path : String) (hs : s ∈ (givenIn "config-file" cmd).flatten) (hpath : L.toPath s = some path) (hb : BrokenFile (configText ce fs (env.resolve path)))
    (vm : VarMap F) : configure (boostLib L) env ce fs args ≠ .ok (.run vm) := by
  intro hc
  obtain ⟨cmd', paths, files, q1, q2, q3, -, -, -⟩ := C56_precedence (boostLib L) env ce fs args vm hc
  have q1 : cliParse F args = .ok cmd' := q1
  rw [hp] at q1
  cases q1
  have hmem : ∀ (ss ps : List String), List.Forall₂ (fun s p => (boostLib L).toPath s = some p) ss ps → s ∈ ss → path ∈ ps := by
    intro ss ps hf
    induction hf with
    | nil => intro h; cases h
    | cons hab _ ih =>
      intro h
      rcases List.mem_cons.1 h with rfl | h
      · have hab : L.toPath s = some _ := hab
        rw [hpath] at hab; cases hab; exact List.mem_cons_self
      · exact List.mem_cons_of_mem _ (ih h)
  have hm := hmem _ _ q2 hs
  unfold ConfigFiles at q3
  clear q2 hc hmem
  induction q3 with
  | nil => cases hm
  | @cons p f ps fs' hab _ ih =>
    rcases List.mem_cons.1 hm with rfl | hm
    · obtain ⟨k1, k2, k3⟩ := hab
      refine readConfig_broken L _ hb f ?_
      unfold readConfig
      rw [k2]
      have : f.all (fun o => (configOpts (F := F)).any fun d => d.name == o.1) = true := by
        rw [List.all_eq_true]
        intro o ho
        have h3 := k3 o ho
        have hn : (configOpts (F := F)).map (·.name) = configFileOptions := rfl
        rw [← hn] at h3
        obtain ⟨d, hd, he⟩ := List.mem_map.mp h3
        exact List.any_eq_true.mpr ⟨d, hd, by simpa using he⟩
      simp only [this, if_true]
    · exact ih hm

end

end Trento
