import Verif.Lemmas.CmdLineLoop
import Verif.Lemmas.StoreOrder
import Mathlib.Logic.Relation

/-! # The command line (C107)

The parser is the model of Boost.Program_options in `Verif/Model/CmdLine.lean`; the documented spellings and their meaning are in `Verif/Spec/CommandLine.lean`. -/

namespace Trento
open Spec
set_option linter.unusedSectionVars false

section
variable (F : Type) [Arith F]

theorem spelled_named {items : List Item} {words : List (List String)} (h : List.Forall₂ Spelled items words) :
    ∀ o v, (Item.flag o ∈ items ∨ Item.setting o v ∈ items) → o ∈ documentedOptions := by
  induction h with
  | nil => intro o v h; rcases h with h | h <;> cases h
  | cons h1 _ ih =>
    intro o v hm
    simp only [List.mem_cons] at hm
    rcases hm with (rfl | hm) | (rfl | hm)
    · cases h1 <;> assumption
    · exact ih o v (.inl hm)
    · cases h1 <;> assumption
    · exact ih o v (.inr hm)

theorem name_ne {o : DocOption} (ho : o ∈ documentedOptions) : o.name ≠ "" := fun h =>
  (docTable_name_ok _ (toCli_mem ho)).2.1 (by rw [show (toCli o).long = o.name from rfl, h]; rfl)

theorem loop_terminator (fuel : Nat) (rest : List Tok) : cliLoop docTable (fuel + 1) (['-', '-'] :: rest) = .ok (rest.map fun t => ⟨[], [t]⟩) := by
  have hf : ∀ ts : List Tok, finishAll docTable (ts.map fun t => ⟨[], [t]⟩) [] = .ok (ts.map fun t => ⟨[], [t]⟩, []) := by
    intro ts
    induction ts with
    | nil => rfl
    | cons t ts ih =>
      cases ts with
      | nil => simp [finishAll, finishOption]
      | cons t' ts =>
        simp only [List.map_cons] at ih ⊢
        rw [finishAll]
        simp only [finishOption, if_true, ih]
  have hs : styleParse docTable ['-', '-'] rest = .ok (some (rest.map fun t => ⟨[], [t]⟩, [])) := rfl
  rw [cliLoop, hs]
  dsimp only
  rw [hf]
  simp [cliLoop]

/-- **C107, spellings.** Every command line written in the documented ways — long options in full or abbreviated, with the value apart or after `=`, letters with the value apart or attached, and
projectiles and number of events, in any order — is read as what it means: each option under its name with its value, the arguments in order as projectile, projectile and number of events.
A fourth argument is an error.  After the word `--` everything is an argument. -/
theorem C107_spellings (items : List Item) (words : List (List String)) (h : List.Forall₂ Spelled items words) (rest : List String) :
    (cliParse F words.flatten = match meaning items with
      | some ps => .ok ps
      | none => .error (.throw .poError "too many positional options have been specified on the command line")) ∧
    (cliParse F (words.flatten ++ "--" :: rest) = match meaning (items ++ rest.map Item.argument) with
      | some ps => .ok ps
      | none => .error (.throw .poError "too many positional options have been specified on the command line")) := by
  have hlen := spelled_length items words h
  have hn := spelled_named h
  constructor
  · unfold cliParse
    rw [cliOpts_eq]
    have h1 := loop_items items words h (words.flatten.length - items.length) []
    rw [List.append_nil, show items.length + (words.flatten.length - items.length) = words.flatten.length by omega, cliLoop] at h1
    rw [h1]
    simp only [prependAll, List.append_nil]
    exact namePositional_items _ _ fun o v hm => name_ne (hn o v hm)
  · unfold cliParse
    rw [cliOpts_eq]
    have h1 := loop_items items words h (words.flatten.length - items.length + rest.length + 1) (['-', '-'] :: rest.map String.toList)
    rw [show items.length + (words.flatten.length - items.length + rest.length + 1) = words.flatten.length + (rest.length + 1) by omega, loop_terminator] at h1
    have h2 : (words.flatten ++ "--" :: rest).map String.toList = words.flatten.map String.toList ++ ['-', '-'] :: rest.map String.toList := by simp
    rw [h2, List.length_append, List.length_cons, h1]
    simp only [prependAll]
    have h3 : items.map rawOf ++ (rest.map String.toList).map (fun t => (⟨[], [t]⟩ : RawOpt)) = (items ++ rest.map Item.argument).map rawOf := by
      rw [List.map_append, List.map_map, List.map_map]
      rfl
    rw [h3]
    refine namePositional_items _ _ fun o v hm => name_ne (hn o v ?_)
    simp only [List.mem_append, List.mem_map] at hm
    rcases hm with (hm | ⟨_, _, hm⟩) | (hm | ⟨_, _, hm⟩)
    · exact .inl hm
    · cases hm
    · exact .inr hm
    · cases hm

/-- **C107, groups.** A letter without value may be joined with what would be the next word: `-qo FILE` is `-q -o FILE`. -/
theorem C107_groups (items : List Item) (words : List (List String)) (h : List.Forall₂ Spelled items words) (o : DocOption) (ho : o ∈ documentedOptions)
    (hv : o.value = false) (c : Char) (hc : o.letter = some c) (a : Char) (ha : a ≠ '-') (s : List Char) (rest : List String) :
    cliParse F (words.flatten ++ String.ofList ('-' :: c :: a :: s) :: rest) =
      cliParse F (words.flatten ++ String.ofList ['-', c] :: String.ofList ('-' :: a :: s) :: rest) := by
  have hlen := spelled_length items words h
  unfold cliParse
  rw [cliOpts_eq]
  simp only [List.map_append, List.map_cons, String.toList_ofList]
  set R := rest.map String.toList with hR
  have e1 := loop_items items words h (words.flatten.length - items.length + (rest.length + 1)) (('-' :: c :: a :: s) :: R)
  have e2 := loop_items items words h (words.flatten.length - items.length + (rest.length + 2)) (['-', c] :: ('-' :: a :: s) :: R)
  rw [show items.length + (words.flatten.length - items.length + (rest.length + 1)) = words.flatten.length + (rest.length + 1) by omega] at e1
  rw [show items.length + (words.flatten.length - items.length + (rest.length + 2)) = words.flatten.length + (rest.length + 1 + 1) by omega] at e2
  rw [List.length_append, List.length_cons, e1, List.length_append, List.length_cons, List.length_cons, e2]
  set N := words.flatten.length - items.length + rest.length with hN
  have key : cliLoop docTable (words.flatten.length - items.length + (rest.length + 1)) (('-' :: c :: a :: s) :: R) =
      cliLoop docTable (words.flatten.length - items.length + (rest.length + 2)) (['-', c] :: ('-' :: a :: s) :: R) := by
    rw [show words.flatten.length - items.length + (rest.length + 1) = N + 1 by omega, show words.flatten.length - items.length + (rest.length + 2) = N + 1 + 1 by omega]
    have hcd := docTable_letter _ (toCli_mem ho) c hc
    rw [loop_step (N + 1) ['-', c] _ _ _ _ (style_short c [] hcd _) (finish_flag hv _ (by simp) (findOpt_letter ho hc) _)]
    rw [cliLoop, style_short c (a :: s) hcd, cliLoop, style_short a s ha]
    dsimp only
    have hg : shortGroup docTable c (a :: s) = ⟨['-', c], []⟩ :: shortGroup docTable a s := by
      rw [shortGroup, isSwitch_letter ho hc, hv]; rfl
    have hne : ∃ r rs, shortGroup docTable a s = r :: rs := by
      cases s with
      | nil => exact ⟨_, _, rfl⟩
      | cons b s => rw [shortGroup]; split <;> exact ⟨_, _, rfl⟩
    obtain ⟨r, rs, hrs⟩ := hne
    have hfin : finishAll docTable (shortGroup docTable c (a :: s)) R = match finishAll docTable (shortGroup docTable a s) R with
        | .error e => .error e
        | .ok (rs, others) => .ok (⟨o.name.toList, []⟩ :: rs, others) := by
      have hf1 := finish_flag hv ['-', c] (by simp) (findOpt_letter ho hc) []
      rw [finishAll] at hf1
      rw [hg, hrs, finishAll]
      cases hx : finishOption docTable ⟨['-', c], []⟩ [] with
      | error e => rw [hx] at hf1; cases hf1
      | ok p =>
        obtain ⟨p1, p2⟩ := p
        rw [hx] at hf1
        simp only [Except.ok.injEq, Prod.mk.injEq, List.cons.injEq, and_true] at hf1
        dsimp only
        rw [hf1.1]
        cases finishAll docTable (r :: rs) R with
        | error e => rfl
        | ok q => rfl
    rw [hfin]
    cases hq : finishAll docTable (shortGroup docTable a s) R with
    | error e => rfl
    | ok q =>
      obtain ⟨q1, q2⟩ := q
      dsimp only
      have hl : q2.length ≤ R.length := finishAll_shrinks _ _ _ _ _ hq
      have hRl : R.length = rest.length := by rw [hR, List.length_map]
      cases cliLoop docTable N q2 with
      | error e => rfl
      | ok ps => rfl
  rw [key]

/-- **C107, results.** Whatever the command line: if it is read, every option in the result is a documented one, with exactly one value if it takes a value and none otherwise. -/
theorem C107_results (args : List String) (ps : List ParsedOption) (h : cliParse F args = .ok ps) :
    ∀ p ∈ ps, ∃ o ∈ documentedOptions, p.1 = o.name ∧ p.2.length = if o.value then 1 else 0 := by
  unfold cliParse at h
  rw [cliOpts_eq] at h
  cases hl : cliLoop docTable args.length (args.map String.toList) with
  | error e => rw [hl] at h; cases h
  | ok rs =>
    rw [hl] at h
    have hr := loop_rawOk _ _ _ hl
    clear hl
    have hnames : ∀ n ∈ positionalNames, ∃ o ∈ documentedOptions, n = o.name ∧ o.value = true := by decide
    revert hnames h
    generalize positionalNames = names
    intro h hnames
    dsimp only at h
    induction rs generalizing names ps with
    | nil => rw [namePositional.eq_def] at h; cases h; simp
    | cons r rs ih =>
      have hr' := fun x hx => hr x (List.mem_cons_of_mem r hx)
      rw [namePositional.eq_def] at h
      dsimp only at h
      split at h
      · rename_i hk
        have hone : r.vals.length = 1 := by
          rcases hr r (by simp) with h1 | ⟨o, ho, h1, -⟩
          · exact h1.2
          · exfalso
            exact (docTable_name_ok o ho).2.1 (by rw [← h1]; exact hk)
        cases names with
        | nil => cases h
        | cons n names =>
          dsimp only at h
          cases hx : namePositional names rs with
          | error e => rw [hx] at h; cases h
          | ok ps' =>
            rw [hx] at h; cases h
            intro p hp
            rcases List.mem_cons.mp hp with rfl | hp
            · obtain ⟨o, ho, h1, h2⟩ := hnames n (by simp)
              exact ⟨o, ho, h1, by rw [h2, List.length_map, hone]; rfl⟩
            · exact ih ps' hr' names hx (fun n hn => hnames n (by simp [hn])) p hp
      · rename_i hk
        cases hx : namePositional names rs with
        | error e => rw [hx] at h; cases h
        | ok ps' =>
          rw [hx] at h; cases h
          intro p hp
          rcases List.mem_cons.mp hp with rfl | hp
          · rcases hr r (by simp) with h1 | ⟨o, ho, h1, h2⟩
            · exact absurd h1.1 hk
            · obtain ⟨o', ho', rfl⟩ := List.mem_map.mp ho
              exact ⟨o', ho', by rw [h1]; exact String.ofList_toList, by rw [List.length_map]; exact h2⟩
          · exact ih ps' hr' names hx hnames p hp

end

/-! ## Mistakes -/

/-- Words that make a command line wrong, whatever comes before and (except for a missing value) after. -/
inductive Spec.Mistake : List String → Prop
  /-- `--outptu`, or an abbreviation several options share, such as `--nu` -/
  | unknown (s : String) (rest : List String) (h0 : s ≠ "") (h1 : s.toList.head? ≠ some '-') (h2 : '=' ∉ s.toList) (h3 : ∀ o ∈ documentedOptions, ¬ NameFor o s) :
      Mistake (("--" ++ s) :: rest)
  /-- `--outptu=FILE` -/
  | unknownJoined (s v : String) (rest : List String) (h0 : s ≠ "") (h1 : s.toList.head? ≠ some '-') (h2 : '=' ∉ s.toList)
      (h3 : ∀ o ∈ documentedOptions, ¬ NameFor o s) : Mistake (("--" ++ s ++ "=" ++ v) :: rest)
  /-- `-z`, `-5`, `-zFILE` -/
  | unknownLetter (c : Char) (s : List Char) (rest : List String) (h0 : c ≠ '-') (h1 : ∀ o ∈ documentedOptions, o.letter ≠ some c) :
      Mistake (String.ofList ('-' :: c :: s) :: rest)
  /-- `--output=` -/
  | emptyValue (s : String) (rest : List String) (h0 : s ≠ "") (h1 : '=' ∉ s.toList) : Mistake (("--" ++ s ++ "=" ++ "") :: rest)
  /-- `--quiet=true` -/
  | valueForFlag (o : DocOption) (s v : String) (rest : List String) (ho : o ∈ documentedOptions) (hv : o.value = false) (hs : NameFor o s) (h0 : v ≠ "") :
      Mistake (("--" ++ s ++ "=" ++ v) :: rest)
  /-- `--output` as the last word -/
  | missingLong (o : DocOption) (s : String) (ho : o ∈ documentedOptions) (hv : o.value = true) (hs : NameFor o s) : Mistake ["--" ++ s]
  /-- `-o` as the last word -/
  | missingShort (o : DocOption) (c : Char) (ho : o ∈ documentedOptions) (hv : o.value = true) (hc : o.letter = some c) : Mistake [String.ofList ['-', c]]
  /-- `--output -q` -/
  | optionForValue (o o' : DocOption) (s : String) (c : Char) (rest : List String) (ho : o ∈ documentedOptions) (hv : o.value = true) (hs : NameFor o s)
      (ho' : o' ∈ documentedOptions) (hc : o'.letter = some c) : Mistake (("--" ++ s) :: String.ofList ['-', c] :: rest)

theorem findOpt_unknown (s : String) (h0 : s ≠ "") (h1 : s.toList.head? ≠ some '-') (h3 : ∀ o ∈ documentedOptions, ¬ NameFor o s) (r : Option CliOpt)
    (h : findOpt docTable s.toList = .ok r) : r = none := by
  unfold findOpt at h
  have hn : docTable.filter (·.isNamed s.toList) = [] := by
    rw [List.filter_eq_nil_iff]
    intro x hx hp
    obtain ⟨o, ho, rfl⟩ := List.mem_map.mp hx
    unfold CliOpt.isNamed at hp
    rw [Bool.or_eq_true] at hp
    rcases hp with hp | hp
    · rw [beq_iff_eq] at hp
      exact h3 o ho (.inl (String.toList_inj.mp hp.symm))
    · cases hsx : (toCli o).short with
      | none => rw [hsx] at hp; cases hp
      | some c =>
        simp only [hsx, beq_iff_eq] at hp
        rw [← hp] at h1
        exact h1 rfl
  rw [hn] at h
  dsimp only at h
  split at h
  · cases h; rfl
  · rename_i x hx
    exfalso
    have hmem : x ∈ docTable.filter (·.startsWith s.toList) := by rw [hx]; simp
    obtain ⟨hm, hp⟩ := List.mem_filter.mp hmem
    obtain ⟨o, ho, rfl⟩ := List.mem_map.mp hm
    refine h3 o ho (.inr ⟨h0, List.isPrefixOf_iff_prefix.mp hp, fun o' ho' hp' => ?_⟩)
    have : toCli o' ∈ docTable.filter (·.startsWith s.toList) := List.mem_filter.mpr ⟨toCli_mem ho', List.isPrefixOf_iff_prefix.mpr hp'⟩
    rw [hx] at this
    have := List.mem_singleton.mp this
    unfold toCli at this
    obtain ⟨a, b, c⟩ := o
    obtain ⟨a', b', c'⟩ := o'
    simpa using this
  · cases h

theorem finish_none (r : RawOpt) (others : List Tok) (hk : r.key ≠ []) (h : ∀ o, findOpt docTable r.key = .ok o → o = none) (q : RawOpt × List Tok) :
    finishOption docTable r others ≠ .ok q := by
  intro hf
  unfold finishOption at hf
  rw [if_neg hk] at hf
  cases hx : findOpt docTable r.key with
  | error e => rw [hx] at hf; cases hf
  | ok o =>
    rw [hx, h o hx] at hf
    cases hf

theorem finishAll_none (r : RawOpt) (rs : List RawOpt) (others : List Tok) (h : ∀ others q, finishOption docTable r others ≠ .ok q) (q : List RawOpt × List Tok) :
    finishAll docTable (r :: rs) others ≠ .ok q := by
  intro hf
  cases rs with
  | nil =>
    rw [finishAll] at hf
    cases hx : finishOption docTable r others with
    | error e => rw [hx] at hf; cases hf
    | ok p => exact h _ _ hx
  | cons r' rs =>
    rw [finishAll] at hf
    cases hx : finishOption docTable r [] with
    | error e => rw [hx] at hf; cases hf
    | ok p => exact h _ _ hx

theorem loop_bad (n : Nat) (tok : Tok) (rest rest' : List Tok) (rs : List RawOpt) (hs : styleParse docTable tok rest = .ok (some (rs, rest')))
    (hf : ∀ q, finishAll docTable rs rest' ≠ .ok q) (x : List RawOpt) : cliLoop docTable n (tok :: rest) ≠ .ok x := by
  intro hl
  cases n with
  | zero => rw [cliLoop] at hl; cases hl
  | succ n =>
    rw [cliLoop, hs] at hl
    dsimp only at hl
    cases hx : finishAll docTable rs rest' with
    | error e => rw [hx] at hl; cases hl
    | ok q => exact hf q hx

theorem findOpt_noLetter (c : Char) (h : ∀ o ∈ documentedOptions, o.letter ≠ some c) (r : Option CliOpt) (hr : findOpt docTable ['-', c] = .ok r) : r = none := by
  unfold findOpt at hr
  have hn : docTable.filter (·.isNamed ['-', c]) = [] := by
    rw [List.filter_eq_nil_iff]
    intro x hx hp
    obtain ⟨o, ho, rfl⟩ := List.mem_map.mp hx
    unfold CliOpt.isNamed at hp
    rw [Bool.or_eq_true] at hp
    rcases hp with hp | hp
    · rw [beq_iff_eq] at hp
      exact (docTable_name_ok _ hx).1 (by rw [hp]; rfl)
    · cases hsx : (toCli o).short with
      | none => rw [hsx] at hp; cases hp
      | some c' =>
        simp only [hsx, beq_iff_eq, List.cons.injEq, and_true, true_and] at hp
        exact h o ho (hp ▸ hsx)
  have hs : docTable.filter (·.startsWith ['-', c]) = [] := by
    rw [List.filter_eq_nil_iff]
    intro x hx hp
    obtain ⟨t, ht⟩ := List.isPrefixOf_iff_prefix.mp hp
    exact (docTable_name_ok _ hx).1 (by rw [← ht]; rfl)
  rw [hn, hs] at hr
  cases hr
  rfl

theorem finish_missing {o : DocOption} (hv : o.value = true) (key : Tok) (hk : key ≠ []) (hf : findOpt docTable key = .ok (some (toCli o))) (q : List RawOpt × List Tok) :
    finishAll docTable [⟨key, []⟩] [] ≠ .ok q := by
  have ha : (toCli o).arg = true := hv
  rw [finishAll, finishOption]
  simp only [if_neg hk, hf, ha]
  simp

/-- The parser stops at a mistake. -/
theorem loop_mistake (bad : List String) (h : Mistake bad) (n : Nat) (x : List RawOpt) : cliLoop docTable n (bad.map String.toList) ≠ .ok x := by
  cases h with
  | unknown s rest h0 h1 h2 h3 =>
    rw [List.map_cons, toList_long]
    refine loop_bad n _ _ _ _ (style_long _ (toList_ne_nil h0) h2 _) (finishAll_none _ _ _ ?_) x
    exact fun others q => finish_none _ _ (toList_ne_nil h0) (findOpt_unknown s h0 h1 h3) q
  | unknownJoined s v rest h0 h1 h2 h3 =>
    rw [List.map_cons, toList_joined]
    by_cases hv : v = ""
    · subst hv
      have hp : styleParse docTable ('-' :: '-' :: (s.toList ++ '=' :: "".toList)) (rest.map String.toList) =
          .error (.throw .poError "the argument for option should follow immediately after the equal sign") := by
        obtain ⟨c, cs, hc⟩ := List.exists_cons_of_ne_nil (toList_ne_nil h0)
        have hd := dropWhile_ne_eq s.toList [] h2
        rw [styleParse]
        rw [hc, List.cons_append] at hd ⊢
        rw [parseLong, if_pos (by simp)]
        rw [show ("" : String).toList = [] from rfl, hd]
        rfl
      intro hl
      cases n with
      | zero => rw [cliLoop] at hl; cases hl
      | succ n => rw [cliLoop, hp] at hl; cases hl
    · refine loop_bad n _ _ _ _ (style_joined _ _ (toList_ne_nil h0) h2 (toList_ne_nil hv) _) (finishAll_none _ _ _ ?_) x
      exact fun others q => finish_none _ _ (toList_ne_nil h0) (findOpt_unknown s h0 h1 h3) q
  | unknownLetter c s rest h0 h1 =>
    rw [List.map_cons, String.toList_ofList]
    refine loop_bad n _ _ _ _ (style_short c s h0 _) ?_ x
    have hne : isSwitch docTable c = false := by
      unfold isSwitch findExact
      have : docTable.find? (·.isNamed ['-', c]) = none := by
        rw [List.find?_eq_none]
        intro x hx hp
        obtain ⟨o, ho, rfl⟩ := List.mem_map.mp hx
        unfold CliOpt.isNamed at hp
        rw [Bool.or_eq_true] at hp
        rcases hp with hp | hp
        · rw [beq_iff_eq] at hp
          exact (docTable_name_ok _ hx).1 (by rw [hp]; rfl)
        · cases hsx : (toCli o).short with
          | none => rw [hsx] at hp; cases hp
          | some c' =>
            simp only [hsx, beq_iff_eq, List.cons.injEq, and_true, true_and] at hp
            exact h1 o ho (hp ▸ hsx)
      rw [this]
    cases s with
    | nil =>
      rw [shortGroup]
      exact finishAll_none _ _ _ fun others q => finish_none _ _ (by simp) (findOpt_noLetter c h1) q
    | cons a s =>
      rw [shortGroup, hne]
      exact finishAll_none _ _ _ fun others q => finish_none _ _ (by simp) (findOpt_noLetter c h1) q
  | emptyValue s rest h0 h1 =>
    rw [List.map_cons, toList_joined]
    have hp : styleParse docTable ('-' :: '-' :: (s.toList ++ '=' :: "".toList)) (rest.map String.toList) =
        .error (.throw .poError "the argument for option should follow immediately after the equal sign") := by
      obtain ⟨c, cs, hc⟩ := List.exists_cons_of_ne_nil (toList_ne_nil h0)
      have hd := dropWhile_ne_eq s.toList [] h1
      rw [styleParse]
      rw [hc, List.cons_append] at hd ⊢
      rw [parseLong, if_pos (by simp)]
      rw [show ("" : String).toList = [] from rfl, hd]
      rfl
    intro hl
    cases n with
    | zero => rw [cliLoop] at hl; cases hl
    | succ n => rw [cliLoop, hp] at hl; cases hl
  | valueForFlag o s v rest ho hv hs h0 =>
    rw [List.map_cons, toList_joined]
    refine loop_bad n _ _ _ _ (style_joined _ _ (nameFor_ne ho hs) (nameFor_eq ho hs) (toList_ne_nil h0) _) ?_ x
    intro q hq
    have ha : (toCli o).arg = false := hv
    rw [finishAll, finishOption] at hq
    simp only [if_neg (nameFor_ne ho hs), findOpt_name ho hs, ha] at hq
    simp at hq
  | missingLong o s ho hv hs =>
    simp only [List.map_cons, List.map_nil, toList_long]
    exact loop_bad n _ _ _ _ (style_long _ (nameFor_ne ho hs) (nameFor_eq ho hs) _) (finish_missing hv _ (nameFor_ne ho hs) (findOpt_name ho hs)) x
  | missingShort o c ho hv hc =>
    simp only [List.map_cons, List.map_nil, String.toList_ofList]
    exact loop_bad n _ _ _ _ (style_short c [] (docTable_letter _ (toCli_mem ho) c hc) _) (finish_missing hv _ (by simp) (findOpt_letter ho hc)) x
  | optionForValue o o' s c rest ho hv hs ho' hc =>
    simp only [List.map_cons, toList_long, String.toList_ofList]
    refine loop_bad n _ _ _ _ (style_long _ (nameFor_ne ho hs) (nameFor_eq ho hs) _) ?_ x
    intro q hq
    have ha : (toCli o).arg = true := hv
    have hg : grabValues docTable 1 [] (['-', c] :: rest.map String.toList) = .error (.throw .poError "the required argument for option is missing") := by
      have hcd := docTable_letter _ (toCli_mem ho') c hc
      have hlk : looksLikeOption docTable ['-', c] = .ok true := by
        unfold looksLikeOption
        rw [parseLong_letter c [] hcd]
        simp only [parseShort, if_neg hcd, Option.isSome_some]
      rw [grabValues, hlk]
      dsimp only
      rw [findOpt_letter ho' hc]
    rw [finishAll, finishOption] at hq
    simp only [if_neg (nameFor_ne ho hs), findOpt_name ho hs, ha] at hq
    simp [hg] at hq

theorem cliParse_mistake (F : Type) [Arith F] (items : List Item) (words : List (List String)) (h : List.Forall₂ Spelled items words) (bad : List String) (hb : Mistake bad) :
    ∃ e, cliParse F (words.flatten ++ bad) = .error e ∧ IsPoError e := by
  cases hc : cliParse F (words.flatten ++ bad) with
  | error e => exact ⟨e, rfl, cliParse_error F _ _ hc⟩
  | ok ps =>
    exfalso
    unfold cliParse at hc
    rw [cliOpts_eq, List.map_append, List.length_append] at hc
    have hlen := spelled_length items words h
    have h1 := loop_items items words h (words.flatten.length - items.length + bad.length) (bad.map String.toList)
    rw [show items.length + (words.flatten.length - items.length + bad.length) = words.flatten.length + bad.length by omega] at h1
    rw [h1] at hc
    cases hl : cliLoop docTable (words.flatten.length - items.length + bad.length) (bad.map String.toList) with
    | error e => rw [hl] at hc; cases hc
    | ok x => exact loop_mistake bad hb _ _ hl

section
variable {F : Type} [Arith F] {E D : Type} [NumFmt F] [Toms748 F] [Rng F E D]
  (L : Lib F) (env : OsEnv) (ce : CacheEnv) (fu : Fuel) (h5view : FS F → String → H5View F) (ev0 : (n : Nat) → Event F n) (W : World F) (r : Rand E D)

/-- **C107, mistakes.** An unknown or ambiguous option name, an unknown letter (also a negative number in the place of an argument), an empty value after `=`, a value for an option that takes none
or a missing value ends the program with status 1 and a message, before anything is done; so does a fourth argument. -/
theorem C107_mistakes (items : List Item) (words : List (List String)) (h : List.Forall₂ Spelled items words) (bad : List String)
    (hb : Mistake bad ∨ (bad = [] ∧ meaning items = none)) :
    ∃ err, err ≠ [] ∧ mainProg (boostLib L) env ce fu h5view ev0 (words.flatten ++ bad) W r = (.status 1, W, err) := by
  have he : ∃ e, cliParse F (words.flatten ++ bad) = .error e ∧ IsPoError e := by
    rcases hb with hb | ⟨rfl, hm⟩
    · exact cliParse_mistake F items words h bad hb
    · have := (C107_spellings F items words h []).1
      rw [hm] at this
      rw [List.append_nil]
      exact ⟨_, this, _, rfl⟩
  obtain ⟨e, he, hpo⟩ := he
  obtain ⟨h1, h2⟩ := handle_po e hpo
  refine ⟨_, h2, ?_⟩
  unfold mainProg configure
  have : (boostLib L).parseArgs (words.flatten ++ bad) = .error e := he
  simp only [this, h1]

/-! ## Order -/

/-- Two neighbouring items may be exchanged: options with different names, or an option and an argument unless the option is one of the arguments' names. -/
inductive Spec.Independent : Item → Item → Prop
  | flags (o o' : DocOption) (h : o.name ≠ o'.name) : Independent (.flag o) (.flag o')
  | flagSetting (o o' : DocOption) (v : String) (h : o.name ≠ o'.name) : Independent (.flag o) (.setting o' v)
  | settingFlag (o o' : DocOption) (v : String) (h : o.name ≠ o'.name) : Independent (.setting o v) (.flag o')
  | settings (o o' : DocOption) (v v' : String) (h : o.name ≠ o'.name) : Independent (.setting o v) (.setting o' v')
  | flagArg (o : DocOption) (s : String) (h1 : o.name ≠ "projectile") (h2 : o.name ≠ "number-events") : Independent (.flag o) (.argument s)
  | argFlag (o : DocOption) (s : String) (h1 : o.name ≠ "projectile") (h2 : o.name ≠ "number-events") : Independent (.argument s) (.flag o)
  | settingArg (o : DocOption) (v s : String) (h1 : o.name ≠ "projectile") (h2 : o.name ≠ "number-events") : Independent (.setting o v) (.argument s)
  | argSetting (o : DocOption) (v s : String) (h1 : o.name ≠ "projectile") (h2 : o.name ≠ "number-events") : Independent (.argument s) (.setting o v)

/-- One exchange of neighbours. -/
def Spec.Exchange (items items' : List Item) : Prop := ∃ a x y b, items = a ++ x :: y :: b ∧ items' = a ++ y :: x :: b ∧ Independent x y

/-- The same things said in another order: finitely many exchanges. -/
def Spec.Reordered : List Item → List Item → Prop := Relation.ReflTransGen Exchange

theorem givenIn_swap (k : String) (p q : ParsedOption) (h : p.1 ≠ q.1) (ps : List ParsedOption) : givenIn k (p :: q :: ps) = givenIn k (q :: p :: ps) := by
  obtain ⟨p1, p2⟩ := p
  obtain ⟨q1, q2⟩ := q
  simp only [givenIn_cons]
  by_cases h1 : p1 = k
  · by_cases h2 : q1 = k
    · exact absurd (h1.trans h2.symm) h
    · simp [h1, h2]
  · by_cases h2 : q1 = k <;> simp [h1, h2]

/-- Both meaningless, or meanings saying the same about every option. -/
def SameMeaning : Option (List ParsedOption) → Option (List ParsedOption) → Prop
  | none, none => True
  | some p, some q => ∀ k, givenIn k p = givenIn k q
  | _, _ => False

theorem SameMeaning.cons {a b : Option (List ParsedOption)} (h : SameMeaning a b) (p : ParsedOption) : SameMeaning (a.map (p :: ·)) (b.map (p :: ·)) := by
  cases a with
  | none => cases b with
    | none => trivial
    | some b => exact h.elim
  | some a => cases b with
    | none => exact h.elim
    | some b =>
      intro k
      obtain ⟨p1, p2⟩ := p
      simp only [givenIn_cons, h k]

theorem SameMeaning.two (a : Option (List ParsedOption)) (p q : ParsedOption) (h : p.1 ≠ q.1) :
    SameMeaning ((a.map (q :: ·)).map (p :: ·)) ((a.map (p :: ·)).map (q :: ·)) := by
  cases a with
  | none => trivial
  | some a => exact fun k => givenIn_swap k p q h a

theorem SameMeaning.trans {a b c : Option (List ParsedOption)} (h : SameMeaning a b) (h' : SameMeaning b c) : SameMeaning a c := by
  cases a <;> cases b <;> cases c <;> first | trivial | exact h.elim | exact h'.elim | exact fun k => (h k).trans (h' k)

theorem SameMeaning.refl (a : Option (List ParsedOption)) : SameMeaning a a := by
  cases a with
  | none => trivial
  | some a => exact fun k => rfl

theorem meaning_exchange (names : List String) (hn : ∀ n ∈ names, n = "projectile" ∨ n = "number-events") (a b : List Item) (x y : Item) (h : Independent x y) :
    SameMeaning (meaningWith names (a ++ x :: y :: b)) (meaningWith names (a ++ y :: x :: b)) := by
  induction a generalizing names with
  | nil =>
    simp only [List.nil_append]
    have hne : ∀ {o : DocOption} {n : String}, n ∈ names → o.name ≠ "projectile" → o.name ≠ "number-events" → o.name ≠ n := by
      rintro o n hm h1 h2 rfl
      rcases hn _ hm with h | h
      · exact h1 h
      · exact h2 h
    cases h with
    | flags o o' h => simp only [meaningWith]; exact .two _ _ _ h
    | flagSetting o o' v h => simp only [meaningWith]; exact .two _ _ _ h
    | settingFlag o o' v h => simp only [meaningWith]; exact .two _ _ _ h
    | settings o o' v v' h => simp only [meaningWith]; exact .two _ _ _ h
    | flagArg o s h1 h2 =>
      cases names with
      | nil => simp only [meaningWith]; trivial
      | cons n names => simp only [meaningWith]; exact .two _ _ _ (hne (by simp) h1 h2)
    | argFlag o s h1 h2 =>
      cases names with
      | nil => simp only [meaningWith]; trivial
      | cons n names => simp only [meaningWith]; exact .two _ _ _ (Ne.symm (hne (by simp) h1 h2))
    | settingArg o v s h1 h2 =>
      cases names with
      | nil => simp only [meaningWith]; trivial
      | cons n names => simp only [meaningWith]; exact .two _ _ _ (hne (by simp) h1 h2)
    | argSetting o v s h1 h2 =>
      cases names with
      | nil => simp only [meaningWith]; trivial
      | cons n names => simp only [meaningWith]; exact .two _ _ _ (Ne.symm (hne (by simp) h1 h2))
  | cons z a ih =>
    simp only [List.cons_append]
    cases z with
    | flag o => simp only [meaningWith]; exact (ih names hn).cons _
    | setting o v => simp only [meaningWith]; exact (ih names hn).cons _
    | argument s =>
      cases names with
      | nil => simp only [meaningWith]; trivial
      | cons n names => simp only [meaningWith]; exact (ih names fun m hm => hn m (by simp [hm])).cons _

theorem meaning_reordered (items items' : List Item) (h : Reordered items items') : SameMeaning (meaning items) (meaning items') := by
  induction h with
  | refl => exact .refl _
  | tail _ h2 ih =>
    obtain ⟨a, x, y, b, rfl, rfl, hi⟩ := h2
    exact ih.trans (meaning_exchange _ (by simp) a b x y hi)

/-- **C107, order.** "The remaining optional arguments may be given in any order, before or after the projectiles" (doc/usage.rst): command lines that say the same things in another order, in
whatever spelling, have the same effect — the same exit, output, files and messages —, or both are rejected with status 1 before anything is done. -/
theorem C107_order (items items' : List Item) (hr : Reordered items items') (words words' : List (List String)) (h : List.Forall₂ Spelled items words)
    (h' : List.Forall₂ Spelled items' words') :
    mainProg (boostLib L) env ce fu h5view ev0 words.flatten W r = mainProg (boostLib L) env ce fu h5view ev0 words'.flatten W r ∨
    ∃ err err', err ≠ [] ∧ err' ≠ [] ∧ mainProg (boostLib L) env ce fu h5view ev0 words.flatten W r = (.status 1, W, err) ∧
      mainProg (boostLib L) env ce fu h5view ev0 words'.flatten W r = (.status 1, W, err') := by
  have hm := meaning_reordered items items' hr
  have p := (C107_spellings F items words h []).1
  have p' := (C107_spellings F items' words' h' []).1
  cases h1 : meaning items with
  | none =>
    cases h2 : meaning items' with
    | none =>
      right
      obtain ⟨err, e1, e2⟩ := C107_mistakes L env ce fu h5view ev0 W r items words h [] (.inr ⟨rfl, h1⟩)
      obtain ⟨err', e1', e2'⟩ := C107_mistakes L env ce fu h5view ev0 W r items' words' h' [] (.inr ⟨rfl, h2⟩)
      rw [List.append_nil] at e2 e2'
      exact ⟨err, err', e1, e1', e2, e2'⟩
    | some ps => rw [h1, h2] at hm; exact hm.elim
  | some ps =>
    cases h2 : meaning items' with
    | none => rw [h1, h2] at hm; exact hm.elim
    | some ps' =>
      rw [h1, h2] at hm
      rw [h1] at p
      rw [h2] at p'
      exact mainProg_order (boostLib L) env ce fu h5view ev0 _ _ ps ps' p p' hm W r

end

end Trento
