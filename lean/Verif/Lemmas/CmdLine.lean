import Verif.Model.CmdLine
import Verif.Spec.CommandLine
import Mathlib.Data.List.Infix
import Mathlib.Tactic.Tauto

/-! # The command line parser on documented spellings -/

namespace Trento
open Spec

/-- A documented option as the parser sees it. -/
def toCli (o : DocOption) : CliOpt := ⟨o.name, o.letter, o.value⟩

/-- The parser's table is the documented one. -/
theorem cliOpts_eq (F : Type) [Arith F] : cliOpts F = documentedOptions.map toCli := rfl

abbrev docTable : List CliOpt := documentedOptions.map toCli

theorem docTable_nodup : docTable.Nodup := by decide

theorem docTable_long : ∀ o ∈ docTable, docTable.filter (·.isNamed o.long.toList) = [o] := by decide

theorem docTable_name_ok : ∀ o ∈ docTable, o.long.toList.head? ≠ some '-' ∧ o.long.toList ≠ [] ∧ '=' ∉ o.long.toList := by decide

theorem docTable_short (o : CliOpt) (ho : o ∈ docTable) (c : Char) (hc : o.short = some c) : docTable.filter (·.isNamed ['-', c]) = [o] := by
  have : ∀ o ∈ docTable, (match o.short with | some c => decide (docTable.filter (·.isNamed ['-', c]) = [o]) | none => true) = true := by decide
  have := this o ho
  rw [hc] at this
  simpa using this

theorem docTable_letter (o : CliOpt) (ho : o ∈ docTable) (c : Char) (hc : o.short = some c) : c ≠ '-' := by
  have : ∀ o ∈ docTable, o.short ≠ some '-' := by decide
  rintro rfl
  exact this o ho hc

theorem filter_single {α : Type} [DecidableEq α] (l : List α) (hl : l.Nodup) (a : α) (ha : a ∈ l) (p : α → Bool) (h : ∀ x ∈ l, p x = true ↔ x = a) :
    l.filter p = [a] := by
  induction l with
  | nil => cases ha
  | cons b l ih =>
    rw [List.nodup_cons] at hl
    by_cases hb : b = a
    · subst hb
      rw [List.filter_cons_of_pos ((h b (by simp)).mpr rfl)]
      congr 1
      rw [List.filter_eq_nil_iff]
      intro x hx hp
      exact hl.1 ((h x (by simp [hx])).mp hp ▸ hx)
    · rw [List.filter_cons_of_neg (fun hp => hb ((h b (by simp)).mp hp))]
      exact ih hl.2 ((List.mem_cons.mp ha).resolve_left (Ne.symm hb)) fun x hx => h x (by simp [hx])

theorem toCli_mem {o : DocOption} (ho : o ∈ documentedOptions) : toCli o ∈ docTable := List.mem_map_of_mem ho

theorem nameFor_prefix {o : DocOption} {s : String} (h : NameFor o s) : s.toList <+: o.name.toList := by
  rcases h with rfl | h
  · exact List.prefix_rfl
  · exact h.2.1

theorem nameFor_ne {o : DocOption} (ho : o ∈ documentedOptions) {s : String} (h : NameFor o s) : s.toList ≠ [] := by
  rcases h with rfl | h
  · exact (docTable_name_ok _ (toCli_mem ho)).2.1
  · intro he
    exact h.1 (String.toList_eq_nil_iff.mp he)

theorem nameFor_eq {o : DocOption} (ho : o ∈ documentedOptions) {s : String} (h : NameFor o s) : '=' ∉ s.toList := fun he =>
  (docTable_name_ok _ (toCli_mem ho)).2.2 ((nameFor_prefix h).subset he)

/-- The option meant by a name is found. -/
theorem findOpt_name {o : DocOption} (ho : o ∈ documentedOptions) {s : String} (h : NameFor o s) : findOpt docTable s.toList = .ok (some (toCli o)) := by
  have hm := toCli_mem ho
  unfold findOpt
  rcases h with rfl | ⟨h1, h2, h3⟩
  · have := docTable_long _ hm
    rw [show (toCli o).long = o.name from rfl] at this
    rw [this]
  · have hst : ∀ x ∈ docTable, x.startsWith s.toList = true ↔ x = toCli o := by
      intro x hx
      obtain ⟨o', ho', rfl⟩ := List.mem_map.mp hx
      constructor
      · intro hp
        rw [h3 o' ho' (List.isPrefixOf_iff_prefix.mp hp)]
      · intro he
        rw [he]
        exact List.isPrefixOf_iff_prefix.mpr h2
    have hnm : ∀ x ∈ docTable, x.isNamed s.toList = true → x = toCli o := by
      intro x hx hn
      unfold CliOpt.isNamed at hn
      rw [Bool.or_eq_true] at hn
      rcases hn with hn | hn
      · rw [← hst x hx]
        unfold CliOpt.startsWith
        rw [beq_iff_eq] at hn
        rw [hn]
        exact List.isPrefixOf_iff_prefix.mpr List.prefix_rfl
      · exfalso
        cases hsx : x.short with
        | none => rw [hsx] at hn; cases hn
        | some c =>
          simp only [hsx, beq_iff_eq] at hn
          rw [← hn] at h2
          obtain ⟨t, ht⟩ := h2
          apply (docTable_name_ok _ hm).1
          rw [show (toCli o).long = o.name from rfl, ← ht]
          rfl
    rw [filter_single _ docTable_nodup _ hm _ hst]
    by_cases hn : (toCli o).isNamed s.toList = true
    · rw [filter_single _ docTable_nodup _ hm _ fun x hx => ⟨hnm x hx, fun he => he ▸ hn⟩]
    · have : docTable.filter (·.isNamed s.toList) = [] := by
        rw [List.filter_eq_nil_iff]
        intro x hx hp
        exact hn (hnm x hx hp ▸ hp)
      rw [this]

/-- The option meant by a letter is found. -/
theorem findOpt_letter {o : DocOption} (ho : o ∈ documentedOptions) {c : Char} (h : o.letter = some c) :
    findOpt docTable ['-', c] = .ok (some (toCli o)) := by
  unfold findOpt
  rw [docTable_short _ (toCli_mem ho) c h]

theorem isSwitch_letter {o : DocOption} (ho : o ∈ documentedOptions) {c : Char} (h : o.letter = some c) : isSwitch docTable c = !o.value := by
  unfold isSwitch findExact
  have h1 := docTable_short _ (toCli_mem ho) c h
  rw [← List.head?_filter, h1]
  rfl

theorem parseLong_plain (s : Tok) (hs : s ≠ []) (he : '=' ∉ s) : parseLong ('-' :: '-' :: s) = .ok (some ⟨s, []⟩) := by
  obtain ⟨c, cs, rfl⟩ := List.exists_cons_of_ne_nil hs
  rw [parseLong, if_neg he]

theorem takeWhile_ne_eq (s v : Tok) (he : '=' ∉ s) : (s ++ '=' :: v).takeWhile (· ≠ '=') = s := by
  induction s with
  | nil => simp
  | cons a s ih =>
    have ha : a ≠ '=' := fun h => he (by simp [h])
    rw [List.cons_append, List.takeWhile_cons_of_pos (by simpa using ha), ih fun h => he (by simp [h])]

theorem dropWhile_ne_eq (s v : Tok) (he : '=' ∉ s) : (s ++ '=' :: v).dropWhile (· ≠ '=') = '=' :: v := by
  induction s with
  | nil => simp
  | cons a s ih =>
    have ha : a ≠ '=' := fun h => he (by simp [h])
    rw [List.cons_append, List.dropWhile_cons_of_pos (by simpa using ha), ih fun h => he (by simp [h])]

theorem parseLong_joined (s v : Tok) (hs : s ≠ []) (he : '=' ∉ s) (hv : v ≠ []) : parseLong ('-' :: '-' :: (s ++ '=' :: v)) = .ok (some ⟨s, [v]⟩) := by
  have h1 := takeWhile_ne_eq s v he
  have h2 := dropWhile_ne_eq s v he
  obtain ⟨c, cs, rfl⟩ := List.exists_cons_of_ne_nil hs
  rw [List.cons_append] at h1 h2
  rw [List.cons_append, parseLong, if_pos (by simp)]
  simp only [h1, h2, List.drop_succ_cons, List.drop_zero, if_neg hv]

theorem parseLong_letter (c : Char) (cs : Tok) (hc : c ≠ '-') : parseLong ('-' :: c :: cs) = .ok none := by
  unfold parseLong
  split
  · rename_i h
    cases h
    exact absurd rfl hc
  · rfl

theorem parseLong_word (v : Tok) (hv : ¬ ['-', '-'] <+: v) : parseLong v = .ok none := by
  unfold parseLong
  split
  · rename_i c cs
    exact absurd ⟨c :: cs, rfl⟩ hv
  · rfl

/-- A word that is no option is taken as a value. -/
theorem grab_word (v : String) (hn : NotAnOption v) (rest : List Tok) : grabValues docTable 1 [] (v.toList :: rest) = .ok ([v.toList], rest) := by
  obtain ⟨h1, h2⟩ := hn
  rw [grabValues]
  have hl : looksLikeOption docTable v.toList = .ok (parseShort docTable v.toList).isSome := by
    unfold looksLikeOption
    rw [parseLong_word _ h1]
  rw [hl]
  cases hps : parseShort docTable v.toList with
  | none => simp [grabValues]
  | some rs =>
    simp only [Option.isSome_some]
    have hf : findOpt docTable v.toList = .ok none := by
      have hhead : v.toList.head? = some '-' := by
        unfold parseShort at hps
        split at hps
        · rename_i c cs heq
          rw [heq]; rfl
        · cases hps
      unfold findOpt
      have e1 : docTable.filter (·.isNamed v.toList) = [] := by
        rw [List.filter_eq_nil_iff]
        intro x hx hn
        obtain ⟨o', ho', rfl⟩ := List.mem_map.mp hx
        unfold CliOpt.isNamed at hn
        rw [Bool.or_eq_true] at hn
        rcases hn with hn | hn
        · rw [beq_iff_eq] at hn
          exact (docTable_name_ok _ hx).1 (by rw [hn]; exact hhead)
        · cases hsx : (toCli o').short with
          | none => rw [hsx] at hn; cases hn
          | some c =>
            simp only [hsx, beq_iff_eq] at hn
            exact h2 o' ho' c hsx hn.symm
      have e2 : docTable.filter (·.startsWith v.toList) = [] := by
        rw [List.filter_eq_nil_iff]
        intro x hx hn
        obtain ⟨t, ht⟩ := List.isPrefixOf_iff_prefix.mp hn
        apply (docTable_name_ok _ hx).1
        rw [← ht]
        cases hvv : v.toList with
        | nil => rw [hvv] at hhead; cases hhead
        | cons a as => rw [hvv] at hhead; exact hhead
      rw [e1, e2]
    rw [hf]
    simp [grabValues]

/-- What an item is to the parser. -/
def rawOf : Item → RawOpt
  | .flag o => ⟨o.name.toList, []⟩
  | .setting o v => ⟨o.name.toList, [v.toList]⟩
  | .argument s => ⟨[], [s.toList]⟩

/-- One more option in front. -/
def prepend (r : RawOpt) : Res (List RawOpt) → Res (List RawOpt)
  | .error e => .error e
  | .ok rs => .ok (r :: rs)

theorem finish_flag {o : DocOption} (hv : o.value = false) (key : Tok) (hk : key ≠ []) (hf : findOpt docTable key = .ok (some (toCli o))) (rest : List Tok) :
    finishAll docTable [⟨key, []⟩] rest = .ok ([⟨o.name.toList, []⟩], rest) := by
  have ha : (toCli o).arg = false := hv
  rw [finishAll, finishOption]
  simp only [if_neg hk, hf, ha]
  simp [grabValues, toCli]

theorem finish_joined {o : DocOption} (hv : o.value = true) (key v : Tok) (hk : key ≠ []) (hf : findOpt docTable key = .ok (some (toCli o))) (rest : List Tok) :
    finishAll docTable [⟨key, [v]⟩] rest = .ok ([⟨o.name.toList, [v]⟩], rest) := by
  have ha : (toCli o).arg = true := hv
  rw [finishAll, finishOption]
  simp only [if_neg hk, hf, ha]
  simp [grabValues, toCli]

theorem finish_apart {o : DocOption} (hv : o.value = true) (key : Tok) (v : String) (hk : key ≠ []) (hf : findOpt docTable key = .ok (some (toCli o)))
    (hn : NotAnOption v) (rest : List Tok) : finishAll docTable [⟨key, []⟩] (v.toList :: rest) = .ok ([⟨o.name.toList, [v.toList]⟩], rest) := by
  have ha : (toCli o).arg = true := hv
  rw [finishAll, finishOption]
  simp only [if_neg hk, hf, ha, if_true, List.length_nil, List.length_cons, Nat.sub_zero, grab_word v hn rest]
  simp [toCli]

theorem loop_step (fuel : Nat) (tok : Tok) (rest rest' : List Tok) (r0 r : RawOpt)
    (hs : styleParse docTable tok rest = .ok (some ([r0], rest))) (hf : finishAll docTable [r0] rest = .ok ([r], rest')) :
    cliLoop docTable (fuel + 1) (tok :: rest) = prepend r (cliLoop docTable fuel rest') := by
  rw [cliLoop, hs]
  dsimp only
  rw [hf]
  dsimp only
  cases cliLoop docTable fuel rest' <;> rfl

theorem style_long (s : Tok) (hs : s ≠ []) (he : '=' ∉ s) (rest : List Tok) : styleParse docTable ('-' :: '-' :: s) rest = .ok (some ([⟨s, []⟩], rest)) := by
  rw [styleParse, parseLong_plain s hs he]

theorem style_joined (s v : Tok) (hs : s ≠ []) (he : '=' ∉ s) (hv : v ≠ []) (rest : List Tok) :
    styleParse docTable ('-' :: '-' :: (s ++ '=' :: v)) rest = .ok (some ([⟨s, [v]⟩], rest)) := by
  rw [styleParse, parseLong_joined s v hs he hv]

theorem style_short (c : Char) (cs : Tok) (hc : c ≠ '-') (rest : List Tok) :
    styleParse docTable ('-' :: c :: cs) rest = .ok (some (shortGroup docTable c cs, rest)) := by
  rw [styleParse, parseLong_letter c cs hc]
  simp only [parseShort, if_neg hc]

theorem toList_long (s : String) : ("--" ++ s).toList = '-' :: '-' :: s.toList := by
  rw [String.toList_append]; rfl

theorem toList_joined (s v : String) : ("--" ++ s ++ "=" ++ v).toList = '-' :: '-' :: (s.toList ++ '=' :: v.toList) := by
  rw [String.toList_append, String.toList_append, toList_long]
  simp

theorem toList_ne_nil {v : String} (h : v ≠ "") : v.toList ≠ [] := fun he => h (String.toList_eq_nil_iff.mp he)

theorem style_argument (s : String) (hs : s.toList.head? ≠ some '-' ∨ s = "-") (rest : List Tok) : styleParse docTable s.toList rest = .ok none := by
  have h : parseLong s.toList = .ok none ∧ parseShort docTable s.toList = none ∧ s.toList ≠ ['-', '-'] := by
    rcases hs with hs | rfl
    · refine ⟨parseLong_word _ ?_, ?_, ?_⟩
      · rintro ⟨t, ht⟩
        rw [← ht] at hs
        exact hs rfl
      · unfold parseShort
        split
        · rename_i heq
          rw [heq] at hs
          exact absurd rfl hs
        · rfl
      · intro he
        rw [he] at hs
        exact hs rfl
    · exact ⟨rfl, rfl, by decide⟩
  rw [styleParse, h.1]
  simp only [h.2.1, if_neg h.2.2]

/-- The parser reads one item. -/
theorem loop_item (it : Item) (words : List String) (h : Spelled it words) (fuel : Nat) (rest : List Tok) :
    cliLoop docTable (fuel + 1) (words.map String.toList ++ rest) = prepend (rawOf it) (cliLoop docTable fuel rest) := by
  cases h with
  | longFlag o s ho hv hs =>
    simp only [List.map_cons, List.map_nil, List.cons_append, List.nil_append, toList_long]
    exact loop_step _ _ _ _ _ _ (style_long _ (nameFor_ne ho hs) (nameFor_eq ho hs) _) (finish_flag hv _ (nameFor_ne ho hs) (findOpt_name ho hs) _)
  | shortFlag o c ho hv hc =>
    simp only [List.map_cons, List.map_nil, List.cons_append, List.nil_append, String.toList_ofList]
    exact loop_step _ _ _ _ _ _ (style_short c [] (docTable_letter _ (toCli_mem ho) c hc) _) (finish_flag hv _ (by simp) (findOpt_letter ho hc) _)
  | longApart o s v ho hv hs hn =>
    simp only [List.map_cons, List.map_nil, List.cons_append, List.nil_append, toList_long]
    exact loop_step _ _ _ _ _ _ (style_long _ (nameFor_ne ho hs) (nameFor_eq ho hs) _) (finish_apart hv _ v (nameFor_ne ho hs) (findOpt_name ho hs) hn _)
  | longJoined o s v ho hv hs hn =>
    simp only [List.map_cons, List.map_nil, List.cons_append, List.nil_append, toList_joined]
    exact loop_step _ _ _ _ _ _ (style_joined _ _ (nameFor_ne ho hs) (nameFor_eq ho hs) (toList_ne_nil hn) _)
      (finish_joined hv _ _ (nameFor_ne ho hs) (findOpt_name ho hs) _)
  | shortApart o c v ho hv hc hn =>
    simp only [List.map_cons, List.map_nil, List.cons_append, List.nil_append, String.toList_ofList]
    exact loop_step _ _ _ _ _ _ (style_short c [] (docTable_letter _ (toCli_mem ho) c hc) _) (finish_apart hv _ v (by simp) (findOpt_letter ho hc) hn _)
  | shortJoined o c v ho hv hc hn =>
    simp only [List.map_cons, List.map_nil, List.cons_append, List.nil_append, String.toList_append, String.toList_ofList]
    have hg : shortGroup docTable c v.toList = [⟨['-', c], [v.toList]⟩] := by
      obtain ⟨a, as, ha⟩ := List.exists_cons_of_ne_nil (toList_ne_nil hn)
      rw [ha, shortGroup, isSwitch_letter ho hc, hv]
      rfl
    have := style_short c v.toList (docTable_letter _ (toCli_mem ho) c hc) rest
    rw [hg] at this
    exact loop_step _ _ _ _ _ _ this (finish_joined hv _ _ (by simp) (findOpt_letter ho hc) _)
  | argument s hs =>
    simp only [List.map_cons, List.map_nil, List.cons_append, List.nil_append]
    rw [cliLoop, style_argument s hs]
    dsimp only
    cases cliLoop docTable fuel rest <;> rfl

/-- Several options in front. -/
def prependAll (rs : List RawOpt) : Res (List RawOpt) → Res (List RawOpt)
  | .error e => .error e
  | .ok rs' => .ok (rs ++ rs')

/-- The parser reads items. -/
theorem loop_items (items : List Item) (words : List (List String)) (h : List.Forall₂ Spelled items words) (fuel : Nat) (rest : List Tok) :
    cliLoop docTable (items.length + fuel) (words.flatten.map String.toList ++ rest) = prependAll (items.map rawOf) (cliLoop docTable fuel rest) := by
  induction h with
  | nil => cases h : cliLoop docTable fuel rest <;> simp [prependAll, h]
  | @cons it w items words h1 _ ih =>
    rw [List.flatten_cons, List.map_append, List.append_assoc, List.length_cons, show items.length + 1 + fuel = items.length + fuel + 1 by omega,
      loop_item it w h1, ih]
    cases cliLoop docTable fuel rest <;> rfl

theorem spelled_pos {it : Item} {w : List String} (h : Spelled it w) : 1 ≤ w.length := by
  cases h <;> simp

theorem spelled_length (items : List Item) (words : List (List String)) (h : List.Forall₂ Spelled items words) : items.length ≤ words.flatten.length := by
  induction h with
  | nil => simp
  | cons h1 _ ih =>
    have := spelled_pos h1
    rw [List.flatten_cons, List.length_append, List.length_cons]
    omega

/-- Naming positional arguments. -/
theorem namePositional_items (names : List String) (items : List Item) (hi : ∀ o v, (Item.flag o ∈ items ∨ Item.setting o v ∈ items) → o.name ≠ "") :
    namePositional names (items.map rawOf) =
      match meaningWith names items with
      | some ps => .ok ps
      | none => .error (.throw .poError "too many positional options have been specified on the command line") := by
  induction items generalizing names with
  | nil => cases names <;> rfl
  | cons it items ih =>
    have hi' : ∀ o v, (Item.flag o ∈ items ∨ Item.setting o v ∈ items) → o.name ≠ "" := fun o v h => hi o v (by simp only [List.mem_cons]; tauto)
    rw [List.map_cons]
    cases it with
    | flag o =>
      have hne : o.name.toList ≠ [] := toList_ne_nil (hi o "" (by simp))
      rw [meaningWith, namePositional.eq_def]
      simp only [rawOf, if_neg hne, ih names hi', String.ofList_toList]
      cases meaningWith names items <;> rfl
    | setting o v =>
      have hne : o.name.toList ≠ [] := toList_ne_nil (hi o v (by simp))
      rw [meaningWith, namePositional.eq_def]
      simp only [rawOf, if_neg hne, ih names hi', String.ofList_toList]
      cases meaningWith names items <;> simp
    | argument s =>
      rw [namePositional.eq_def]
      cases names with
      | nil => rw [meaningWith]; simp [rawOf]
      | cons n names =>
        rw [meaningWith]
        simp only [rawOf, if_true, ih names hi']
        cases meaningWith names items <;> simp

end Trento
