import Verif.Model.Program
import Mathlib.Data.List.Forall2
import Mathlib.Tactic.Tauto

/-! # `po::store`: which source an option takes its value from -/

namespace Trento
variable {F : Type}

namespace Spec

/-- The values given for an option in one source (the command line or one config file): the tokens of each mention, in order. -/
def givenIn (k : String) (src : List ParsedOption) : List (List String) := (src.filter fun o => o.1 = k).map (·.2)

/-- The mentions of an option in the first source that mentions it. -/
def firstMention (k : String) (srcs : List (List ParsedOption)) : Option (List (List String)) :=
  (srcs.map (givenIn k)).find? fun ms => !ms.isEmpty

/-- What mentions of an option in one source mean: a list option collects all tokens; another option must be mentioned once,
and its text must be readable as a value of its type. -/
def Means (L : Lib F) (ty : OptType) (ms : List (List String)) (v : OptVal F) : Prop :=
  match ty with
  | .strings => v = .strs ms.flatten
  | .paths => ∃ l, List.Forall₂ (fun s p => L.toPath s = some p) ms.flatten l ∧ v = .strs l
  | ty => ∃ toks, ms = [toks] ∧ scalarVal L ty toks = .ok v

/-- An option takes the value given in the first source that mentions it, otherwise its default. -/
def Takes (L : Lib F) (d : OptDesc F) (srcs : List (List ParsedOption)) (e : Option (VarEntry F)) : Prop :=
  match firstMention d.name srcs with
  | none => e = d.default.map (⟨·, true⟩)
  | some ms => ∃ v, Means L d.type ms v ∧ e = some ⟨v, false⟩

end Spec

open Spec

/-- The explicitly given value of an entry. -/
def explicitVal : Option (VarEntry F) → Option (OptVal F)
  | some e => if e.defaulted then none else some e.val
  | none => none

/-- Parsing several mentions one after the other. -/
def foldParse (L : Lib F) (ty : OptType) : Option (OptVal F) → List (List String) → Res (Option (OptVal F))
  | old, [] => .ok old
  | old, t :: ts =>
    match parseVal L ty old t with
    | .error e => .error e
    | .ok v => foldParse L ty (some v) ts

theorem givenIn_cons (k k' : String) (toks : List String) (src : List ParsedOption) :
    givenIn k ((k', toks) :: src) = if k' = k then toks :: givenIn k src else givenIn k src := by
  unfold givenIn
  by_cases h : k' = k <;> simp [h]

theorem mapRes_ok {α β : Type} (f : α → Res β) (l : List α) (bs : List β) (h : mapRes f l = .ok bs) :
    List.Forall₂ (fun a b => f a = .ok b) l bs := by
  induction l generalizing bs with
  | nil => cases h; exact .nil
  | cons a l ih =>
    rw [mapRes] at h
    cases ha : f a with
    | error e => simp only [ha] at h; cases h
    | ok b =>
      simp only [ha] at h
      cases hl : mapRes f l with
      | error e => simp only [hl] at h; cases h
      | ok bs' =>
        simp only [hl] at h
        cases h
        exact .cons ha (ih _ hl)

theorem orInvalid_ok {α : Type} (o : Option α) (x : α) (h : orInvalid o = .ok x) : o = some x := by
  cases o with
  | none => cases h
  | some y => cases h; rfl

theorem foldParse_scalar_some (L : Lib F) (ty : OptType) (h1 : ty ≠ .strings) (h2 : ty ≠ .paths) (v : OptVal F) (ms : List (List String))
    (r : Option (OptVal F)) (h : foldParse L ty (some v) ms = .ok r) : ms = [] ∧ r = some v := by
  cases ms with
  | nil => cases h; exact ⟨rfl, rfl⟩
  | cons t ts =>
    have hn : ¬ (ty = .strings ∨ ty = .paths) := by tauto
    rw [foldParse, parseVal, if_neg hn] at h
    cases h

theorem foldParse_strings (L : Lib F) (l : List String) (ms : List (List String)) :
    foldParse L .strings (some (.strs l)) ms = .ok (some (.strs (l ++ ms.flatten))) := by
  induction ms generalizing l with
  | nil => simp [foldParse]
  | cons t ts ih =>
    rw [foldParse, parseVal, if_pos (.inl rfl)]
    simp only [vectorVals]
    rw [ih]
    simp

theorem foldParse_paths (L : Lib F) (l : List String) (ms : List (List String)) (r : Option (OptVal F))
    (h : foldParse L .paths (some (.strs l)) ms = .ok r) :
    ∃ l', List.Forall₂ (fun s p => L.toPath s = some p) ms.flatten l' ∧ r = some (.strs (l ++ l')) := by
  induction ms generalizing l with
  | nil => cases h; exact ⟨[], .nil, by simp⟩
  | cons t ts ih =>
    rw [foldParse, parseVal, if_pos (.inr rfl)] at h
    simp only [vectorVals] at h
    cases hm : mapRes (fun s => orInvalid (L.toPath s)) t with
    | error e => simp only [hm] at h; cases h
    | ok new =>
      simp only [hm] at h
      obtain ⟨l', h1, h2⟩ := ih _ h
      refine ⟨new ++ l', ?_, by rw [h2, List.append_assoc]⟩
      have := (mapRes_ok _ _ _ hm).imp fun a b hab => orInvalid_ok _ _ hab
      rw [List.flatten_cons]
      exact List.rel_append this h1

/-- Several mentions in one source. -/
theorem foldParse_means (L : Lib F) (ty : OptType) (ms : List (List String)) (hne : ms ≠ []) (r : Option (OptVal F))
    (h : foldParse L ty none ms = .ok r) : ∃ v, r = some v ∧ Means L ty ms v := by
  obtain ⟨t, ts, rfl⟩ := List.exists_cons_of_ne_nil hne
  have scalar : ∀ (h1 : ty ≠ .strings) (h2 : ty ≠ .paths), ∃ v, r = some v ∧ ∃ toks, t :: ts = [toks] ∧ scalarVal L ty toks = .ok v := by
    intro h1 h2
    have hn : ¬ (ty = .strings ∨ ty = .paths) := by tauto
    rw [foldParse, parseVal, if_neg hn] at h
    cases hs : scalarVal L ty t with
    | error e => simp only [hs] at h; cases h
    | ok v =>
      simp only [hs] at h
      obtain ⟨rfl, rfl⟩ := foldParse_scalar_some L ty h1 h2 v ts r h
      exact ⟨v, rfl, t, rfl, hs⟩
  cases ty with
  | strings =>
    rw [foldParse, parseVal, if_pos (.inl rfl)] at h
    simp only [vectorVals] at h
    rw [foldParse_strings] at h
    cases h
    exact ⟨_, rfl, by simp [Means]⟩
  | paths =>
    rw [foldParse, parseVal, if_pos (.inr rfl)] at h
    simp only [vectorVals] at h
    cases hm : mapRes (fun s => orInvalid (L.toPath s)) t with
    | error e => simp only [hm] at h; cases h
    | ok new =>
      simp only [hm] at h
      obtain ⟨l', h1, h2⟩ := foldParse_paths L _ _ _ h
      refine ⟨_, h2, new ++ l', ?_, rfl⟩
      have := (mapRes_ok _ _ _ hm).imp fun a b hab => orInvalid_ok _ _ hab
      rw [List.flatten_cons]
      exact List.rel_append this h1
  | none => exact scalar (by simp) (by simp)
  | switch => exact scalar (by simp) (by simp)
  | int => exact scalar (by simp) (by simp)
  | int64 => exact scalar (by simp) (by simp)
  | double => exact scalar (by simp) (by simp)
  | path => exact scalar (by simp) (by simp)

/-- The effect of the first part of `po::store` on one option. -/
theorem storeParsed_spec (L : Lib F) (desc : List (OptDesc F)) (parsed : List ParsedOption) (nf nf' : List String)
    (vm vm' : VarMap F) (h : storeParsed L desc parsed nf vm = .ok (vm', nf')) (k : String) :
    vm'.final = vm.final ∧
    (k ∈ vm.final → vm'.vals k = vm.vals k ∧ (k ∈ nf' ↔ k ∈ nf)) ∧
    (k ∉ vm.final → givenIn k parsed = [] → vm'.vals k = vm.vals k ∧ (k ∈ nf' ↔ k ∈ nf)) ∧
    (k ∉ vm.final → givenIn k parsed ≠ [] → k ∈ nf' ∧ ∃ d v, desc.find? (fun d => d.name = k) = some d ∧
      foldParse L d.type (explicitVal (vm.vals k)) (givenIn k parsed) = .ok (some v) ∧ vm'.vals k = some ⟨v, false⟩) := by
  induction parsed generalizing nf vm with
  | nil =>
    simp only [storeParsed, Except.ok.injEq, Prod.mk.injEq] at h
    obtain ⟨rfl, rfl⟩ := h
    exact ⟨rfl, fun _ => ⟨rfl, Iff.rfl⟩, fun _ _ => ⟨rfl, Iff.rfl⟩, fun _ hg => absurd rfl hg⟩
  | cons o rest ih =>
    obtain ⟨k', toks⟩ := o
    rw [storeParsed] at h
    by_cases hf : k' ∈ vm.final
    · rw [if_pos hf] at h
      obtain ⟨h1, h2, h3, h4⟩ := ih nf vm h
      have hg : k ∉ vm.final → givenIn k ((k', toks) :: rest) = givenIn k rest := by
        intro hk
        rw [givenIn_cons, if_neg]
        rintro rfl; exact hk hf
      refine ⟨h1, h2, fun hk hgk => h3 hk (by rw [← hg hk]; exact hgk), fun hk hgk => ?_⟩
      rw [hg hk] at hgk ⊢
      exact h4 hk hgk
    · rw [if_neg hf] at h
      cases hd : desc.find? (fun d => d.name = k') with
      | none => simp only [hd] at h; cases h
      | some d =>
        simp only [hd] at h
        change (match parseVal L d.type (explicitVal (vm.vals k')) toks with
          | .error e => (.error e : Res (VarMap F × List String))
          | .ok v => storeParsed L desc rest (k' :: nf) (vm.set k' ⟨v, false⟩)) = _ at h
        cases hp : parseVal L d.type (explicitVal (vm.vals k')) toks with
        | error e => simp only [hp] at h; cases h
        | ok v =>
          simp only [hp] at h
          obtain ⟨h1, h2, h3, h4⟩ := ih (k' :: nf) (vm.set k' ⟨v, false⟩) h
          have hfin : (vm.set k' ⟨v, false⟩).final = vm.final := rfl
          by_cases hkk : k' = k
          · subst hkk
            refine ⟨h1, fun hk => absurd hk hf, fun _ hg => ?_, fun _ _ => ?_⟩
            · rw [givenIn_cons, if_pos rfl] at hg; cases hg
            · rw [givenIn_cons, if_pos rfl]
              have key : ∀ ts, foldParse L d.type (explicitVal (vm.vals k')) (toks :: ts) = foldParse L d.type (some v) ts := by
                intro ts
                rw [foldParse, hp]
              have hself : (vm.set k' ⟨v, false⟩).vals k' = some ⟨v, false⟩ := if_pos rfl
              by_cases hg : givenIn k' rest = []
              · obtain ⟨e1, e2⟩ := h3 hf hg
                exact ⟨e2.mpr (by simp), d, v, hd, by rw [key, hg]; rfl, by rw [e1, hself]⟩
              · obtain ⟨e1, d', v', e2, e3, e4⟩ := h4 hf hg
                rw [hd] at e2
                cases e2
                rw [hself] at e3
                exact ⟨e1, d, v', hd, by rw [key]; exact e3, e4⟩
          · have hother : (vm.set k' ⟨v, false⟩).vals k = vm.vals k := if_neg (Ne.symm hkk)
            rw [givenIn_cons, if_neg hkk]
            rw [hother] at h2 h3 h4
            have hm : k ∈ k' :: nf ↔ k ∈ nf := by
              rw [List.mem_cons]
              exact ⟨fun h => h.resolve_left (Ne.symm hkk), .inr⟩
            rw [hm] at h2 h3
            exact ⟨h1, h2, h3, h4⟩

theorem storeDefaults_final (desc : List (OptDesc F)) (vm : VarMap F) : (storeDefaults desc vm).final = vm.final := by
  induction desc generalizing vm with
  | nil => rfl
  | cons d ds ih =>
    rw [storeDefaults]
    split <;> rw [ih]; rfl

theorem storeDefaults_some (desc : List (OptDesc F)) (vm : VarMap F) (k : String) (e : VarEntry F) (h : vm.vals k = some e) :
    (storeDefaults desc vm).vals k = some e := by
  induction desc generalizing vm with
  | nil => exact h
  | cons d ds ih =>
    rw [storeDefaults]
    split
    · rename_i h1 h2
      apply ih
      show (if k = d.name then _ else _) = _
      rw [if_neg]
      · exact h
      · rintro rfl; rw [h] at h1; cases h1
    · exact ih _ h

theorem storeDefaults_absent (desc : List (OptDesc F)) (vm : VarMap F) (k : String) (hk : ∀ d ∈ desc, d.name ≠ k) :
    (storeDefaults desc vm).vals k = vm.vals k := by
  induction desc generalizing vm with
  | nil => rfl
  | cons d ds ih =>
    rw [storeDefaults]
    split
    · rw [ih _ fun d hd => hk d (by simp [hd])]
      exact if_neg fun he => hk d (by simp) he.symm
    · exact ih _ fun d hd => hk d (by simp [hd])

theorem storeDefaults_none (desc : List (OptDesc F)) (hnd : (desc.map (·.name)).Nodup) (vm : VarMap F) (d : OptDesc F) (hd : d ∈ desc)
    (h : vm.vals d.name = none) : (storeDefaults desc vm).vals d.name = d.default.map (⟨·, true⟩) := by
  induction desc generalizing vm with
  | nil => cases hd
  | cons d' ds ih =>
    rw [List.map_cons, List.nodup_cons] at hnd
    rw [storeDefaults]
    rcases List.mem_cons.mp hd with rfl | hd
    · have hk : ∀ d' ∈ ds, d'.name ≠ d.name := fun d' hd' he => hnd.1 (by rw [← he]; exact List.mem_map_of_mem hd')
      split
      · rename_i v h1 h2
        rw [storeDefaults_absent _ _ _ hk, h2]
        exact if_pos rfl
      · rename_i hx
        rw [storeDefaults_absent _ _ _ hk, h]
        cases hdd : d.default with
        | none => rfl
        | some v => exact absurd hdd (hx v h)
    · have hne : d.name ≠ d'.name := fun he => hnd.1 (by rw [← he]; exact List.mem_map_of_mem hd)
      split
      · apply ih hnd.2 _ hd
        show (if d.name = d'.name then _ else _) = none
        rw [if_neg hne]; exact h
      · exact ih hnd.2 _ hd h

theorem find?_name (desc : List (OptDesc F)) (hnd : (desc.map (·.name)).Nodup) (d : OptDesc F) (hd : d ∈ desc) :
    desc.find? (fun d' => decide (d'.name = d.name)) = some d := by
  induction desc with
  | nil => cases hd
  | cons d' ds ih =>
    rw [List.map_cons, List.nodup_cons] at hnd
    rcases List.mem_cons.mp hd with rfl | hd
    · simp
    · have hne : d'.name ≠ d.name := fun he => hnd.1 (by rw [he]; exact List.mem_map_of_mem hd)
      rw [List.find?_cons_of_neg (by simpa using hne)]
      exact ih hnd.2 hd

theorem firstMention_nil (k : String) : firstMention k [] = none := rfl

theorem firstMention_concat (k : String) (srcs : List (List ParsedOption)) (src : List ParsedOption) :
    firstMention k (srcs ++ [src]) =
      match firstMention k srcs with
      | some ms => some ms
      | none => if givenIn k src = [] then none else some (givenIn k src) := by
  unfold firstMention
  rw [List.map_append, List.find?_append]
  cases h : (srcs.map (givenIn k)).find? fun ms => !ms.isEmpty with
  | some ms => rfl
  | none =>
    simp only [Option.none_or, List.map_cons, List.map_nil]
    cases hg : givenIn k src with
    | nil => simp
    | cons a as => simp

/-- The state of the map after storing the sources `srcs` (defaults of `desc` applied). -/
def Stored (L : Lib F) (desc : List (OptDesc F)) (srcs : List (List ParsedOption)) (vm : VarMap F) : Prop :=
  ∀ d ∈ desc, Takes L d srcs (vm.vals d.name) ∧ (d.name ∈ vm.final ↔ firstMention d.name srcs ≠ none)

/-- `po::store` of one more source. -/
theorem store_stored (L : Lib F) (desc : List (OptDesc F)) (hnd : (desc.map (·.name)).Nodup) (srcs : List (List ParsedOption))
    (src : List ParsedOption) (vm vm' : VarMap F) (h : store L desc src vm = .ok vm')
    (hs : (srcs = [] ∧ vm = VarMap.empty) ∨ Stored L desc srcs vm) : Stored L desc (srcs ++ [src]) vm' := by
  unfold store at h
  cases hp : storeParsed L desc src [] vm with
  | error e => simp only [hp] at h; cases h
  | ok r =>
    obtain ⟨vm1, nf⟩ := r
    simp only [hp, Except.ok.injEq] at h
    subst h
    intro d hd
    obtain ⟨h1, h2, h3, h4⟩ := storeParsed_spec L desc src [] nf vm vm1 hp d.name
    have hfind := find?_name desc hnd d hd
    have hfin : ∀ k, k ∈ (storeDefaults desc { vm1 with final := nf ++ vm1.final }).final ↔ k ∈ nf ∨ k ∈ vm.final := by
      intro k
      rw [storeDefaults_final, ← h1]
      exact List.mem_append
    rw [hfin]
    unfold Takes
    rw [firstMention_concat]
    -- facts about the old map
    have hold : (d.name ∈ vm.final ↔ firstMention d.name srcs ≠ none) ∧
        (firstMention d.name srcs = none → explicitVal (vm.vals d.name) = none ∧
          (vm.vals d.name = none ∨ vm.vals d.name = d.default.map (⟨·, true⟩))) ∧
        (∀ ms, firstMention d.name srcs = some ms → ∃ v, Means L d.type ms v ∧ vm.vals d.name = some ⟨v, false⟩) := by
      rcases hs with ⟨rfl, rfl⟩ | hs
      · refine ⟨by simp [VarMap.empty, firstMention_nil], fun _ => ⟨rfl, .inl rfl⟩, fun ms hms => ?_⟩
        rw [firstMention_nil] at hms; cases hms
      · obtain ⟨t1, t2⟩ := hs d hd
        unfold Takes at t1
        refine ⟨t2, fun hn => ?_, fun ms hms => ?_⟩
        · rw [hn] at t1
          refine ⟨?_, .inr t1⟩
          rw [t1]
          cases d.default with
          | none => rfl
          | some v => rfl
        · rw [hms] at t1; exact t1
    cases hm : firstMention d.name srcs with
    | some ms =>
      have hk : d.name ∈ vm.final := hold.1.mpr (by rw [hm]; simp)
      obtain ⟨v, hv1, hv2⟩ := hold.2.2 ms hm
      refine ⟨⟨v, hv1, ?_⟩, by simp [hk]⟩
      apply storeDefaults_some
      exact (h2 hk).1.trans hv2
    | none =>
      have hk : d.name ∉ vm.final := fun hk => hold.1.mp hk hm
      obtain ⟨o1, o2⟩ := hold.2.1 hm
      by_cases hg : givenIn d.name src = []
      · simp only [hg, if_true]
        obtain ⟨e1, e2⟩ := h3 hk hg
        refine ⟨?_, by simp [e2, hk]⟩
        rcases o2 with o2 | o2
        · exact storeDefaults_none desc hnd { vm1 with final := nf ++ vm1.final } d hd (e1.trans o2)
        · cases hdd : d.default with
          | none => rw [hdd] at o2; rw [storeDefaults_none desc hnd { vm1 with final := nf ++ vm1.final } d hd (e1.trans o2), hdd]
          | some v => rw [hdd] at o2; exact storeDefaults_some _ _ _ _ (e1.trans o2)
      · simp only [hg, if_false]
        obtain ⟨e1, d', v, e2, e3, e4⟩ := h4 hk hg
        rw [hfind] at e2
        cases e2
        rw [o1] at e3
        obtain ⟨v', hv, hmeans⟩ := foldParse_means L d.type _ hg _ e3
        cases hv
        exact ⟨⟨v, hmeans, storeDefaults_some _ _ _ _ e4⟩, by simp [e1]⟩

end Trento
