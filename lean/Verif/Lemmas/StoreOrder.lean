import Verif.Props.Exit

/-! # The configuration depends only on what is said about each option -/

namespace Trento
open Spec
variable {F : Type} [Arith F]
set_option linter.unusedSectionVars false

/-- Two maps with the same values and the same explicitly given options. -/
def SameMap (vm vm' : VarMap F) : Prop := vm.vals = vm'.vals ∧ ∀ k, k ∈ vm.final ↔ k ∈ vm'.final

/-- Both fail with the same error, or both succeed with related results. -/
def SameRes {α : Type} (R : α → α → Prop) : Res α → Res α → Prop
  | .error e, .error e' => e = e'
  | .ok a, .ok b => R a b
  | _, _ => False

theorem storeDefaults_same (desc : List (OptDesc F)) (vm vm' : VarMap F) (h : vm.vals = vm'.vals) :
    (storeDefaults desc vm).vals = (storeDefaults desc vm').vals := by
  induction desc generalizing vm vm' with
  | nil => exact h
  | cons d ds ih =>
    rw [storeDefaults, storeDefaults, h]
    split
    · exact ih _ _ (by unfold VarMap.set; dsimp only; rw [h])
    · exact ih _ _ h

theorem store_order (L : Lib F) (desc : List (OptDesc F)) (p p' : List ParsedOption) (hg : ∀ k, givenIn k p = givenIn k p') (vm r : VarMap F)
    (h : store L desc p vm = .ok r) : ∃ r', store L desc p' vm = .ok r' ∧ SameMap r r' := by
  unfold store at h
  cases hp : storeParsed L desc p [] vm with
  | error e => rw [hp] at h; cases h
  | ok q =>
    obtain ⟨vm1, nf⟩ := q
    rw [hp] at h
    cases h
    obtain ⟨⟨vm1', nf'⟩, hp'⟩ := storeParsed_ok L desc p' [] vm (by
      intro k hk hne
      obtain ⟨-, -, -, h4⟩ := storeParsed_spec L desc p [] nf vm vm1 hp k
      rw [← hg k] at hne ⊢
      obtain ⟨-, d, v, e1, e2, -⟩ := h4 hk hne
      exact ⟨d, _, e1, e2⟩)
    refine ⟨storeDefaults desc { vm1' with final := nf' ++ vm1'.final }, by unfold store; rw [hp'], ?_⟩
    have key : ∀ k, vm1.vals k = vm1'.vals k ∧ (k ∈ nf ↔ k ∈ nf') := by
      intro k
      obtain ⟨-, h2, h3, h4⟩ := storeParsed_spec L desc p [] nf vm vm1 hp k
      obtain ⟨-, h2', h3', h4'⟩ := storeParsed_spec L desc p' [] nf' vm vm1' hp' k
      by_cases hk : k ∈ vm.final
      · exact ⟨by rw [(h2 hk).1, (h2' hk).1], by rw [(h2 hk).2, (h2' hk).2]⟩
      · by_cases hne : givenIn k p = []
        · have a := h3 hk hne
          have b := h3' hk (by rw [← hg k]; exact hne)
          exact ⟨by rw [a.1, b.1], by rw [a.2, b.2]⟩
        · obtain ⟨a1, d, v, a2, a3, a4⟩ := h4 hk hne
          obtain ⟨b1, d', v', b2, b3, b4⟩ := h4' hk (by rw [← hg k]; exact hne)
          rw [a2] at b2
          cases b2
          rw [← hg k, a3] at b3
          cases b3
          exact ⟨by rw [a4, b4], fun _ => b1, fun _ => a1⟩
    have hfin : vm1.final = vm1'.final := by
      rw [(storeParsed_spec L desc p [] nf vm vm1 hp "").1, (storeParsed_spec L desc p' [] nf' vm vm1' hp' "").1]
    refine ⟨storeDefaults_same _ _ _ (funext fun k => (key k).1), fun k => ?_⟩
    rw [storeDefaults_final, storeDefaults_final]
    simp only [List.mem_append, (key k).2, hfin]

theorem set_same (vm vm' : VarMap F) (h : SameMap vm vm') (k : String) (e : VarEntry F) : SameMap (vm.set k e) (vm'.set k e) :=
  ⟨by unfold VarMap.set; dsimp only; rw [h.1], h.2⟩

theorem storeParsed_congr (L : Lib F) (desc : List (OptDesc F)) (p : List ParsedOption) (nf : List String) (vm vm' : VarMap F) (h : SameMap vm vm') :
    SameRes (fun a b => SameMap a.1 b.1 ∧ a.2 = b.2) (storeParsed L desc p nf vm) (storeParsed L desc p nf vm') := by
  induction p generalizing nf vm vm' with
  | nil => exact ⟨h, rfl⟩
  | cons o rest ih =>
    obtain ⟨k, toks⟩ := o
    rw [storeParsed, storeParsed]
    by_cases hk : k ∈ vm.final
    · rw [if_pos hk, if_pos ((h.2 k).mp hk)]
      exact ih _ _ _ h
    · rw [if_neg hk, if_neg fun hx => hk ((h.2 k).mpr hx)]
      cases hd : desc.find? (fun d => d.name = k) with
      | none => exact rfl
      | some d =>
        dsimp only
        rw [h.1]
        cases parseVal L d.type _ toks with
        | error e => exact rfl
        | ok v => exact ih _ _ _ (set_same _ _ h _ _)

theorem store_congr (L : Lib F) (desc : List (OptDesc F)) (p : List ParsedOption) (vm vm' : VarMap F) (h : SameMap vm vm') :
    SameRes SameMap (store L desc p vm) (store L desc p vm') := by
  unfold store
  have := storeParsed_congr L desc p [] vm vm' h
  cases h1 : storeParsed L desc p [] vm with
  | error e =>
    cases h2 : storeParsed L desc p [] vm' with
    | error e' => rw [h1, h2] at this; exact this
    | ok q => rw [h1, h2] at this; exact this.elim
  | ok q =>
    cases h2 : storeParsed L desc p [] vm' with
    | error e' => rw [h1, h2] at this; exact this.elim
    | ok q' =>
      rw [h1, h2] at this
      obtain ⟨⟨a, b⟩, c⟩ := this
      refine ⟨storeDefaults_same _ _ _ a, fun k => ?_⟩
      rw [storeDefaults_final, storeDefaults_final, List.mem_append, List.mem_append, b k, c]

theorem mergeConfigs_congr (L : Lib F) (env : OsEnv) (ce : CacheEnv) (fs : FS F) (paths : List String) (vm vm' : VarMap F) (h : SameMap vm vm') :
    SameRes SameMap (mergeConfigs L env ce fs paths vm) (mergeConfigs L env ce fs paths vm') := by
  induction paths generalizing vm vm' with
  | nil => exact h
  | cons path rest ih =>
    rw [mergeConfigs, mergeConfigs]
    split
    · exact rfl
    · cases readConfig L configOpts (configText ce fs (env.resolve path)) with
      | error e => exact rfl
      | ok parsed =>
        dsimp only
        have := store_congr L configOpts parsed vm vm' h
        cases h1 : store L configOpts parsed vm with
        | error e =>
          cases h2 : store L configOpts parsed vm' with
          | error e' => rw [h1, h2] at this; exact this
          | ok q => rw [h1, h2] at this; exact this.elim
        | ok q =>
          cases h2 : store L configOpts parsed vm' with
          | error e' => rw [h1, h2] at this; exact this.elim
          | ok q' => rw [h1, h2] at this; exact ih _ _ this

theorem withConfigFiles_congr (L : Lib F) (env : OsEnv) (ce : CacheEnv) (fs : FS F) (vm vm' : VarMap F) (h : SameMap vm vm') :
    SameRes SameMap (withConfigFiles L env ce fs vm) (withConfigFiles L env ce fs vm') := by
  unfold withConfigFiles VarMap.count VarMap.strs
  rw [← h.1]
  split
  · split
    · exact rfl
    · exact mergeConfigs_congr L env ce fs _ vm vm' h
  · exact h

theorem finalize_congr (vm vm' : VarMap F) (h : SameMap vm vm') : SameRes SameMap (finalize vm) (finalize vm') := by
  have hd : SameRes SameMap (defaultConstitWidth vm) (defaultConstitWidth vm') := by
    unfold defaultConstitWidth VarMap.dbl
    rw [← h.1]
    split
    · split
      · split
        · exact rfl
        · exact set_same _ _ h _ _
      · exact h
    · exact h
  unfold finalize
  simp only [bind, Except.bind, pure, Except.pure]
  cases h1 : defaultConstitWidth vm with
  | error e =>
    cases h2 : defaultConstitWidth vm' with
    | error e' => rw [h1, h2] at hd; exact hd
    | ok q => rw [h1, h2] at hd; exact hd.elim
  | ok q =>
    cases h2 : defaultConstitWidth vm' with
    | error e' => rw [h1, h2] at hd; exact hd.elim
    | ok q' =>
      rw [h1, h2] at hd
      have hd : SameMap q q' := hd
      have e1 : ∀ k, q'.dbl k = q.dbl k := fun k => by unfold VarMap.dbl; rw [hd.1]
      have e2 : ∀ k, q'.int k = q.int k := fun k => by unfold VarMap.int; rw [hd.1]
      have e3 : notify q' = notify q := by unfold notify; rw [hd.1]
      dsimp only
      simp only [e1, e2, e3]
      cases q.dbl "nucleon-width" with
      | error e => exact rfl
      | ok w =>
        dsimp only
        cases q.dbl "constit-width" with
        | error e => exact rfl
        | ok v =>
          dsimp only
          cases q.int "constit-number" with
          | error e => exact rfl
          | ok m =>
            dsimp only
            cases checkWidths w v m with
            | error e => exact rfl
            | ok u =>
              dsimp only
              cases notify q with
              | error e => exact rfl
              | ok u' => exact hd

variable {E D : Type} [NumFmt F] [Toms748 F] [Rng F E D]

theorem runCommand_congr (L : Lib F) (env : OsEnv) (ce : CacheEnv) (fu : Fuel) (h5view : FS F → String → H5View F) (ev0 : (n : Nat) → Event F n)
    (vm vm' : VarMap F) (h : SameMap vm vm') (W : World F) (r : Rand E D) :
    runCommand L env ce fu h5view ev0 vm W r = runCommand L env ce fu h5view ev0 vm' W r := by
  obtain ⟨vals, f⟩ := vm
  obtain ⟨vals', f'⟩ := vm'
  obtain ⟨h1, -⟩ := h
  dsimp only at h1
  subst h1
  rfl

/-- Two command lines whose parse results say the same about every option have the same effect, or both are rejected. -/
theorem mainProg_order (L : Lib F) (env : OsEnv) (ce : CacheEnv) (fu : Fuel) (h5view : FS F → String → H5View F) (ev0 : (n : Nat) → Event F n)
    (args args' : List String) (cmd cmd' : List ParsedOption) (hp : L.parseArgs args = .ok cmd) (hp' : L.parseArgs args' = .ok cmd')
    (hg : ∀ k, givenIn k cmd = givenIn k cmd') (W : World F) (r : Rand E D) :
    mainProg L env ce fu h5view ev0 args W r = mainProg L env ce fu h5view ev0 args' W r ∨
    ∃ err err', err ≠ [] ∧ err' ≠ [] ∧ mainProg L env ce fu h5view ev0 args W r = (.status 1, W, err) ∧
      mainProg L env ce fu h5view ev0 args' W r = (.status 1, W, err') := by
  cases hs : store L allOpts cmd VarMap.empty with
  | error e =>
    right
    have hs' : ∃ e', store L allOpts cmd' VarMap.empty = .error e' := by
      cases hx : store L allOpts cmd' VarMap.empty with
      | error e' => exact ⟨e', rfl⟩
      | ok vm =>
        obtain ⟨r', hr', -⟩ := store_order L allOpts cmd' cmd (fun k => (hg k).symm) _ _ hx
        rw [hs] at hr'
        cases hr'
    obtain ⟨e', hs'⟩ := hs'
    obtain ⟨a1, a2⟩ := handle_po _ (store_error _ _ _ _ _ hs)
    obtain ⟨b1, b2⟩ := handle_po _ (store_error _ _ _ _ _ hs')
    refine ⟨_, _, a2, b2, ?_, ?_⟩
    · unfold mainProg configure
      simp only [hp, hs, a1]
    · unfold mainProg configure
      simp only [hp', hs', b1]
  | ok vm =>
    left
    obtain ⟨vm', hs', hsame⟩ := store_order L allOpts cmd cmd' hg _ _ hs
    unfold mainProg configure
    simp only [hp, hp', hs, hs']
    have hc : ∀ k, vm'.count k = vm.count k := fun k => by unfold VarMap.count; rw [hsame.1]
    simp only [hc]
    by_cases c1 : vm.count "help" = true
    · simp only [c1, if_true]
    · simp only [c1]
      by_cases c2 : vm.count "version" = true
      · simp only [c2, if_true]
      · simp only [c2]
        by_cases c3 : vm.count "bibtex" = true
        · simp only [c3, if_true]
        · simp only [c3]
          have hw := withConfigFiles_congr L env ce W.fs vm vm' hsame
          cases h1 : withConfigFiles L env ce W.fs vm with
          | error e =>
            cases h2 : withConfigFiles L env ce W.fs vm' with
            | error e' => rw [h1, h2] at hw; have hw : e = e' := hw; rw [hw]
            | ok q => rw [h1, h2] at hw; exact hw.elim
          | ok q =>
            cases h2 : withConfigFiles L env ce W.fs vm' with
            | error e' => rw [h1, h2] at hw; exact hw.elim
            | ok q' =>
              rw [h1, h2] at hw
              have hf := finalize_congr q q' hw
              dsimp only
              cases h3 : finalize q with
              | error e =>
                cases h4 : finalize q' with
                | error e' => rw [h3, h4] at hf; have hf : e = e' := hf; rw [hf]
                | ok q => rw [h3, h4] at hf; exact hf.elim
              | ok x =>
                cases h4 : finalize q' with
                | error e' => rw [h3, h4] at hf; exact hf.elim
                | ok x' =>
                  rw [h3, h4] at hf
                  have hx := runCommand_congr L env ce fu h5view ev0 x x' hf W r
                  simp only [Bool.false_eq_true, if_false, hx]

end Trento
