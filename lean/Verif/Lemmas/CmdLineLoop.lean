import Verif.Lemmas.CmdLine
import Verif.Props.Exit

/-! # The command line parser: the loop bound, errors, results -/

namespace Trento
open Spec

theorem grab_shrinks (opts : List CliOpt) (n : Nat) (vals others vals' others' : List Tok) (h : grabValues opts n vals others = .ok (vals', others')) :
    others'.length ≤ others.length ∧ (n ≤ others.length → vals'.length = vals.length + n) := by
  induction n generalizing vals others with
  | zero => rw [grabValues] at h; cases h; exact ⟨le_rfl, fun _ => rfl⟩
  | succ n ih =>
    cases others with
    | nil => rw [grabValues] at h; cases h; exact ⟨le_rfl, fun h => absurd h (by simp)⟩
    | cons t others =>
      rw [grabValues] at h
      have key : grabValues opts n (vals ++ [t]) others = .ok (vals', others') := by
        cases hl : looksLikeOption opts t with
        | error e => rw [hl] at h; cases h
        | ok b =>
          rw [hl] at h
          cases b with
          | false => exact h
          | true =>
            dsimp only at h
            cases hf : findOpt opts t with
            | error e => rw [hf] at h; cases h
            | ok o =>
              rw [hf] at h
              cases o with
              | none => exact h
              | some o => cases h
      obtain ⟨h1, h2⟩ := ih _ _ key
      refine ⟨by rw [List.length_cons]; omega, fun hn => ?_⟩
      rw [List.length_cons] at hn
      rw [h2 (by omega), List.length_append]
      simp only [List.length_cons, List.length_nil]
      omega

/-- A finished option is positional as before, or has the name and the number of values of an option in the table. -/
theorem finishOption_ok (opts : List CliOpt) (r r' : RawOpt) (others others' : List Tok) (h : finishOption opts r others = .ok (r', others')) :
    others'.length ≤ others.length ∧
    ((r.key = [] ∧ r' = r) ∨ (r.vals.length ≤ 1 → ∃ o, findOpt opts r.key = .ok (some o) ∧ r'.key = o.long.toList ∧ r'.vals.length = if o.arg then 1 else 0)) := by
  unfold finishOption at h
  split at h
  · rename_i hk; cases h; exact ⟨le_rfl, .inl ⟨hk, rfl⟩⟩
  · cases hf : findOpt opts r.key with
    | error e => rw [hf] at h; cases h
    | ok o =>
      rw [hf] at h
      cases o with
      | none => cases h
      | some o =>
        dsimp only at h
        generalize ht : (if o.arg = true then 1 else 0) = t at h
        split at h
        · cases h
        · rename_i h1
          split at h
          · cases h
          · rename_i h2
            cases hg : grabValues opts (t - r.vals.length) r.vals others with
            | error e => rw [hg] at h; cases h
            | ok p =>
              obtain ⟨vals, oth⟩ := p
              rw [hg] at h
              cases h
              obtain ⟨g1, g2⟩ := grab_shrinks _ _ _ _ _ _ hg
              refine ⟨g1, .inr fun hlen => ⟨o, rfl, rfl, ?_⟩⟩
              have := g2 (by omega)
              dsimp only
              rw [this, ht]
              by_cases h0 : t = 0
              · have h3 : r.vals = [] := by
                  by_contra hne
                  exact h2 ⟨hne, h0⟩
                simp [h3]
              · have : 1 ≤ t := by omega
                omega

theorem finishAll_shrinks (opts : List CliOpt) (rs rs' : List RawOpt) (others others' : List Tok) (h : finishAll opts rs others = .ok (rs', others')) :
    others'.length ≤ others.length := by
  induction rs generalizing rs' with
  | nil => rw [finishAll] at h; cases h; exact le_rfl
  | cons r rs ih =>
    cases rs with
    | nil =>
      rw [finishAll] at h
      cases hf : finishOption opts r others with
      | error e => rw [hf] at h; cases h
      | ok p => obtain ⟨p1, p2⟩ := p; rw [hf] at h; cases h; exact (finishOption_ok _ _ _ _ _ hf).1
    | cons r' rs =>
      rw [finishAll] at h
      cases hf : finishOption opts r [] with
      | error e => rw [hf] at h; cases h
      | ok p =>
        rw [hf] at h
        dsimp only at h
        cases hg : finishAll opts (r' :: rs) others with
        | error e => rw [hg] at h; cases h
        | ok q => obtain ⟨q1, q2⟩ := q; rw [hg] at h; cases h; exact ih _ hg

theorem style_shrinks (opts : List CliOpt) (tok : Tok) (rest rest' : List Tok) (rs : List RawOpt) (h : styleParse opts tok rest = .ok (some (rs, rest'))) :
    rest'.length ≤ rest.length := by
  unfold styleParse at h
  split at h
  · cases h
  · cases h; exact le_rfl
  · split at h
    · cases h; exact le_rfl
    · split at h
      · cases h; simp
      · cases h

/-- The loop bound does not matter once it is the number of tokens. -/
theorem loop_fuel (opts : List CliOpt) (n : Nat) (toks : List Tok) (h : toks.length ≤ n) : cliLoop opts n toks = cliLoop opts toks.length toks := by
  induction n using Nat.strong_induction_on generalizing toks with
  | _ n ih =>
    cases toks with
    | nil => cases n <;> rfl
    | cons tok rest =>
      rw [List.length_cons] at h
      obtain ⟨m, rfl⟩ : ∃ m, n = m + 1 := ⟨n - 1, by omega⟩
      have hr : ∀ rest' : List Tok, rest'.length ≤ rest.length → cliLoop opts m rest' = cliLoop opts rest.length rest' := by
        intro rest' hl
        rw [ih m (by omega) rest' (by omega)]
        by_cases hm : rest.length = m
        · rw [hm, ih m (by omega) rest' (by omega)]
        · rw [ih rest.length (by omega) rest' hl]
      rw [List.length_cons, cliLoop, cliLoop]
      cases hs : styleParse opts tok rest with
      | error e => rfl
      | ok o =>
        cases o with
        | none => dsimp only; rw [hr rest le_rfl]
        | some p =>
          obtain ⟨next, rest'⟩ := p
          dsimp only
          cases hf : finishAll opts next rest' with
          | error e => rfl
          | ok q =>
            obtain ⟨done, rest''⟩ := q
            dsimp only
            rw [hr rest'' ((finishAll_shrinks _ _ _ _ _ hf).trans (style_shrinks _ _ _ _ _ hs))]

/-! ## Errors -/

theorem findOpt_error (opts : List CliOpt) (name : Tok) (e : Err) (h : findOpt opts name = .error e) : IsPoError e := by
  unfold findOpt at h
  repeat' split at h
  all_goals cases h
  all_goals exact ⟨_, rfl⟩

theorem parseLong_error (tok : Tok) (e : Err) (h : parseLong tok = .error e) : IsPoError e := by
  unfold parseLong at h
  split at h
  · dsimp only at h
    split at h
    · split at h
      · cases h; exact ⟨_, rfl⟩
      · cases h
    · cases h
  · cases h

theorem grab_error (opts : List CliOpt) (n : Nat) (vals others : List Tok) (e : Err) (h : grabValues opts n vals others = .error e) : IsPoError e := by
  induction n generalizing vals others with
  | zero => rw [grabValues] at h; cases h
  | succ n ih =>
    cases others with
    | nil => rw [grabValues] at h; cases h
    | cons t others =>
      rw [grabValues] at h
      cases hl : looksLikeOption opts t with
      | error e' =>
        rw [hl] at h; cases h
        unfold looksLikeOption at hl
        split at hl
        · rename_i hp; cases hl; exact parseLong_error _ _ hp
        · cases hl
        · cases hl
      | ok b =>
        rw [hl] at h
        cases b with
        | false => exact ih _ _ h
        | true =>
          dsimp only at h
          cases hf : findOpt opts t with
          | error e' => rw [hf] at h; cases h; exact findOpt_error _ _ _ hf
          | ok o =>
            rw [hf] at h
            cases o with
            | none => exact ih _ _ h
            | some o => cases h; exact ⟨_, rfl⟩

theorem finishOption_error (opts : List CliOpt) (r : RawOpt) (others : List Tok) (e : Err) (h : finishOption opts r others = .error e) : IsPoError e := by
  unfold finishOption at h
  split at h
  · cases h
  · split at h
    · rename_i hf; cases h; exact findOpt_error _ _ _ hf
    · cases h; exact ⟨_, rfl⟩
    · rename_i d _
      dsimp only at h
      generalize (if d.arg = true then 1 else 0) = t at h
      split at h
      · cases h; exact ⟨_, rfl⟩
      · split at h
        · cases h; exact ⟨_, rfl⟩
        · split at h
          · rename_i hg; cases h; exact grab_error _ _ _ _ _ hg
          · cases h

theorem finishAll_error (opts : List CliOpt) (rs : List RawOpt) (others : List Tok) (e : Err) (h : finishAll opts rs others = .error e) : IsPoError e := by
  induction rs with
  | nil => rw [finishAll] at h; cases h
  | cons r rs ih =>
    cases rs with
    | nil =>
      rw [finishAll] at h
      cases hf : finishOption opts r others with
      | error e' => rw [hf] at h; cases h; exact finishOption_error _ _ _ _ hf
      | ok p => rw [hf] at h; cases h
    | cons r' rs =>
      rw [finishAll] at h
      cases hf : finishOption opts r [] with
      | error e' => rw [hf] at h; cases h; exact finishOption_error _ _ _ _ hf
      | ok p =>
        rw [hf] at h
        dsimp only at h
        cases hg : finishAll opts (r' :: rs) others with
        | error e' => rw [hg] at h; cases h; exact ih hg
        | ok q => rw [hg] at h; cases h

theorem style_error (opts : List CliOpt) (tok : Tok) (rest : List Tok) (e : Err) (h : styleParse opts tok rest = .error e) : IsPoError e := by
  unfold styleParse at h
  split at h
  · rename_i hp; cases h; exact parseLong_error _ _ hp
  · cases h
  · split at h
    · cases h
    · split at h <;> cases h

theorem loop_error (opts : List CliOpt) (n : Nat) (toks : List Tok) (hn : toks.length ≤ n) (e : Err) (h : cliLoop opts n toks = .error e) : IsPoError e := by
  induction n generalizing toks with
  | zero =>
    have : toks = [] := List.length_eq_zero_iff.mp (by omega)
    rw [this, cliLoop] at h; cases h
  | succ n ih =>
    cases toks with
    | nil => rw [cliLoop] at h; cases h
    | cons tok rest =>
      rw [List.length_cons] at hn
      rw [cliLoop] at h
      cases hs : styleParse opts tok rest with
      | error e' => rw [hs] at h; cases h; exact style_error _ _ _ _ hs
      | ok o =>
        rw [hs] at h
        cases o with
        | none =>
          dsimp only at h
          cases hl : cliLoop opts n rest with
          | error e' => rw [hl] at h; cases h; exact ih rest (by omega) hl
          | ok rs => rw [hl] at h; cases h
        | some p =>
          obtain ⟨next, rest'⟩ := p
          dsimp only at h
          cases hf : finishAll opts next rest' with
          | error e' => rw [hf] at h; cases h; exact finishAll_error _ _ _ _ hf
          | ok q =>
            obtain ⟨done, rest''⟩ := q
            rw [hf] at h
            dsimp only at h
            have := (finishAll_shrinks _ _ _ _ _ hf).trans (style_shrinks _ _ _ _ _ hs)
            cases hl : cliLoop opts n rest'' with
            | error e' => rw [hl] at h; cases h; exact ih rest'' (by omega) hl
            | ok rs => rw [hl] at h; cases h

theorem namePositional_error (names : List String) (rs : List RawOpt) (e : Err) (h : namePositional names rs = .error e) : IsPoError e := by
  induction rs generalizing names with
  | nil => rw [namePositional.eq_def] at h; cases h
  | cons r rs ih =>
    rw [namePositional.eq_def] at h
    dsimp only at h
    split at h
    · split at h
      · cases h; exact ⟨_, rfl⟩
      · split at h
        · rename_i hx; cases h; exact ih _ hx
        · cases h
    · split at h
      · rename_i hx; cases h; exact ih _ hx
      · cases h

/-- Errors of the command line parser are library exceptions. -/
theorem cliParse_error (F : Type) [Arith F] (args : List String) (e : Err) (h : cliParse F args = .error e) : IsPoError e := by
  unfold cliParse at h
  split at h
  · rename_i hl; cases h; exact loop_error _ _ _ (by simp) _ hl
  · exact namePositional_error _ _ _ h

/-! ## Results -/

/-- A finished option. -/
def RawOk (r : RawOpt) : Prop := (r.key = [] ∧ r.vals.length = 1) ∨ ∃ o ∈ docTable, r.key = o.long.toList ∧ r.vals.length = if o.arg then 1 else 0

theorem findOpt_mem (opts : List CliOpt) (name : Tok) (o : CliOpt) (h : findOpt opts name = .ok (some o)) : o ∈ opts := by
  unfold findOpt at h
  split at h
  · rename_i hx
    cases h
    exact (List.mem_filter.mp (hx ▸ List.mem_singleton.mpr rfl : o ∈ opts.filter _)).1
  · cases h
  · split at h
    · cases h
    · rename_i hx
      cases h
      exact (List.mem_filter.mp (hx ▸ List.mem_singleton.mpr rfl : o ∈ opts.filter _)).1
    · cases h

/-- An option as the style parsers give it. -/
def PreOk (r : RawOpt) : Prop := r.vals.length ≤ 1 ∧ (r.key = [] → r.vals.length = 1)

theorem finishOption_rawOk (r r' : RawOpt) (others others' : List Tok) (hr : PreOk r) (h : finishOption docTable r others = .ok (r', others')) : RawOk r' := by
  obtain ⟨-, h2⟩ := finishOption_ok _ _ _ _ _ h
  rcases h2 with ⟨hk, rfl⟩ | h2
  · exact .inl ⟨hk, hr.2 hk⟩
  · obtain ⟨o, ho, h3, h4⟩ := h2 hr.1
    exact .inr ⟨o, findOpt_mem _ _ _ ho, h3, h4⟩

theorem finishAll_rawOk (rs rs' : List RawOpt) (others others' : List Tok) (hr : ∀ r ∈ rs, PreOk r) (h : finishAll docTable rs others = .ok (rs', others')) :
    ∀ r ∈ rs', RawOk r := by
  induction rs generalizing rs' with
  | nil => rw [finishAll] at h; cases h; simp
  | cons r rs ih =>
    cases rs with
    | nil =>
      rw [finishAll] at h
      cases hf : finishOption docTable r others with
      | error e => rw [hf] at h; cases h
      | ok p =>
        obtain ⟨p1, p2⟩ := p
        rw [hf] at h; cases h
        intro x hx
        rw [List.mem_singleton.mp hx]
        exact finishOption_rawOk _ _ _ _ (hr r (by simp)) hf
    | cons r' rs =>
      rw [finishAll] at h
      cases hf : finishOption docTable r [] with
      | error e => rw [hf] at h; cases h
      | ok p =>
        obtain ⟨p1, p2⟩ := p
        rw [hf] at h
        dsimp only at h
        cases hg : finishAll docTable (r' :: rs) others with
        | error e => rw [hg] at h; cases h
        | ok q =>
          obtain ⟨q1, q2⟩ := q
          rw [hg] at h; cases h
          intro x hx
          rcases List.mem_cons.mp hx with rfl | hx
          · exact finishOption_rawOk _ _ _ _ (hr r (by simp)) hf
          · exact ih _ (fun y hy => hr y (by simp [List.mem_cons.mp hy])) hg x hx

theorem shortGroup_preOk (opts : List CliOpt) (c : Char) (cs : List Char) : ∀ r ∈ shortGroup opts c cs, PreOk r := by
  induction cs generalizing c with
  | nil =>
    rw [shortGroup]
    intro r hr
    rw [List.mem_singleton.mp hr]
    exact ⟨by simp, by simp⟩
  | cons a as ih =>
    rw [shortGroup]
    split
    · intro r hr
      rcases List.mem_cons.mp hr with rfl | hr
      · exact ⟨by simp, by simp⟩
      · exact ih a r hr
    · intro r hr
      rw [List.mem_singleton.mp hr]
      exact ⟨by simp, by simp⟩

theorem parseLong_preOk (tok : Tok) (r : RawOpt) (h : parseLong tok = .ok (some r)) : PreOk r := by
  unfold parseLong at h
  split at h
  · dsimp only at h
    split at h
    · split at h
      · cases h
      · cases h; exact ⟨by simp, by simp⟩
    · cases h; exact ⟨by simp, by simp⟩
  · cases h

theorem style_preOk (opts : List CliOpt) (tok : Tok) (rest rest' : List Tok) (rs : List RawOpt) (h : styleParse opts tok rest = .ok (some (rs, rest'))) :
    ∀ r ∈ rs, PreOk r := by
  unfold styleParse at h
  split at h
  · cases h
  · rename_i hp
    cases h
    intro x hx
    rw [List.mem_singleton.mp hx]
    exact parseLong_preOk _ _ hp
  · split at h
    · rename_i hp
      cases h
      unfold parseShort at hp
      split at hp
      · split at hp
        · cases hp
        · cases hp; exact shortGroup_preOk _ _ _
      · cases hp
    · split at h
      · cases h
        intro x hx
        obtain ⟨t, -, rfl⟩ := List.mem_map.mp hx
        exact ⟨by simp, by simp⟩
      · cases h

theorem loop_rawOk (n : Nat) (toks : List Tok) (rs : List RawOpt) (h : cliLoop docTable n toks = .ok rs) : ∀ r ∈ rs, RawOk r := by
  induction n generalizing toks rs with
  | zero =>
    cases toks with
    | nil => rw [cliLoop] at h; cases h; simp
    | cons t ts => rw [cliLoop] at h; cases h
  | succ n ih =>
    cases toks with
    | nil => rw [cliLoop] at h; cases h; simp
    | cons tok rest =>
      rw [cliLoop] at h
      cases hs : styleParse docTable tok rest with
      | error e' => rw [hs] at h; cases h
      | ok o =>
        rw [hs] at h
        cases o with
        | none =>
          dsimp only at h
          cases hl : cliLoop docTable n rest with
          | error e' => rw [hl] at h; cases h
          | ok rs' =>
            rw [hl] at h; cases h
            intro r hr
            rcases List.mem_cons.mp hr with rfl | hr
            · exact .inl ⟨rfl, rfl⟩
            · exact ih _ _ hl r hr
        | some p =>
          obtain ⟨next, rest'⟩ := p
          dsimp only at h
          cases hf : finishAll docTable next rest' with
          | error e' => rw [hf] at h; cases h
          | ok q =>
            obtain ⟨done, rest''⟩ := q
            rw [hf] at h
            dsimp only at h
            cases hl : cliLoop docTable n rest'' with
            | error e' => rw [hl] at h; cases h
            | ok rs' =>
              rw [hl] at h; cases h
              intro r hr
              rcases List.mem_append.mp hr with hr | hr
              · exact finishAll_rawOk _ _ _ _ (style_preOk _ _ _ _ _ hs) hf r hr
              · exact ih _ _ hl r hr

end Trento
