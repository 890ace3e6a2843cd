import Verif.Props.ConfigFile
import Mathlib.Tactic.IntervalCases
import Mathlib.Data.Nat.Digits.Defs
import Mathlib.Data.Nat.Digits.Lemmas

/-! # Integer options (C109)

`number-events` and `constit-number` are read by `boost::lexical_cast<int>`, `random-seed` by `boost::lexical_cast<int64_t>` (model: `lexInt` in `Verif/Model/CmdLine.lean`). -/

namespace Trento
open Spec

/-- The ten digits and their values. -/
def Spec.digitValue : Char → Option Nat
  | '0' => some 0 | '1' => some 1 | '2' => some 2 | '3' => some 3 | '4' => some 4
  | '5' => some 5 | '6' => some 6 | '7' => some 7 | '8' => some 8 | '9' => some 9
  | _ => none

/-- `s` is the number `n` in decimal digits, most significant first; leading zeros are allowed. -/
def Spec.IsDecimal (s : List Char) (n : Nat) : Prop :=
  s ≠ [] ∧ ∃ ds : List Nat, List.Forall₂ (fun c d => digitValue c = some d) s ds ∧ n = Nat.ofDigits 10 ds.reverse

/-- `s` is an integer in decimal notation: digits, or a sign and digits. -/
def Spec.IsInteger (s : String) (k : Int) : Prop :=
  (∃ n : Nat, IsDecimal s.toList n ∧ k = n) ∨ (∃ ds, ∃ n : Nat, s.toList = '+' :: ds ∧ IsDecimal ds n ∧ k = n) ∨
    ∃ ds, ∃ n : Nat, s.toList = '-' :: ds ∧ IsDecimal ds n ∧ k = -n

theorem digitValue_some (c : Char) (h : '0' ≤ c ∧ c ≤ '9') : digitValue c = some (c.toNat - 48) := by
  obtain ⟨h1, h2⟩ := h
  have h1 : 48 ≤ c.toNat := h1
  have h2 : c.toNat ≤ 57 := h2
  have hc : c = Char.ofNat c.toNat := (Char.ofNat_toNat c).symm
  generalize c.toNat = n at h1 h2 hc
  subst hc
  interval_cases n <;> rfl

theorem digitValue_range (c : Char) (d : Nat) (h : digitValue c = some d) : ('0' ≤ c && c ≤ '9') = true ∧ d = c.toNat - 48 := by
  unfold digitValue at h
  split at h <;> cases h <;> exact ⟨by decide, rfl⟩

theorem foldl_ofDigits (s : List Char) (ds acc : List Nat) (h : List.Forall₂ (fun c d => digitValue c = some d) s ds) :
    s.foldl (fun n c => 10 * n + (c.toNat - 48)) (Nat.ofDigits 10 acc) = Nat.ofDigits 10 (ds.reverse ++ acc) := by
  induction h generalizing acc with
  | nil => rfl
  | @cons c d s ds hc _ ih =>
    rw [List.foldl_cons]
    have : 10 * Nat.ofDigits 10 acc + (c.toNat - 48) = Nat.ofDigits 10 (d :: acc) := by
      rw [Nat.ofDigits_cons, (digitValue_range c d hc).2]
      simp [add_comm]
    rw [this, ih (d :: acc)]
    simp

theorem lexNat_iff (s : List Char) (n : Nat) : lexNat s = some n ↔ IsDecimal s n := by
  unfold lexNat IsDecimal
  constructor
  · intro h
    split at h
    · rename_i hs
      obtain ⟨h1, h2⟩ := hs
      cases h
      refine ⟨h1, s.map (fun c => c.toNat - 48), ?_, ?_⟩
      · rw [List.forall₂_map_right_iff, List.forall₂_same]
        intro c hc
        have := List.all_eq_true.mp h2 c hc
        simp only [Bool.and_eq_true, decide_eq_true_eq] at this
        exact digitValue_some c this
      · have hf : List.Forall₂ (fun c d => digitValue c = some d) s (s.map fun c => c.toNat - 48) := by
          rw [List.forall₂_map_right_iff, List.forall₂_same]
          intro c hc
          have := List.all_eq_true.mp h2 c hc
          simp only [Bool.and_eq_true, decide_eq_true_eq] at this
          exact digitValue_some c this
        have := foldl_ofDigits s _ [] hf
        simpa using this
    · cases h
  · rintro ⟨h1, ds, h2, rfl⟩
    have hall : s.all (fun c => '0' ≤ c && c ≤ '9') = true := by
      clear h1
      induction h2 with
      | nil => rfl
      | cons hc _ ih => rw [List.all_cons, ih, Bool.and_true]; exact (digitValue_range _ _ hc).1
    rw [if_pos ⟨h1, hall⟩]
    have := foldl_ofDigits s ds [] h2
    simpa using this

theorem isDecimal_head {s : List Char} {n : Nat} (h : IsDecimal s n) : s.head? ≠ some '-' ∧ s.head? ≠ some '+' := by
  obtain ⟨h1, ds, h2, -⟩ := h
  cases h2 with
  | nil => exact absurd rfl h1
  | cons hc _ =>
    constructor <;>
    · intro he
      simp only [List.head?_cons, Option.some.injEq] at he
      subst he
      cases hc

/-- **C109, texts.** An integer option accepts exactly the decimal integers — digits, possibly with a sign — that lie in the range of its type, and gives them their value: no fraction, exponent,
blank or other character is accepted, and nothing is wrapped around. -/
theorem C109_texts (lim : Nat) (hl : 0 < lim) (s : String) (k : Int) : lexInt lim s = some k ↔ IsInteger s k ∧ -(lim : Int) ≤ k ∧ k < lim := by
  unfold lexInt IsInteger
  split
  · rename_i ds hs
    constructor
    · intro h
      cases hn : lexNat ds with
      | none => rw [hn] at h; cases h
      | some n =>
        simp only [hn, Option.bind_some] at h
        split at h
        · cases h
          exact ⟨.inr (.inr ⟨ds, n, hs, (lexNat_iff _ _).mp hn, rfl⟩), by omega, by omega⟩
        · cases h
    · rintro ⟨h, h1, h2⟩
      rcases h with ⟨n, hd, rfl⟩ | ⟨ds', n, hs', hd, rfl⟩ | ⟨ds', n, hs', hd, rfl⟩
      · exact absurd (by rw [hs]; rfl) (isDecimal_head hd).1
      · rw [hs] at hs'; cases hs'
      · rw [hs] at hs'; cases hs'
        rw [(lexNat_iff _ _).mpr hd]
        simp only [Option.bind_some]
        rw [if_pos (by omega)]
  · rename_i ds hs
    constructor
    · intro h
      cases hn : lexNat ds with
      | none => rw [hn] at h; cases h
      | some n =>
        simp only [hn, Option.bind_some] at h
        split at h
        · cases h
          exact ⟨.inr (.inl ⟨ds, n, hs, (lexNat_iff _ _).mp hn, rfl⟩), by omega, by omega⟩
        · cases h
    · rintro ⟨h, h1, h2⟩
      rcases h with ⟨n, hd, rfl⟩ | ⟨ds', n, hs', hd, rfl⟩ | ⟨ds', n, hs', hd, rfl⟩
      · exact absurd (by rw [hs]; rfl) (isDecimal_head hd).2
      · rw [hs] at hs'; cases hs'
        rw [(lexNat_iff _ _).mpr hd]
        simp only [Option.bind_some]
        rw [if_pos (by omega)]
      · rw [hs] at hs'; cases hs'
  · rename_i hm hp
    constructor
    · intro h
      cases hn : lexNat s.toList with
      | none => rw [hn] at h; cases h
      | some n =>
        simp only [hn, Option.bind_some] at h
        split at h
        · cases h
          exact ⟨.inl ⟨n, (lexNat_iff _ _).mp hn, rfl⟩, by omega, by omega⟩
        · cases h
    · rintro ⟨h, h1, h2⟩
      rcases h with ⟨n, hd, rfl⟩ | ⟨ds', n, hs', hd, rfl⟩ | ⟨ds', n, hs', hd, rfl⟩
      · rw [(lexNat_iff _ _).mpr hd]
        simp only [Option.bind_some]
        rw [if_pos (by omega)]
      · exact absurd hs' (hp _)
      · exact absurd hs' (hm _)

theorem isDecimal_natDigits (n : Nat) : IsDecimal (natDigits n) n := by
  obtain ⟨h1, h2⟩ : natDigits n ≠ [] ∧ ∃ ds : List Nat, List.Forall₂ (fun c d => digitValue c = some d) (natDigits n) ds ∧ n = Nat.ofDigits 10 ds.reverse := by
    induction n using Nat.strong_induction_on with
    | _ n ih =>
      have hdig : ∀ d < 10, digitValue (digitChar d) = some d := by decide
      rw [natDigits]
      split
      · rename_i h
        exact ⟨by simp, [n], .cons (hdig n h) .nil, by simp⟩
      · rename_i h
        obtain ⟨-, ds, h2, h3⟩ := ih (n / 10) (by omega)
        refine ⟨by simp, ds ++ [n % 10], List.rel_append h2 (.cons (hdig _ (Nat.mod_lt _ (by norm_num))) .nil), ?_⟩
        rw [List.reverse_append, List.reverse_singleton, List.singleton_append, Nat.ofDigits_cons, ← h3]
        push_cast
        omega
  exact ⟨h1, h2⟩

/-- **C109, round trip.** Every integer in the range of the option's type is read back from its decimal notation. -/
theorem C109_round_trip (lim : Nat) (hl : 0 < lim) (k : Int) (h1 : -(lim : Int) ≤ k) (h2 : k < lim) : lexInt lim (String.ofList (intDigits k)) = some k := by
  rw [C109_texts lim hl]
  refine ⟨?_, h1, h2⟩
  unfold IsInteger
  rw [String.toList_ofList]
  unfold intDigits
  split
  · rename_i hk
    exact .inr (.inr ⟨_, _, rfl, isDecimal_natDigits _, by omega⟩)
  · rename_i hk
    exact .inl ⟨_, isDecimal_natDigits _, by omega⟩

section
variable {F : Type} [Arith F]

/-- **C109, options.** If a run starts and the number of events, the number of constituents or the seed is given, then it is given once in that source, as a decimal integer in the range of a 32-bit (64-bit
for the seed) signed integer, and the run uses this integer. -/
theorem C109_options (L : Lib F) (env : OsEnv) (ce : CacheEnv) (fs : FS F) (args : List String) (vm : VarMap F)
    (h : configure (boostLib L) env ce fs args = .ok (.run vm)) :
    ∃ (cmd : List ParsedOption) (paths : List String) (files : List (List ParsedOption)), cliParse F args = .ok cmd ∧
      ConfigFiles (boostLib L) env ce fs paths files ∧
      (∀ k ∈ ["number-events", "constit-number"], ∀ ms, firstMention k (cmd :: files) = some ms →
        ∃ s i, ms = [[s]] ∧ IsInteger s i ∧ -2147483648 ≤ i ∧ i ≤ 2147483647 ∧ vm.int k = .ok i) ∧
      (∀ ms, firstMention "random-seed" (cmd :: files) = some ms →
        ∃ s i, ms = [[s]] ∧ IsInteger s i ∧ -9223372036854775808 ≤ i ∧ i ≤ 9223372036854775807 ∧ vm.int "random-seed" = .ok i) := by
  obtain ⟨cmd, paths, files, h1, -, h3, -, -, h4, h5, -, -⟩ := C56_values (boostLib L) env ce fs args vm h
  refine ⟨cmd, paths, files, h1, h3, ?_, ?_⟩
  · intro k hk ms hms
    obtain ⟨s, i, e1, e2, e3⟩ := h4 k hk ms hms
    obtain ⟨a, b, c⟩ := (C109_texts (2^31) (by norm_num) s i).mp e2
    norm_num at b c
    exact ⟨s, i, e1, a, b, by omega, e3⟩
  · intro ms hms
    obtain ⟨s, i, e1, e2, e3⟩ := h5 ms hms
    obtain ⟨a, b, c⟩ := (C109_texts (2^63) (by norm_num) s i).mp e2
    norm_num at b c
    exact ⟨s, i, e1, a, b, by omega, e3⟩

end

end Trento
