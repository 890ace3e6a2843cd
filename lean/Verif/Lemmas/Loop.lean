import Verif.Model.LibRandom

/-!
# Reasoning about the unbounded loops of the random library
-/

namespace Trento

variable {S A : Type} {step : S → Option (A ⊕ S)}

theorem loopN_succ {n : ℕ} {s : S} {a : A} (h : loopN step n s = some a) : loopN step (n+1) s = some a := by
  induction n generalizing s with
  | zero => simp [loopN] at h
  | succ n ih =>
    rw [loopN] at h ⊢
    rcases hs : step s with _ | (b | s')
    · simp [hs] at h
    · simpa [hs] using h
    · simp only [hs] at h ⊢
      exact ih h

theorem loopN_mono {n m : ℕ} (hnm : n ≤ m) {s : S} {a : A} (h : loopN step n s = some a) : loopN step m s = some a := by
  induction hnm with
  | refl => exact h
  | step _ ih => exact loopN_succ ih

/-- The loop ends with `a` exactly if some number of passes does. -/
theorem loop_eq_some {s : S} {a : A} : loop step s = some a ↔ ∃ n, loopN step n s = some a := by
  unfold loop
  constructor
  · intro h
    split at h
    · exact ⟨_, h⟩
    · cases h
  · rintro ⟨n, hn⟩
    have hex : ∃ n, (loopN step n s).isSome := ⟨n, by rw [hn]; rfl⟩
    rw [dif_pos hex]
    obtain ⟨b, hb⟩ := Option.isSome_iff_exists.1 (Nat.find_spec hex)
    rw [hb]
    have h1 := loopN_mono (le_max_left n (Nat.find hex)) hn
    have h2 := loopN_mono (le_max_right n (Nat.find hex)) hb
    rw [h1] at h2
    exact h2.symm

/-- One pass, then the loop again. -/
theorem loop_unfold (s : S) : loop step s = match step s with
    | none => none
    | some (.inl a) => some a
    | some (.inr s') => loop step s' := by
  have key : ∀ a, loop step s = some a ↔ (match step s with
    | none => none
    | some (.inl a) => some a
    | some (.inr s') => loop step s') = some a := by
    intro a
    rw [loop_eq_some]
    rcases hs : step s with _ | (b | s')
    · simp only [reduceCtorEq, iff_false, not_exists]
      rintro (_ | n) h
      · simp [loopN] at h
      · simp [loopN, hs] at h
    · constructor
      · rintro ⟨_ | n, h⟩
        · simp [loopN] at h
        · simpa [loopN, hs] using h
      · intro h
        exact ⟨1, by simpa [loopN, hs] using h⟩
    · simp only []
      rw [loop_eq_some]
      constructor
      · rintro ⟨_ | n, h⟩
        · simp [loopN] at h
        · exact ⟨n, by simpa [loopN, hs] using h⟩
      · rintro ⟨n, h⟩
        exact ⟨n+1, by simpa [loopN, hs] using h⟩
  exact Option.ext key

/-- What holds of every value that ends a pass holds of the value of the loop. -/
theorem loop_spec {P : S → Prop} {Q : A → Prop} (hl : ∀ s a, P s → step s = some (.inl a) → Q a)
    (hr : ∀ s s', P s → step s = some (.inr s') → P s') {s : S} (hs : P s) {a : A} (h : loop step s = some a) : Q a := by
  obtain ⟨n, hn⟩ := loop_eq_some.1 h
  clear h
  induction n generalizing s with
  | zero => simp [loopN] at hn
  | succ n ih =>
    rw [loopN] at hn
    rcases h1 : step s with _ | (b | s')
    · simp [h1] at hn
    · simp only [h1, Option.some.injEq] at hn
      subst hn
      exact hl s b hs h1
    · simp only [h1] at hn
      exact ih (hr s s' hs h1) hn

end Trento
