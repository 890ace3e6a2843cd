import Verif.Model.RealArith

/-! Conversions `double → integer` at exact reals. -/

namespace Trento

theorem castSize_ok_of_nonneg {x : ℝ} (h0 : 0 ≤ x) (h1 : x < 18446744073709551616) :
    castSize x = .ok ⌊x⌋₊ := by
  unfold castSize
  rw [trunc_real, if_pos h0]
  have ha : 0 ≤ ⌊x⌋ := Int.floor_nonneg.mpr h0
  have hb : ⌊x⌋ < 18446744073709551616 := by
    apply Int.floor_lt.mpr; exact_mod_cast h1
  simp only [ha, hb, and_self, if_true]
  rfl

theorem castSize_ub_of_neg {x : ℝ} (h : x ≤ -1) : ∃ s, castSize x = .error (.ub s) := by
  unfold castSize
  rw [trunc_real, if_neg (by linarith)]
  have : ⌈x⌉ ≤ -1 := by apply Int.ceil_le.mpr; exact_mod_cast h
  have h' : ¬ (0 ≤ ⌈x⌉ ∧ ⌈x⌉ < 18446744073709551616) := by omega
  simp only [h', if_false]
  exact ⟨_, rfl⟩

/-- Either the conversion is undefined or it yields the truncated value. -/
theorem castSize_real (x : ℝ) :
    (∃ s, castSize x = .error (.ub s)) ∨ ∃ k : ℕ, castSize x = .ok k ∧ (0 ≤ x → k = ⌊x⌋₊) := by
  unfold castSize
  rw [trunc_real]
  by_cases hx : 0 ≤ x <;> simp only [hx, if_true, if_false] <;> split
  · right; exact ⟨_, rfl, fun _ => rfl⟩
  · left; exact ⟨_, rfl⟩
  · right; exact ⟨_, rfl, fun h => h.elim⟩
  · left; exact ⟨_, rfl⟩

theorem castInt_ok {x : ℝ} (h0 : -2147483649 < x) (h1 : x < 2147483648) :
    castInt x = .ok (if 0 ≤ x then ⌊x⌋ else ⌈x⌉) := by
  unfold castInt
  rw [trunc_real]
  have : -2147483648 ≤ (if 0 ≤ x then ⌊x⌋ else ⌈x⌉) ∧ (if 0 ≤ x then ⌊x⌋ else ⌈x⌉) ≤ 2147483647 := by
    split
    · rename_i h
      have h2 := Int.floor_nonneg.mpr h
      have h3 : ⌊x⌋ < 2147483648 := by apply Int.floor_lt.mpr; exact_mod_cast h1
      omega
    · rename_i h
      have h2 : ⌈x⌉ ≤ 0 := by apply Int.ceil_le.mpr; push_cast; linarith
      have h3 : -2147483649 < ⌈x⌉ := by apply Int.lt_ceil.mpr; exact_mod_cast h0
      omega
  simp only [this, and_self, if_true]

theorem castInt_eq_ok {x : ℝ} {k : ℤ} (h : castInt x = .ok k) : k = if 0 ≤ x then ⌊x⌋ else ⌈x⌉ := by
  unfold castInt at h
  rw [trunc_real] at h
  generalize (if 0 ≤ x then ⌊x⌋ else ⌈x⌉) = t at h
  by_cases ht : -2147483648 ≤ t ∧ t ≤ 2147483647
  · simp only [ht, and_self, if_true, Except.ok.injEq] at h; exact h.symm
  · simp only [ht, if_false] at h; cases h

end Trento
