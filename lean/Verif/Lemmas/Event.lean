import Verif.Model.Event
import Verif.Model.RealArith
import Mathlib.Data.List.FinRange
import Mathlib.Algebra.BigOperators.Fin

/-! Loop lemmas for `Event`. -/

namespace Trento

theorem mem_intRange {lo hi i : Int} : i ∈ intRange lo hi ↔ lo ≤ i ∧ i ≤ hi := by
  unfold intRange
  simp only [List.mem_map, List.mem_range]
  constructor
  · rintro ⟨k, hk, rfl⟩; omega
  · rintro ⟨h1, h2⟩; exact ⟨(i - lo).toNat, by omega, by omega⟩

theorem nodup_intRange (lo hi : Int) : (intRange lo hi).Nodup := by
  unfold intRange
  apply List.Nodup.map _ List.nodup_range
  intro a b h
  simp only at h
  omega

theorem clip_mem {v top : Int} (h : 0 ≤ top) : 0 ≤ clip v 0 top ∧ clip v 0 top ≤ top := by
  unfold clip; split <;> [skip; split] <;> omega

theorem mem_cells {n : Nat} (i : Fin n × Fin n) : i ∈ cells n := by
  unfold cells
  simp only [List.mem_flatMap, List.mem_map, List.mem_finRange, true_and]
  exact ⟨i.1, i.2, rfl⟩

theorem nodup_cells (n : Nat) : (cells n).Nodup := by
  unfold cells
  rw [List.nodup_flatMap]
  constructor
  · intro iy _
    apply List.Nodup.map _ (List.nodup_finRange n)
    intro a b h; exact (Prod.mk.inj h).2
  · apply (List.nodup_finRange n).imp
    intro a b hab
    simp only [Function.onFun, List.disjoint_left, List.mem_map]
    rintro x ⟨c, _, rfl⟩ ⟨d, _, hd⟩
    exact hab (Prod.mk.inj hd).1.symm

/-- Sums over the row-major cell list are double sums. -/
theorem sum_cells {n : Nat} (f : Fin n × Fin n → ℝ) :
    ((cells n).map f).sum = ∑ iy : Fin n, ∑ ix : Fin n, f (iy, ix) := by
  have h : ((cells n).map f).sum = ∑ i : Fin n × Fin n, f i := by
    have := List.sum_toFinset f (nodup_cells n)
    rw [← this]
    congr 1
    ext i; simp [mem_cells]
  rw [h, Fintype.sum_prod_type]

section generic
variable {F : Type} [Arith F]

/-- Running `rtStep` over cells: the array content. -/
theorem rt_foldl_TR (c : EventCfg F) {n : Nat} (TA TB : Grid F n) (l : List (Fin n × Fin n)) (s : RTState F n)
    (ky kx : Fin n) :
    (l.foldl (rtStep c TA TB) s).TR ky kx =
      if (ky, kx) ∈ l then c.norm * genMean c.p (TA ky kx) (TB ky kx) else s.TR ky kx := by
  induction l generalizing s with
  | nil => simp
  | cons i l ih =>
    rw [List.foldl_cons, ih]
    by_cases h1 : (ky, kx) ∈ l
    · simp [h1]
    · by_cases h2 : (ky, kx) = i
      · subst h2; simp [h1, rtStep]
      · have h3 : ¬ (ky = i.1 ∧ kx = i.2) := fun h => h2 (Prod.ext h.1 h.2)
        simp only [h1, if_false, List.mem_cons, h2, or_self]
        simp [rtStep, h3]

/-- The scalar accumulators do not depend on the initial array content. -/
theorem rt_foldl_scalars (c : EventCfg F) {n : Nat} (TA TB : Grid F n) (l : List (Fin n × Fin n)) (s s' : RTState F n)
    (h : s.sum = s'.sum ∧ s.ixcm = s'.ixcm ∧ s.iycm = s'.iycm) :
    (l.foldl (rtStep c TA TB) s).sum = (l.foldl (rtStep c TA TB) s').sum ∧
    (l.foldl (rtStep c TA TB) s).ixcm = (l.foldl (rtStep c TA TB) s').ixcm ∧
    (l.foldl (rtStep c TA TB) s).iycm = (l.foldl (rtStep c TA TB) s').iycm := by
  induction l generalizing s s' with
  | nil => exact h
  | cons i l ih =>
    rw [List.foldl_cons, List.foldl_cons]
    apply ih
    simp [rtStep, h]

/-- After `compute_reduced_thickness` every cell holds `norm * M_p(TA, TB)`. -/
theorem computeReducedThickness_TR (c : EventCfg F) {n : Nat} (ev : Event F n) (ky kx : Fin n) :
    (computeReducedThickness c ev).TR ky kx = c.norm * genMean c.p (ev.TA ky kx) (ev.TB ky kx) := by
  unfold computeReducedThickness
  simp only [rt_foldl_TR, mem_cells, if_true]

/-- Result of a whole event: where each field comes from. -/
theorem compute_ok {c : EventCfg F} {nc : NucleonCommon F} {debug : Bool} {n : Nat} {ev : Event F n}
    {A B : List (NucleonData F)} {ev' : Event F n} (h : Event.compute c nc debug ev A B = .ok ev') :
    ∃ TA TB npA npB, depositAll c nc debug A (fun _ _ => lit 0, 0) = .ok (TA, npA) ∧
      depositAll c nc debug B (fun _ _ => lit 0, npA) = .ok (TB, npB) ∧
      ev' = computeObservables (computeReducedThickness c { ev with TA := TA, TB := TB, npart := npB }) := by
  unfold Event.compute computeNuclearThickness at h
  split at h
  · cases h
  · rename_i TA npA hA
    simp only at h
    split at h
    · cases h
    · rename_i TB npB hB
      exact ⟨TA, TB, npA, npB, hA, hB, (Except.ok.inj h).symm⟩

/-- The participant count accumulated by `depositAll`. -/
theorem depositAll_npart {c : EventCfg F} {nc : NucleonCommon F} {debug : Bool} {n : Nat}
    {A : List (NucleonData F)} {g g' : Grid F n} {k k' : Nat}
    (h : depositAll c nc debug A (g, k) = .ok (g', k')) : k' = k + A.countP (·.isParticipant) := by
  induction A generalizing g k with
  | nil => simp [depositAll] at h; simp [h.2]
  | cons a A ih =>
    unfold depositAll at h
    by_cases hp : a.isParticipant = true
    · simp only [hp, if_true] at h
      split at h
      · cases h
      · rw [ih h, List.countP_cons, if_pos hp]; omega
    · simp only [hp, Bool.false_eq_true, if_false] at h
      rw [ih h, List.countP_cons, if_neg hp]; omega

/-- The deposited grid does not depend on the running participant count. -/
theorem depositAll_shift {c : EventCfg F} {nc : NucleonCommon F} {debug : Bool} {n : Nat}
    {A : List (NucleonData F)} {g g' : Grid F n} {k k' : Nat}
    (h : depositAll c nc debug A (g, k) = .ok (g', k')) (j : Nat) :
    depositAll c nc debug A (g, j) = .ok (g', j + A.countP (·.isParticipant)) := by
  induction A generalizing g k j with
  | nil => simp [depositAll] at h ⊢; exact h.1
  | cons a A ih =>
    unfold depositAll at h ⊢
    by_cases hp : a.isParticipant = true
    · simp only [hp, if_true] at h ⊢
      split at h
      · cases h
      · rename_i g1 hg1
        simp only [ih h, List.countP_cons, if_pos hp]
        congr 2; omega
    · simp only [hp, Bool.false_eq_true, if_false] at h ⊢
      rw [ih h, List.countP_cons, if_neg hp]; rfl

end generic

/-! Real accumulators -/

theorem foldl_add_real {α : Type} (f : α → ℝ) (l : List α) (a : ℝ) :
    l.foldl (fun acc x => acc + f x) a = a + (l.map f).sum := by
  induction l generalizing a with
  | nil => simp
  | cons x l ih => simp [ih, add_assoc]

theorem rt_foldl_real (c : EventCfg ℝ) {n : Nat} (TA TB : Grid ℝ n) (l : List (Fin n × Fin n)) (s : RTState ℝ n) :
    let t := fun i : Fin n × Fin n => c.norm * genMean c.p (TA i.1 i.2) (TB i.1 i.2)
    (l.foldl (rtStep c TA TB) s).sum = s.sum + (l.map t).sum ∧
    (l.foldl (rtStep c TA TB) s).ixcm = s.ixcm + (l.map fun i => t i * (i.2.val : ℝ)).sum ∧
    (l.foldl (rtStep c TA TB) s).iycm = s.iycm + (l.map fun i => t i * (i.1.val : ℝ)).sum := by
  induction l generalizing s with
  | nil => simp
  | cons i l ih =>
    obtain ⟨h1, h2, h3⟩ := ih (rtStep c TA TB s i)
    simp only [List.foldl_cons, List.map_cons, List.sum_cons]
    rw [h1, h2, h3]
    refine ⟨?_, ?_, ?_⟩ <;> simp [rtStep] <;> ring

/-- Scalars after `compute_reduced_thickness`, in terms of the resulting array. -/
theorem computeReducedThickness_scalars (c : EventCfg ℝ) {n : Nat} (ev : Event ℝ n) :
    let r := computeReducedThickness c ev
    r.multiplicity = c.dxy * c.dxy * ∑ iy, ∑ ix, r.TR iy ix ∧
    r.ixcm = (∑ iy, ∑ ix, r.TR iy ix * (ix.val : ℝ)) / (∑ iy, ∑ ix, r.TR iy ix) ∧
    r.iycm = (∑ iy, ∑ ix, r.TR iy ix * (iy.val : ℝ)) / (∑ iy, ∑ ix, r.TR iy ix) := by
  intro r
  have hTR : ∀ iy ix, r.TR iy ix = c.norm * genMean c.p (ev.TA iy ix) (ev.TB iy ix) :=
    computeReducedThickness_TR c ev
  obtain ⟨h1, h2, h3⟩ := rt_foldl_real c ev.TA ev.TB (cells n) ⟨ev.TR, lit 0, lit 0, lit 0⟩
  have hz : (lit 0 : ℝ) = 0 := by simp
  simp only [hz, zero_add, sum_cells] at h1 h2 h3
  simp only [hTR]
  rw [← h1, ← h2, ← h3, ← hz]
  exact ⟨rfl, rfl, rfl⟩

end Trento
