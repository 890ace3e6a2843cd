import Verif.Props.Library
import Verif.Lemmas.RoundedSampling
import Verif.Props.RoundedExample

/-!
# C95 in rounded arithmetic

What libstdc++ and the Mersenne twister deliver when every floating-point operation is rounded (`Fl M`, any machine of
`Verif/Model/Rounded.lean`, IEEE 754 among them): the canonical numbers are exact and below 1, gamma variates are non-negative,
indices are in range, shuffles are permutations.
-/

namespace Trento
open Spec

/-! ### Canonical numbers are doubles -/

/-- the rounded word is `k · 2^e` with at most 53 significant bits -/
theorem roundTo53_form (g : BitVec 64) : ∃ k e : ℕ, roundTo53 g.toNat = k * 2 ^ e ∧ k < 2 ^ 53 ∧ e ≤ 64 := by
  obtain ⟨c, hc⟩ := roundTo53_dvd g.toNat
  have hle := roundTo53_le g.toNat
  have hl := log2_word g
  generalize Nat.log2 g.toNat = L at *
  by_cases h52 : L ≤ 51
  · refine ⟨roundTo53 g.toNat, 0, by simp, ?_, by omega⟩
    exact lt_of_le_of_lt hle (Nat.pow_lt_pow_right (by norm_num) (by omega))
  · have h1 : 2 ^ (L + 1) = 2 ^ (L - 52) * 2 ^ 53 := by rw [← pow_add]; congr 1; omega
    rw [hc, h1] at hle
    have hc53 : c ≤ 2 ^ 53 := Nat.le_of_mul_le_mul_left hle (by positivity)
    rcases Nat.lt_or_ge c (2 ^ 53) with h | h
    · exact ⟨c, L - 52, by rw [hc, mul_comm], h, by omega⟩
    · have hce : c = 2 ^ 53 := le_antisymm hc53 h
      refine ⟨1, L + 1, by rw [hc, hce, one_mul, ← h1], by norm_num, by omega⟩

/-- **C95, canonical numbers are exact.** `generate_canonical` yields a `double`: storing it loses nothing, on any machine. -/
theorem C95_exact (M : Machine) (g : BitVec 64) : M.fl ((canonicalQ g : ℚ) : ℝ) = ((canonicalQ g : ℚ) : ℝ) := by
  unfold canonicalQ
  simp only []
  split
  · apply M.exact_dyadic 9007199254740991 53 _ _ (by norm_num) (by norm_num)
    push_cast; norm_num
  · obtain ⟨k, e, h, hk, he⟩ := roundTo53_form g
    apply M.exact_dyadic k (64 - e) _ _ _ (by omega)
    · rw [h]
      push_cast
      have h2 : (18446744073709551616:ℝ) = 2 ^ e * 2 ^ (64 - e) := by rw [← pow_add, Nat.add_sub_cancel' he]; norm_num
      rw [h2]
      field_simp
    · rw [abs_of_nonneg (by positivity)]; exact_mod_cast hk

/-! ### Integers and shuffles, whatever the arithmetic -/

section
variable {F E : Type} [Engine F E]

theorem lemire_le_gen {k : ℕ} {e : E} {i : ℕ} {e' : E} (h : loop (lemireStep F (k+1)) e = some (i, e')) : i ≤ k := by
  refine loop_spec (P := fun _ => True) (Q := fun r : ℕ × E => r.1 ≤ k) (fun s r _ hs => ?_) (fun _ _ _ _ => trivial) trivial h
  unfold lemireStep at hs
  simp only [] at hs
  split at hs
  · cases hs
  · simp only [Option.some.injEq, Sum.inl.injEq] at hs
    rw [← hs]
    have := (Engine.word F s).1.isLt
    rw [← Nat.lt_succ_iff, Nat.div_lt_iff_lt_mul (by norm_num), Nat.succ_eq_add_one, mul_comm (k+1)]
    exact Nat.mul_lt_mul_of_pos_right this (Nat.succ_pos k)

theorem uniformDraw_le_gen {k : ℕ} {e : E} {i : ℕ} {e' : E} (h : uniformDraw F k e = some (i, e')) : i ≤ k := by
  unfold uniformDraw at h
  split at h
  · exact lemire_le_gen h
  · next hk =>
    simp only [Option.some.injEq, Prod.mk.injEq] at h
    have := (Engine.word F e).1.isLt
    rw [← h.1]
    omega

theorem swap_perm_gen (a : Array F) (i j : ℕ) : (a.swapIfInBounds i j).toList.Perm a.toList := by
  unfold Array.swapIfInBounds
  split
  · split
    · exact Array.perm_iff_toList_perm.1 (Array.swap_perm _ _)
    · exact List.Perm.refl _
  · exact List.Perm.refl _

theorem shufflePairs_perm_gen (n i : ℕ) (a : Array F) (e : E) (r : Array F × E) (h : shufflePairs F n i a e = some r) :
    r.1.toList.Perm a.toList := by
  induction n generalizing i a e with
  | zero => simp only [shufflePairs, Option.some.injEq] at h; rw [← h]
  | succ n ih =>
    rw [shufflePairs] at h
    split at h
    · cases hu : uniformDraw F ((i+1) * (i+2) - 1) e with
      | none => simp [hu] at h
      | some t =>
        simp only [hu] at h
        exact ((ih _ _ _ h).trans (swap_perm_gen _ _ _)).trans (swap_perm_gen _ _ _)
    · simp only [Option.some.injEq] at h; rw [← h]

theorem shuffleSingles_perm_gen (n i : ℕ) (a : Array F) (e : E) (r : Array F × E) (h : shuffleSingles F n i a e = some r) :
    r.1.toList.Perm a.toList := by
  induction n generalizing i a e with
  | zero => simp only [shuffleSingles, Option.some.injEq] at h; rw [← h]
  | succ n ih =>
    rw [shuffleSingles] at h
    split at h
    · cases hu : uniformDraw F i e with
      | none => simp [hu] at h
      | some t =>
        simp only [hu] at h
        exact (ih _ _ _ h).trans (swap_perm_gen _ _ _)
    · simp only [Option.some.injEq] at h; rw [← h]

theorem shuffleDraw_perm_gen (l : List F) (e : E) (r : List F × E) (h : shuffleDraw F l e = some r) : r.1.Perm l := by
  unfold shuffleDraw at h
  simp only [] at h
  split at h
  · simp only [Option.some.injEq] at h; rw [← h]
  · split at h
    · split at h
      · cases hu : uniformDraw F 1 e with
        | none => simp [hu] at h
        | some t =>
          simp only [hu, Option.map_eq_some_iff] at h
          obtain ⟨s, h1, rfl⟩ := h
          exact (shufflePairs_perm_gen _ _ _ _ _ h1).trans (swap_perm_gen _ _ _)
      · simp only [Option.map_eq_some_iff] at h
        obtain ⟨s, h1, rfl⟩ := h
        exact shufflePairs_perm_gen _ _ _ _ _ h1
    · simp only [Option.map_eq_some_iff] at h
      obtain ⟨s, h1, rfl⟩ := h
      exact shuffleSingles_perm_gen _ _ _ _ _ h1
end

/-! ### Gamma variates -/

section
variable {M : Machine}

theorem mt_canonical_fl (e : MT) : (Engine.canonical (F := Fl M) e).1.val = ((canonicalQ e.word.1 : ℚ) : ℝ) :=
  C95_exact M e.word.1

theorem gammaA1_fl_nonneg {a : Fl M} : 0 ≤ (gammaA1 a).val ∨ a.val ≤ 0 := by
  by_cases ha : 0 < a.val
  · left
    unfold gammaA1
    rw [Fl.sub_val]
    apply M.fl_nonneg
    have h1 : 1 ≤ (gammaMalpha a).val := by
      unfold gammaMalpha
      rw [Fl.lt_eq]
      split
      · rw [Fl.add_val, M.lit_one, ← M.fl_one]
        exact M.fl_mono _ _ (by rw [M.fl_one]; linarith)
      · next h => simpa [M.fl_one] using h
    have h2 : (lit 1 / lit 3 : Fl M).val ≤ 1 := by
      rw [Fl.div_val, M.lit_one, ← M.fl_one]
      apply M.fl_mono
      rw [M.fl_one, Fl.lit_val]
      have : M.fl ((3:ℚ):ℝ) = 3 := by have := M.exact_int 3 (by norm_num); push_cast at this ⊢; exact this
      rw [this]; norm_num
    linarith
  · right; exact not_lt.1 ha

theorem gammaLoop_fl_nonneg {a v : Fl M} {s : Option (Fl M) × MT} {s' : Option (Fl M) × MT} (h : loop (gammaOuterStep a) s = some (v, s')) :
    0 ≤ v.val := by
  refine loop_spec (P := fun _ => True) (Q := fun r : Fl M × (Option (Fl M) × MT) => 0 ≤ r.1.val) (fun s r _ hs => ?_)
    (fun _ _ _ _ => trivial) trivial h
  unfold gammaOuterStep at hs
  cases hi : loop (gammaInnerStep a) s with
  | none => simp [hi] at hs
  | some t =>
    obtain ⟨⟨n, w⟩, saved, e⟩ := t
    have hw : 0 ≤ w.val := by
      refine loop_spec (P := fun _ => True) (Q := fun r : (Fl M × Fl M) × (Option (Fl M) × MT) => 0 ≤ r.1.2.val) (fun s r _ hs => ?_)
        (fun _ _ _ _ => trivial) trivial hi
      unfold gammaInnerStep at hs
      cases hn : standardNormal s.1 s.2 with
      | none => simp [hn] at hs
      | some t =>
        obtain ⟨n, saved, e⟩ := t
        simp only [hn, Fl.lt_eq, Fl.lit_val, Rat.cast_zero, M.fl_zero, decide_eq_true_eq] at hs
        split at hs
        · next hv =>
          simp only [Option.some.injEq, Sum.inl.injEq] at hs
          rw [← hs]; exact hv.le
        · cases hs
    simp only [hi] at hs
    split at hs
    · cases hs
    · simp only [Option.some.injEq, Sum.inl.injEq] at hs
      rw [← hs]
      rw [Fl.mul_val, Fl.mul_val]
      exact M.fl_nonneg (mul_nonneg (M.fl_nonneg (mul_nonneg hw hw)) hw)

theorem gammaDraw_fl_nonneg {a b : Fl M} (ha : 0 < a.val) (hb : 0 < b.val) {saved : Option (Fl M)} {e : MT} {x : Fl M}
    {s : Option (Fl M) × MT} (h : gammaDraw a b saved e = some (x, s)) : 0 ≤ x.val := by
  have h1 : 0 ≤ (gammaA1 a).val := (gammaA1_fl_nonneg (a := a)).resolve_right (by linarith)
  unfold gammaDraw at h
  cases hl : loop (gammaOuterStep a) (saved, e) with
  | none => simp [hl] at h
  | some t =>
    obtain ⟨v, saved', e'⟩ := t
    have hv := gammaLoop_fl_nonneg hl
    simp only [hl] at h
    split at h
    · simp only [Option.some.injEq, Prod.mk.injEq] at h
      rw [← h.1, Fl.mul_val, Fl.mul_val]
      exact M.fl_nonneg (mul_nonneg (M.fl_nonneg (mul_nonneg h1 hv)) hb.le)
    · cases hu : loop (nonzeroStep (F := Fl M)) e' with
      | none => simp [hu] at h
      | some t =>
        obtain ⟨u, e''⟩ := t
        simp only [hu, Option.some.injEq, Prod.mk.injEq] at h
        have hu0 : 0 ≤ u.val := by
          refine loop_spec (P := fun _ => True) (Q := fun r : Fl M × MT => 0 ≤ r.1.val) (fun s r _ hs => ?_) (fun _ _ _ _ => trivial) trivial hu
          unfold nonzeroStep at hs
          simp only [] at hs
          split at hs
          · cases hs
          · simp only [Option.some.injEq, Sum.inl.injEq] at hs
            rw [← hs]
            show 0 ≤ (Engine.canonical (F := Fl M) s).1.val
            rw [mt_canonical_fl]
            exact_mod_cast (canonicalQ_mem _).1
        rw [← h.1, Fl.mul_val, Fl.mul_val, Fl.mul_val, Fl.pow_val]
        exact M.fl_nonneg (mul_nonneg (M.fl_nonneg (mul_nonneg (M.fl_nonneg (mul_nonneg (M.pow_nonneg _ _ hu0) h1)) hv)) hb.le)

/-- **C95, in rounded arithmetic.** With every operation rounded, the library still delivers uniform numbers in [0, 1),
non-negative gamma variates, indices in range, and permutations, from every state of engine and distributions. -/
theorem C95_rounded (M : Machine) :
    (∀ e : MT, 0 ≤ (Rng.canonical (F := Fl M) (D := LibDist (Fl M)) e).1.val ∧ (Rng.canonical (F := Fl M) (D := LibDist (Fl M)) e).1.val < 1) ∧
    (∀ (a b : Fl M) (d : LibDist (Fl M)) (e : MT), 0 ≤ (Rng.gamma a b d e).1.val) ∧
    (∀ (k : ℕ) (d : LibDist (Fl M)) (e : MT), (Rng.uniformInt (Fl M) k d e).1 ≤ k) ∧
    (∀ (l : List (Fl M)) (e : MT), (Rng.shuffle (D := LibDist (Fl M)) l e).1.Perm l) := by
  refine ⟨fun e => ?_, fun a b d e => ?_, fun k d e => ?_, fun l e => ?_⟩
  · show 0 ≤ (Engine.canonical (F := Fl M) e).1.val ∧ (Engine.canonical (F := Fl M) e).1.val < 1
    rw [mt_canonical_fl]
    have h := canonicalQ_mem e.word.1
    exact ⟨by exact_mod_cast h.1, by exact_mod_cast h.2⟩
  · show 0 ≤ (libGamma a b d e).1.val
    unfold libGamma
    split
    · next hc =>
      simp only [Fl.lt_eq, Fl.lit_val, Rat.cast_zero, M.fl_zero, Bool.and_eq_true, decide_eq_true_eq] at hc
      cases h : gammaDraw a b d.fluctuation e with
      | none => simp [M.fl_zero]
      | some t => exact gammaDraw_fl_nonneg hc.1 hc.2 (s := t.2) h
    · simp [M.fl_zero]
  · show (libUniform (F := Fl M) k d e).1 ≤ k
    unfold libUniform
    cases h : uniformDraw (Fl M) k e with
    | none => exact Nat.zero_le _
    | some t => exact uniformDraw_le_gen (e' := t.2) h
  · show ((shuffleDraw (Fl M) l e).getD (l, e)).1.Perm l
    cases h : shuffleDraw (Fl M) l e with
    | none => exact List.Perm.refl _
    | some r => exact shuffleDraw_perm_gen l e r h

end

/-- The first canonical number of an engine seeded with 1, and a shuffle of three numbers, in IEEE arithmetic: instances of the
theorems. -/
example : 0 ≤ (Rng.canonical (F := Fl ieee) (D := LibDist (Fl ieee)) (MT.seed 1)).1.val ∧
    (Rng.shuffle (D := LibDist (Fl ieee)) [(lit 1 : Fl ieee), lit 2, lit 3] (MT.seed 1)).1.length = 3 ∧
    ieee.fl ((canonicalQ 0x123456789abcdef#64 : ℚ) : ℝ) = ((canonicalQ 0x123456789abcdef#64 : ℚ) : ℝ) :=
  ⟨((C95_rounded ieee).1 _).1, by rw [((C95_rounded ieee).2.2.2 _ _).length_eq]; rfl, C95_exact ieee _⟩

end Trento
