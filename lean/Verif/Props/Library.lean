import Verif.Lemmas.Loop
import Verif.Lemmas.Pwl
import Verif.Props.NoUB
import Verif.Props.ExampleRun
import Mathlib.Analysis.Complex.ExponentialBounds

/-!
# C95: the random library trento uses keeps the contract the other theorems assume
-/

namespace Trento
open Spec

/-- An engine whose canonical numbers lie in [0, 1). -/
class LawfulEngine (E : Type) [Engine ℝ E] : Prop where
  canonical_mem : ∀ e : E, 0 ≤ (Engine.canonical (F := ℝ) e).1 ∧ (Engine.canonical (F := ℝ) e).1 < 1

/-! ### The canonical numbers of a 64-bit engine -/

theorem roundTo53_dvd (n : ℕ) : 2 ^ (Nat.log2 n - 52) ∣ roundTo53 n := by
  unfold roundTo53
  simp only []
  split
  · exact dvd_mul_left _ _
  · split
    · exact dvd_mul_left _ _
    · split
      · exact dvd_mul_left _ _
      · exact dvd_mul_left _ _

theorem roundTo53_le (n : ℕ) : roundTo53 n ≤ 2 ^ (Nat.log2 n + 1) := by
  set L := Nat.log2 n with hL
  have hn : n < 2 ^ (L + 1) := Nat.lt_log2_self
  set unit := 2 ^ (L - 52) with hu
  have hu0 : 0 < unit := by positivity
  have hd : unit ∣ 2 ^ (L + 1) := pow_dvd_pow _ (by omega)
  obtain ⟨c, hc⟩ := hd
  have hq : n / unit < c := by
    rw [Nat.div_lt_iff_lt_mul hu0, mul_comm, ← hc]; exact hn
  have h1 : (n / unit + 1) * unit ≤ 2 ^ (L + 1) := by
    rw [hc, mul_comm unit c]
    exact Nat.mul_le_mul_right _ hq
  have h2 : n / unit * unit ≤ 2 ^ (L + 1) := le_trans (Nat.mul_le_mul_right _ (Nat.le_succ _)) h1
  unfold roundTo53
  simp only [← hL, ← hu]
  split
  · exact h2
  · split
    · exact h1
    · split
      · exact h2
      · exact h1

/-- rounding moves a number by at most half the spacing of the doubles there -/
theorem roundTo53_near (n : ℕ) : 2 * roundTo53 n ≤ 2 * n + 2 ^ (Nat.log2 n - 52) ∧ 2 * n ≤ 2 * roundTo53 n + 2 ^ (Nat.log2 n - 52) := by
  unfold roundTo53
  simp only []
  generalize hu : 2 ^ (Nat.log2 n - 52) = unit
  have hm := Nat.div_add_mod n unit
  have hu0 : 0 < unit := by rw [← hu]; positivity
  have hr := Nat.mod_lt n hu0
  generalize n / unit = q at *
  generalize n % unit = r at *
  have e1 : (q + 1) * unit = unit * q + unit := by ring
  have e2 : q * unit = unit * q := by ring
  split
  · constructor <;> omega
  · split
    · constructor <;> omega
    · split <;> constructor <;> omega

theorem log2_word (g : BitVec 64) : Nat.log2 g.toNat ≤ 63 := by
  by_cases h : g.toNat = 0
  · rw [h]; simp
  · have := (Nat.log2_lt h).2 g.isLt
    omega

/-- `generate_canonical` yields values in [0, 1), at most `2^-53` (one unit in the last place) away from `g / 2^64`. -/
theorem canonicalQ_mem (g : BitVec 64) : 0 ≤ canonicalQ g ∧ canonicalQ g < 1 := by
  unfold canonicalQ
  simp only []
  split
  · constructor <;> norm_num
  · next h => exact ⟨by positivity, not_le.1 h⟩

theorem canonicalQ_near (g : BitVec 64) : |canonicalQ g - (g.toNat : ℚ) / 18446744073709551616| ≤ 1 / 9007199254740992 := by
  obtain ⟨h1, h2⟩ := roundTo53_near g.toNat
  have hl := log2_word g
  have hu : 2 ^ (Nat.log2 g.toNat - 52) ≤ 2 ^ 11 := Nat.pow_le_pow_right (by norm_num) (by omega)
  have hg := g.isLt
  have a1 : 2 * roundTo53 g.toNat ≤ 2 * g.toNat + 2048 := by omega
  have a2 : 2 * g.toNat ≤ 2 * roundTo53 g.toNat + 2048 := by omega
  have b1 : 2 * (roundTo53 g.toNat : ℚ) ≤ 2 * (g.toNat : ℚ) + 2048 := by exact_mod_cast a1
  have b2 : 2 * (g.toNat : ℚ) ≤ 2 * (roundTo53 g.toNat : ℚ) + 2048 := by exact_mod_cast a2
  have b3 : (g.toNat : ℚ) + 1 ≤ 18446744073709551616 := by exact_mod_cast hg
  have b4 : (0:ℚ) ≤ (g.toNat : ℚ) := by positivity
  unfold canonicalQ
  simp only []
  rw [abs_le]
  split
  · next h =>
    rw [le_div_iff₀ (by norm_num)] at h
    constructor
    · have : (g.toNat : ℚ) / 18446744073709551616 ≤ 1 := by rw [div_le_one (by norm_num)]; linarith
      linarith
    · have : 1 - 1 / 9007199254740992 ≤ (g.toNat : ℚ) / 18446744073709551616 := by
        rw [le_div_iff₀ (by norm_num)]; linarith
      linarith
  · rw [← sub_div]
    constructor
    · rw [le_div_iff₀ (by norm_num)]; linarith
    · rw [div_le_iff₀ (by norm_num)]; linarith

/-- the numbers `2u - 1` of the polar method are zero or at least `2^-53` in magnitude -/
theorem canonicalQ_gap (g : BitVec 64) : 2 * canonicalQ g - 1 = 0 ∨ 1 / 9007199254740992 ≤ |2 * canonicalQ g - 1| := by
  unfold canonicalQ
  simp only []
  split
  · right; rw [abs_of_pos] <;> norm_num
  · by_cases hl : 62 ≤ Nat.log2 g.toNat
    · have hd : 2 ^ 10 ∣ roundTo53 g.toNat := (pow_dvd_pow 2 (by omega)).trans (roundTo53_dvd _)
      obtain ⟨j, hj⟩ := hd
      rw [hj]
      push_cast
      have e : 2 * ((1024:ℚ) * j / 18446744073709551616) - 1 = (((j:ℤ) - 9007199254740992 : ℤ) : ℚ) / 9007199254740992 := by
        push_cast
        field_simp
        ring
      rw [e]
      by_cases h0 : (j:ℤ) - 9007199254740992 = 0
      · left; rw [h0]; simp
      · right
        rw [abs_div, abs_of_pos (show (0:ℚ) < 9007199254740992 by norm_num)]
        apply div_le_div_of_nonneg_right _ (by norm_num)
        rw [← Int.cast_abs]
        exact_mod_cast Int.one_le_abs h0
    · right
      have h1 := roundTo53_le g.toNat
      have h2 : 2 ^ (Nat.log2 g.toNat + 1) ≤ 2 ^ 62 := Nat.pow_le_pow_right (by norm_num) (by omega)
      have h3 : roundTo53 g.toNat ≤ 4611686018427387904 := by omega
      have h4 : (roundTo53 g.toNat : ℚ) ≤ 4611686018427387904 := by exact_mod_cast h3
      have h5 : (roundTo53 g.toNat : ℚ) / 18446744073709551616 ≤ 1/4 := by
        rw [div_le_iff₀ (by norm_num)]; linarith
      rw [abs_of_nonpos (by linarith)]
      linarith

/-- **C95, zero.** A canonical number is 0 only if the engine delivered the 64-bit number 0; every other one is at least `2^-64`.
(0 is the only number that sends a deuteron's nucleons to infinity, see C18.) -/
theorem C95_zero (g : BitVec 64) : (canonicalQ g = 0 ↔ g = 0#64) ∧ (g ≠ 0#64 → 1 / 18446744073709551616 ≤ canonicalQ g) := by
  have pos : g ≠ 0#64 → 1 / 18446744073709551616 ≤ canonicalQ g := by
    intro hg
    have hn : g.toNat ≠ 0 := fun h => hg (by apply BitVec.eq_of_toNat_eq; simpa using h)
    have h1 : 1 ≤ roundTo53 g.toNat := by
      have hl : 2 ^ Nat.log2 g.toNat ≤ g.toNat := Nat.log2_self_le hn
      have hq : 1 ≤ g.toNat / 2 ^ (Nat.log2 g.toNat - 52) := by
        rw [Nat.one_le_div_iff (by positivity)]
        exact le_trans (Nat.pow_le_pow_right (by norm_num) (by omega)) hl
      have hu : 1 ≤ 2 ^ (Nat.log2 g.toNat - 52) := Nat.one_le_two_pow
      have m1 := Nat.mul_le_mul hq hu
      have m2 := Nat.mul_le_mul (Nat.le_add_left 1 (g.toNat / 2 ^ (Nat.log2 g.toNat - 52))) hu
      unfold roundTo53
      simp only []
      split
      · exact m1
      · split
        · exact m2
        · split
          · exact m1
          · exact m2
    have h2 : (1:ℚ) ≤ (roundTo53 g.toNat : ℚ) := by exact_mod_cast h1
    unfold canonicalQ
    simp only []
    split
    · norm_num
    · rw [div_le_div_iff_of_pos_right (by norm_num)]; exact h2
  refine ⟨⟨fun h => ?_, fun h => ?_⟩, pos⟩
  · by_contra hg
    have := pos hg
    rw [h] at this
    norm_num at this
  · subst h
    norm_num [canonicalQ, roundTo53]

instance : LawfulEngine MT where
  canonical_mem e := by
    have h := canonicalQ_mem e.word.1
    constructor
    · show (0:ℝ) ≤ ((canonicalQ e.word.1 : ℚ) : ℝ)
      exact_mod_cast h.1
    · show ((canonicalQ e.word.1 : ℚ) : ℝ) < 1
      exact_mod_cast h.2

/-! ### The distributions -/

section
variable {E : Type} [Engine ℝ E]

/-- what a pass of the polar method that ends the loop delivers -/
theorem polarStep_inl {e : E} {x y r2 : ℝ} {e' : E} (h : polarStep (F := ℝ) e = some (.inl ((x, y, r2), e'))) :
    r2 = x^2 + y^2 ∧ r2 ≤ 1 ∧ 0 < r2 ∧ x = 2 * (Engine.canonical (F := ℝ) e).1 - 1 ∧
      y = 2 * (Engine.canonical (F := ℝ) (Engine.canonical (F := ℝ) e).2).1 - 1 := by
  unfold polarStep at h
  simp only [lit_real, lt_real, eqv_real, Rat.cast_one, Rat.cast_zero, Rat.cast_ofNat] at h
  split at h
  · cases h
  · next hc =>
    simp only [Bool.or_eq_true, decide_eq_true_eq, not_or, not_lt] at hc
    simp only [Option.some.injEq, Sum.inl.injEq, Prod.mk.injEq] at h
    obtain ⟨⟨h1, h2, h3⟩, -⟩ := h
    rw [h1, h2] at h3 hc
    rw [h3] at hc
    have h0 : r2 = x^2 + y^2 := by rw [← h3]; ring
    refine ⟨h0, hc.1, lt_of_le_of_ne ?_ (Ne.symm hc.2), h1.symm, h2.symm⟩
    rw [h0]; positivity

theorem gammaA1_pos {a : ℝ} (ha : 0 < a) : 0 < gammaA1 a := by
  unfold gammaA1 gammaMalpha
  simp only [lt_real, lit_real, Rat.cast_one, Rat.cast_ofNat]
  split
  · linarith
  · next h => simp at h; linarith

/-- the cube the gamma loop ends with is positive -/
theorem gammaLoop_pos {a v : ℝ} {s : Option ℝ × E} {s' : Option ℝ × E} (h : loop (gammaOuterStep a) s = some (v, s')) : 0 < v := by
  refine loop_spec (P := fun _ => True) (Q := fun r : ℝ × (Option ℝ × E) => 0 < r.1) (fun s r _ hs => ?_) (fun _ _ _ _ => trivial) trivial h
  unfold gammaOuterStep at hs
  cases hi : loop (gammaInnerStep a) s with
  | none => simp [hi] at hs
  | some t =>
    obtain ⟨⟨n, w⟩, saved, e⟩ := t
    have hw : 0 < w := by
      refine loop_spec (P := fun _ => True) (Q := fun r : (ℝ × ℝ) × (Option ℝ × E) => 0 < r.1.2) (fun s r _ hs => ?_) (fun _ _ _ _ => trivial)
        trivial hi
      unfold gammaInnerStep at hs
      cases hn : standardNormal s.1 s.2 with
      | none => simp [hn] at hs
      | some t =>
        obtain ⟨n, saved, e⟩ := t
        simp only [hn, lt_real, lit_real, Rat.cast_zero, decide_eq_true_eq] at hs
        split at hs
        · next hv =>
          simp only [Option.some.injEq, Sum.inl.injEq] at hs
          rw [← hs]; exact hv
        · cases hs
    simp only [hi] at hs
    split at hs
    · cases hs
    · simp only [Option.some.injEq, Sum.inl.injEq] at hs
      rw [← hs]
      exact mul_pos (mul_pos hw hw) hw

theorem gammaDraw_nonneg {a b : ℝ} (ha : 0 < a) (hb : 0 < b) [LawfulEngine E] {saved : Option ℝ} {e : E} {x : ℝ} {s : Option ℝ × E}
    (h : gammaDraw a b saved e = some (x, s)) : 0 ≤ x := by
  have h1 := gammaA1_pos ha
  unfold gammaDraw at h
  cases hl : loop (gammaOuterStep a) (saved, e) with
  | none => simp [hl] at h
  | some t =>
    obtain ⟨v, saved', e'⟩ := t
    have hv := gammaLoop_pos hl
    simp only [hl] at h
    split at h
    · simp only [Option.some.injEq, Prod.mk.injEq] at h
      rw [← h.1]; positivity
    · cases hu : loop (nonzeroStep (F := ℝ)) e' with
      | none => simp [hu] at h
      | some t =>
        obtain ⟨u, e''⟩ := t
        simp only [hu, Option.some.injEq, Prod.mk.injEq] at h
        have hu0 : 0 ≤ u := by
          refine loop_spec (P := fun _ => True) (Q := fun r : ℝ × E => 0 ≤ r.1) (fun s r _ hs => ?_) (fun _ _ _ _ => trivial) trivial hu
          unfold nonzeroStep at hs
          simp only [] at hs
          split at hs
          · cases hs
          · simp only [Option.some.injEq, Sum.inl.injEq] at hs
            rw [← hs]
            exact (LawfulEngine.canonical_mem s).1
        rw [← h.1]
        simp only [pow_real]
        have := Real.rpow_nonneg hu0 (lit 1 / a)
        positivity

theorem lemire_le {k : ℕ} {e : E} {i : ℕ} {e' : E} (h : loop (lemireStep ℝ (k+1)) e = some (i, e')) : i ≤ k := by
  refine loop_spec (P := fun _ => True) (Q := fun r : ℕ × E => r.1 ≤ k) (fun s r _ hs => ?_) (fun _ _ _ _ => trivial) trivial h
  unfold lemireStep at hs
  simp only [] at hs
  split at hs
  · cases hs
  · simp only [Option.some.injEq, Sum.inl.injEq] at hs
    rw [← hs]
    have := (Engine.word ℝ s).1.isLt
    rw [← Nat.lt_succ_iff, Nat.div_lt_iff_lt_mul (by norm_num), Nat.succ_eq_add_one, mul_comm (k+1)]
    exact Nat.mul_lt_mul_of_pos_right this (Nat.succ_pos k)

theorem uniformDraw_le {k : ℕ} {e : E} {i : ℕ} {e' : E} (h : uniformDraw ℝ k e = some (i, e')) : i ≤ k := by
  unfold uniformDraw at h
  split at h
  · exact lemire_le h
  · next hk =>
    simp only [Option.some.injEq, Prod.mk.injEq] at h
    have := (Engine.word ℝ e).1.isLt
    rw [← h.1]
    omega

theorem swap_perm (a : Array ℝ) (i j : ℕ) : (a.swapIfInBounds i j).toList.Perm a.toList := by
  unfold Array.swapIfInBounds
  split
  · split
    · exact Array.perm_iff_toList_perm.1 (Array.swap_perm _ _)
    · exact List.Perm.refl _
  · exact List.Perm.refl _

theorem shufflePairs_perm (n i : ℕ) (a : Array ℝ) (e : E) (r : Array ℝ × E) (h : shufflePairs ℝ n i a e = some r) : r.1.toList.Perm a.toList := by
  induction n generalizing i a e with
  | zero => simp only [shufflePairs, Option.some.injEq] at h; rw [← h]
  | succ n ih =>
    rw [shufflePairs] at h
    split at h
    · cases hu : uniformDraw ℝ ((i+1) * (i+2) - 1) e with
      | none => simp [hu] at h
      | some t =>
        simp only [hu] at h
        exact ((ih _ _ _ h).trans (swap_perm _ _ _)).trans (swap_perm _ _ _)
    · simp only [Option.some.injEq] at h; rw [← h]

theorem shuffleSingles_perm (n i : ℕ) (a : Array ℝ) (e : E) (r : Array ℝ × E) (h : shuffleSingles ℝ n i a e = some r) : r.1.toList.Perm a.toList := by
  induction n generalizing i a e with
  | zero => simp only [shuffleSingles, Option.some.injEq] at h; rw [← h]
  | succ n ih =>
    rw [shuffleSingles] at h
    split at h
    · cases hu : uniformDraw ℝ i e with
      | none => simp [hu] at h
      | some t =>
        simp only [hu] at h
        exact (ih _ _ _ h).trans (swap_perm _ _ _)
    · simp only [Option.some.injEq] at h; rw [← h]

theorem shuffleDraw_perm (l : List ℝ) (e : E) (r : List ℝ × E) (h : shuffleDraw ℝ l e = some r) : r.1.Perm l := by
  unfold shuffleDraw at h
  simp only [] at h
  split at h
  · simp only [Option.some.injEq] at h; rw [← h]
  · split at h
    · split at h
      · cases hu : uniformDraw ℝ 1 e with
        | none => simp [hu] at h
        | some t =>
          simp only [hu, Option.map_eq_some_iff] at h
          obtain ⟨s, h1, rfl⟩ := h
          exact (shufflePairs_perm _ _ _ _ _ h1).trans (swap_perm _ _ _)
      · simp only [Option.map_eq_some_iff] at h
        obtain ⟨s, h1, rfl⟩ := h
        exact shufflePairs_perm _ _ _ _ _ h1
    · simp only [Option.map_eq_some_iff] at h
      obtain ⟨s, h1, rfl⟩ := h
      exact shuffleSingles_perm _ _ _ _ _ h1

theorem pwlDraw_mem [LawfulEngine E] (t : List (ℝ × ℝ)) (e : E) (lo hi : ℝ) (hne : t ≠ []) (hb : ∀ p ∈ t, lo ≤ p.1 ∧ p.1 ≤ hi) :
    lo ≤ (pwlDraw t e).1 ∧ (pwlDraw t e).1 ≤ hi := by
  have hp := LawfulEngine.canonical_mem e
  unfold pwlDraw
  simp only [lit_real, Rat.cast_zero, lt_real]
  split
  · next hc =>
    simp only [Bool.and_eq_true, decide_eq_true_eq, goodTable_real] at hc
    obtain ⟨hg, hs⟩ := hc
    have hlast : (runningSums (0:ℝ) (segAreas t)).getLastD 0 = tableArea t := by
      rw [runningSums_last, zero_add]; rfl
    rw [hlast] at hs
    have hv : lo ≤ pwlValue t (Engine.canonical e).1 ∧ pwlValue t (Engine.canonical e).1 ≤ hi := by
      rw [pwlValue_eq t hs _ hp.2.le]
      exact pwlRec_mem hg hne (mul_nonneg hp.1 hs.le) (by nlinarith [hp.2]) hb
    split
    · next b0 d0 b1 d1 =>
      split
      · next hc =>
        simp only [eqv_real, Bool.and_eq_true, decide_eq_true_eq, Rat.cast_one] at hc
        have h0 := hb (b0, d0) (by simp)
        have h1 := hb (b1, d1) (by simp)
        simp only [hc.1.1, hc.1.2] at h0 h1
        exact ⟨by show lo ≤ _; linarith [hp.1], by show _ ≤ hi; linarith [hp.2]⟩
      · exact hv
    · exact hv
  · obtain ⟨p, t', rfl⟩ := List.exists_cons_of_ne_nil hne
    exact hb _ (by simp)

/-- **C95, the contract.** libstdc++'s distributions with any engine whose canonical numbers lie in [0, 1): uniform numbers in [0, 1),
gamma variates non-negative, piecewise linear variates within the breakpoints, indices in range, shuffles permutations. -/
theorem C95_contract [LawfulEngine E] : LawfulRng E (LibDist ℝ) where
  canonical_mem e := LawfulEngine.canonical_mem e
  gamma_nonneg a b d e := by
    show 0 ≤ (libGamma a b d e).1
    unfold libGamma
    split
    · next hc =>
      simp only [lt_real, lit_real, Rat.cast_zero, Bool.and_eq_true, decide_eq_true_eq] at hc
      cases h : gammaDraw a b d.fluctuation e with
      | none => simp
      | some t => exact gammaDraw_nonneg hc.1 hc.2 (s := t.2) h
    · simp
  piecewiseLinear_mem t d e lo hi hne hb := pwlDraw_mem t e lo hi hne hb
  normal_zero d e := by
    show (libNormal (0:ℝ) 0 d e).1 = 0
    unfold libNormal
    cases standardNormal d.position e with
    | none => rfl
    | some t => simp
  uniformInt_le k d e := by
    show (libUniform (F := ℝ) k d e).1 ≤ k
    unfold libUniform
    cases h : uniformDraw ℝ k e with
    | none => exact Nat.zero_le _
    | some t => exact uniformDraw_le (e' := t.2) h
  shuffle_perm l e := by
    show ((shuffleDraw ℝ l e).getD (l, e)).1.Perm l
    cases h : shuffleDraw ℝ l e with
    | none => exact List.Perm.refl _
    | some r => exact shuffleDraw_perm l e r h

instance [LawfulEngine E] : LawfulRng E (LibDist ℝ) := C95_contract

end

/-! ### Normal numbers from 53-bit numbers are bounded -/

theorem polar_bound {x y r2 : ℝ} (hr : r2 = x^2 + y^2) (h1 : r2 ≤ 1) (hlo : 1 / 9007199254740992^2 ≤ r2) :
    |x * √(-2 * Real.log r2 / r2)| ≤ 13 ∧ |y * √(-2 * Real.log r2 / r2)| ≤ 13 := by
  have hr0 : 0 < r2 := lt_of_lt_of_le (by norm_num) hlo
  have hlog : -(106 * Real.log 2) ≤ Real.log r2 := by
    have h2 : Real.log (1 / 9007199254740992^2) ≤ Real.log r2 := Real.log_le_log (by norm_num) hlo
    have h3 : (1:ℝ) / 9007199254740992^2 = (2^106)⁻¹ := by norm_num
    rw [h3, Real.log_inv, Real.log_pow] at h2
    exact_mod_cast h2
  have hl2 := Real.log_two_lt_d9
  have hl3 : Real.log r2 ≤ 0 := Real.log_nonpos hr0.le h1
  have main : ∀ t : ℝ, t^2 ≤ r2 → |t * √(-2 * Real.log r2 / r2)| ≤ 13 := by
    intro t ht
    apply abs_le_of_sq_le_sq _ (by norm_num)
    rw [mul_pow, Real.sq_sqrt (div_nonneg (by linarith) hr0.le)]
    have : t^2 * (-2 * Real.log r2 / r2) = t^2 / r2 * (-2 * Real.log r2) := by ring
    rw [this]
    have h4 : t^2 / r2 ≤ 1 := (div_le_one hr0).2 ht
    have h5 : 0 ≤ t^2 / r2 := by positivity
    nlinarith
  exact ⟨main x (by rw [hr]; nlinarith [sq_nonneg y]), main y (by rw [hr]; nlinarith [sq_nonneg x])⟩

theorem mt_canonical (e : MT) : (Engine.canonical (F := ℝ) e).1 = ((canonicalQ e.word.1 : ℚ) : ℝ) := rfl

theorem mt_gap (e : MT) : 2 * (Engine.canonical (F := ℝ) e).1 - 1 = 0 ∨ 1 / 9007199254740992 ≤ |2 * (Engine.canonical (F := ℝ) e).1 - 1| := by
  rw [mt_canonical]
  rcases canonicalQ_gap e.word.1 with h | h
  · left; exact_mod_cast h
  · right
    have h2 : ((1 / 9007199254740992 : ℚ) : ℝ) ≤ ((|2 * canonicalQ e.word.1 - 1| : ℚ) : ℝ) := by exact_mod_cast h
    push_cast at h2
    exact h2

/-- **C95, bounded normal numbers.** A standard normal number obtained from the Mersenne twister is at most 13 in magnitude, and so is
the second number that is saved for the next call. -/
theorem C95_normal (e e' : MT) (z : ℝ) (saved : Option ℝ) (h : standardNormal (F := ℝ) none e = some (z, saved, e')) :
    |z| ≤ 13 ∧ ∀ z' ∈ saved, |z'| ≤ 13 := by
  unfold standardNormal at h
  cases hl : loop (polarStep (F := ℝ)) e with
  | none => simp [hl] at h
  | some t =>
    obtain ⟨⟨x, y, r2⟩, e1⟩ := t
    have key : |x * √(-2 * Real.log r2 / r2)| ≤ 13 ∧ |y * √(-2 * Real.log r2 / r2)| ≤ 13 := by
      refine loop_spec (P := fun _ => True)
        (Q := fun r : (ℝ × ℝ × ℝ) × MT => |r.1.1 * √(-2 * Real.log r.1.2.2 / r.1.2.2)| ≤ 13 ∧ |r.1.2.1 * √(-2 * Real.log r.1.2.2 / r.1.2.2)| ≤ 13)
        (fun s r _ hs => ?_) (fun _ _ _ _ => trivial) trivial hl
      obtain ⟨⟨x, y, r2⟩, e'⟩ := r
      obtain ⟨h1, h2, h3, h4, h5⟩ := polarStep_inl hs
      refine polar_bound h1 h2 ?_
      have g4 := mt_gap s
      have g5 := mt_gap (Engine.canonical (F := ℝ) s).2
      rw [← h4] at g4
      rw [← h5] at g5
      rw [h1]
      have sqr : ∀ t : ℝ, 1 / 9007199254740992 ≤ |t| → 1 / 9007199254740992^2 ≤ t^2 := by
        intro t ht
        rw [← sq_abs t]
        have : (1:ℝ) / 9007199254740992^2 = (1 / 9007199254740992)^2 := by norm_num
        rw [this]
        exact pow_le_pow_left₀ (by norm_num) ht 2
      rcases g4 with g4 | g4
      · rcases g5 with g5 | g5
        · rw [h1, g4, g5] at h3; norm_num at h3
        · nlinarith [sqr y g5, sq_nonneg x]
      · nlinarith [sqr x g4, sq_nonneg y]
    simp only [hl, Option.some.injEq, Prod.mk.injEq, lit_real, log_real, sqrt_real] at h
    obtain ⟨h1, h2, -⟩ := h
    have e2 : ((-2:ℚ) : ℝ) = -2 := by norm_num
    rw [e2] at h1 h2
    constructor
    · rw [← h1]; exact key.2
    · rw [← h2]
      rintro z' hz
      cases hz
      exact key.1

/-- The state of the distribution objects of a program that uses the Mersenne twister: a saved normal number came out of
`C95_normal`. -/
structure MTDist where
  dist : LibDist ℝ
  bounded : ∀ z ∈ dist.position, |z| ≤ 13

theorem standardNormal_bounded (d : MTDist) (e e' : MT) (z : ℝ) (saved : Option ℝ)
    (h : standardNormal (F := ℝ) d.dist.position e = some (z, saved, e')) : |z| ≤ 13 ∧ ∀ z' ∈ saved, |z'| ≤ 13 := by
  cases hp : d.dist.position with
  | none => rw [hp] at h; exact C95_normal e e' z saved h
  | some y =>
    rw [hp] at h
    simp only [standardNormal, Option.some.injEq, Prod.mk.injEq] at h
    obtain ⟨rfl, rfl, -⟩ := h
    exact ⟨d.bounded y (by simp [hp]), by simp⟩

theorem libNormal_bounded (m s : ℝ) (d : MTDist) (e : MT) : ∀ z ∈ (Rng.normal m s d.dist e).2.1.position, |z| ≤ 13 := by
  show ∀ z ∈ (libNormal m s d.dist e).2.1.position, |z| ≤ 13
  unfold libNormal
  cases h : standardNormal d.dist.position e with
  | none => exact d.bounded
  | some t =>
    obtain ⟨z, saved, e'⟩ := t
    exact (standardNormal_bounded d e e' z saved h).2

theorem libGamma_position (a b : ℝ) (d : LibDist ℝ) (e : MT) : (Rng.gamma a b d e).2.1.position = d.position := by
  show (libGamma a b d e).2.1.position = _
  unfold libGamma
  split
  · cases gammaDraw a b d.fluctuation e <;> rfl
  · rfl

theorem libUniform_dist (k : ℕ) (d : LibDist ℝ) (e : MT) : (Rng.uniformInt ℝ k d e).2.1 = d := by
  show (libUniform k d e).2.1 = d
  unfold libUniform
  cases uniformDraw ℝ k e <;> rfl

/-- trento's random library: libstdc++ with the Mersenne twister.  Every operation is that of `libRng`; only the state carries the
bound on the saved number. -/
noncomputable instance : Rng ℝ MT MTDist where
  canonical e := Rng.canonical (D := LibDist ℝ) e
  normal m s d e := ((Rng.normal m s d.dist e).1, ⟨(Rng.normal m s d.dist e).2.1, libNormal_bounded m s d e⟩, (Rng.normal m s d.dist e).2.2)
  gamma a b d e := ((Rng.gamma a b d.dist e).1, ⟨(Rng.gamma a b d.dist e).2.1, by rw [libGamma_position]; exact d.bounded⟩,
    (Rng.gamma a b d.dist e).2.2)
  piecewiseLinear t d e := ((Rng.piecewiseLinear t d.dist e).1, d, (Rng.piecewiseLinear t d.dist e).2.2)
  uniformInt k d e := ((Rng.uniformInt ℝ k d.dist e).1, d, (Rng.uniformInt ℝ k d.dist e).2.2)
  shuffle l e := Rng.shuffle (LibDist ℝ) l e
  seed := Rng.seed ℝ (LibDist ℝ)
  freshDist := ⟨Rng.freshDist ℝ MT, fun z hz => by cases hz⟩

/-- **C95, the contract, for the Mersenne twister.** -/
theorem C95_twister : LawfulRng MT MTDist where
  canonical_mem e := LawfulRng.canonical_mem (D := LibDist ℝ) e
  gamma_nonneg a b d e := LawfulRng.gamma_nonneg a b d.dist e
  piecewiseLinear_mem t d e := LawfulRng.piecewiseLinear_mem t d.dist e
  normal_zero d e := LawfulRng.normal_zero d.dist e
  uniformInt_le k d e := LawfulRng.uniformInt_le k d.dist e
  shuffle_perm l e := LawfulRng.shuffle_perm (D := LibDist ℝ) l e

instance : LawfulRng MT MTDist := C95_twister

/-- **C95, constituent positions.** With the Mersenne twister, a constituent position drawn with width `s` is at most `13 s` away. -/
theorem C95_positions : NormalBounded MT MTDist 13 := by
  intro s d e hs
  show |(libNormal 0 s d.dist e).1| ≤ 13 * s
  unfold libNormal
  cases h : standardNormal d.dist.position e with
  | none => simpa using hs
  | some t =>
    obtain ⟨z, saved, e'⟩ := t
    have := (standardNormal_bounded d e e' z saved h).1
    show |z * s + 0| ≤ 13 * s
    rw [add_zero, abs_mul, abs_of_nonneg hs]
    exact mul_le_mul_of_nonneg_right this hs

/-- **C95, the state.** The random source of `C95_twister` is libstdc++'s: erasing the bound on the saved number from the state, every
operation is that of the library. -/
theorem C95_erase (d : MTDist) (e : MT) :
    (∀ m s : ℝ, ((Rng.normal m s d e).1, (Rng.normal m s d e).2.1.dist, (Rng.normal m s d e).2.2) = Rng.normal m s d.dist e) ∧
    (∀ a b : ℝ, ((Rng.gamma a b d e).1, (Rng.gamma a b d e).2.1.dist, (Rng.gamma a b d e).2.2) = Rng.gamma a b d.dist e) ∧
    (∀ t : List (ℝ × ℝ), ((Rng.piecewiseLinear t d e).1, (Rng.piecewiseLinear t d e).2.1.dist, (Rng.piecewiseLinear t d e).2.2) =
      Rng.piecewiseLinear t d.dist e) ∧
    (∀ k : ℕ, ((Rng.uniformInt ℝ k d e).1, (Rng.uniformInt ℝ k d e).2.1.dist, (Rng.uniformInt ℝ k d e).2.2) = Rng.uniformInt ℝ k d.dist e) ∧
    Rng.canonical (F := ℝ) (D := MTDist) e = Rng.canonical (D := LibDist ℝ) e ∧
    (∀ l : List ℝ, Rng.shuffle MTDist l e = Rng.shuffle (LibDist ℝ) l e) ∧
    (∀ s, Rng.seed ℝ MTDist s = MT.seed s) ∧ (Rng.freshDist ℝ MT : MTDist).dist = ⟨none, none⟩ := by
  refine ⟨fun _ _ => rfl, fun _ _ => rfl, fun t => ?_, fun k => ?_, rfl, fun _ => rfl, fun _ => rfl, rfl⟩
  · rfl
  · show ((Rng.uniformInt ℝ k d.dist e).1, d.dist, (Rng.uniformInt ℝ k d.dist e).2.2) = Rng.uniformInt ℝ k d.dist e
    exact Prod.ext rfl (Prod.ext (libUniform_dist k d.dist e).symm rfl)

/-- **C95, the program.** A run with the actual random library, from any seed or engine state: no undefined behaviour and no exception
(`C61_no_undefined_behaviour` with every assumption about random numbers discharged). -/
theorem C95_run (o : Options ℝ) (sigma : ℝ) {rA rB : ℝ}
    (hA : Usable MT MTDist o.projectileA rA) (hB : Usable MT MTDist o.projectileB rB)
    (hv : 0 < o.constitWidth) (hm : 1 ≤ o.constitNumber)
    (h0 : 0 ≤ o.bMin) (hmin : o.bMin ≤ (Collider.make o sigma).bmax)
    (hstep : 0 < o.gridStep) (hmax : 0 < o.gridMax) (hfit : 2 * o.gridMax / o.gridStep ≤ 2147483647)
    (hmod : (max rA rB + (Collider.make o sigma).bmax +
      2 * (13 * calcSamplingWidth o.nucleonWidth o.constitWidth o.constitNumber) +
      5 * o.constitWidth + (o.gridMax + o.gridStep)) / o.gridStep < 2147483648)
    (debug : Bool) (rfuel fuel : Nat) (ev0 : (n : Nat) → Event ℝ n) (w : Rand MT MTDist) :
    (∃ res, runAll rfuel fuel o sigma debug ev0 w = .ok res) ∨ runAll rfuel fuel o sigma debug ev0 w = .error .fuel :=
  C61_no_undefined_behaviour C95_positions o sigma hA hB hv hm h0 hmin hstep hmax hfit hmod debug rfuel fuel ev0 w

/-- The hypotheses of `C95_run` are met: proton–proton with the Mersenne twister seeded with 1. -/
theorem example_library (ev0 : (n : Nat) → Event ℝ n) (rfuel fuel : ℕ) :
    (∃ res, runAll rfuel fuel exampleOptions 100 true ev0 (⟨MT.seed 1, ⟨⟨none, none⟩, fun z hz => by cases hz⟩⟩ : Rand MT MTDist) = .ok res) ∨
      runAll rfuel fuel exampleOptions 100 true ev0 (⟨MT.seed 1, ⟨⟨none, none⟩, fun z hz => by cases hz⟩⟩ : Rand MT MTDist) = .error .fuel := by
  have hh : NucleusHistory MT MTDist (mkProton : Nucleus ℝ) := .create false (fun _ => .missing) "p" 0 _ rfl
  have hu : Usable MT MTDist (mkProton : Nucleus ℝ) 0 := ⟨hh, trivial, reach_proton⟩
  have hbm : (Collider.make exampleOptions 100).bmax = 1 := by
    rw [(C35_bmax exampleOptions (by norm_num [exampleOptions]) 100).1 (by norm_num [exampleOptions])]; rfl
  have hsw : calcSamplingWidth exampleOptions.nucleonWidth exampleOptions.constitWidth exampleOptions.constitNumber = 0 :=
    C09_sampling_width_zero _ _ 1 (.inl rfl)
  exact C95_run exampleOptions 100 (rA := 0) (rB := 0) hu hu (by norm_num [exampleOptions])
    (by norm_num [exampleOptions]) (by norm_num [exampleOptions]) (by rw [hbm]; norm_num [exampleOptions])
    (by norm_num [exampleOptions]) (by norm_num [exampleOptions]) (by norm_num [exampleOptions])
    (by rw [hbm, hsw]; norm_num [exampleOptions]) true rfuel fuel ev0 _

end Trento
