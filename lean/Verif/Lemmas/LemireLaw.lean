import Verif.Lemmas.LibDraw
import Mathlib.Probability.UniformOn

/-!
# Uniform integers from an ideal engine
-/

namespace Trento
open MeasureTheory Set ProbabilityTheory
open scoped ENNReal

/-- the law of a 64-bit word -/
noncomputable def wordLaw : Measure ℕ := unif.map fun u => ⌊(18446744073709551616:ℝ) * u⌋₊

theorem wordOf_meas : Measurable fun u : ℝ => ⌊(18446744073709551616:ℝ) * u⌋₊ :=
  (Nat.measurable_floor (R := ℝ)).comp (measurable_id.const_mul _)

instance : IsProbabilityMeasure wordLaw := Measure.isProbabilityMeasure_map wordOf_meas.aemeasurable

/-- numbers `p ≤ n < q` -/
theorem wordLaw_Ico {p q : ℕ} (h : q ≤ 18446744073709551616) :
    wordLaw (Ico p q) = ENNReal.ofReal (((q:ℝ) - p) / 18446744073709551616) := by
  unfold wordLaw
  rw [Measure.map_apply wordOf_meas (measurableSet_Ico)]
  have e : (fun u : ℝ => ⌊(18446744073709551616:ℝ) * u⌋₊) ⁻¹' Ico p q ∩ Ico 0 1 =
      Ico ((p:ℝ) / 18446744073709551616) ((q:ℝ) / 18446744073709551616) := by
    ext u
    have hq : (q:ℝ) ≤ 18446744073709551616 := by exact_mod_cast h
    have hp0 : (0:ℝ) ≤ p := Nat.cast_nonneg p
    simp only [mem_inter_iff, mem_preimage, mem_Ico]
    constructor
    · rintro ⟨⟨h1, h2⟩, h3, h4⟩
      have h0 : (0:ℝ) ≤ 18446744073709551616 * u := by positivity
      rw [Nat.le_floor_iff h0] at h1
      rw [Nat.floor_lt h0] at h2
      constructor
      · rw [div_le_iff₀ (by norm_num)]; linarith
      · rw [lt_div_iff₀ (by norm_num)]; linarith
    · rintro ⟨h1, h2⟩
      rw [div_le_iff₀ (by norm_num)] at h1
      rw [lt_div_iff₀ (by norm_num)] at h2
      have h0 : (0:ℝ) ≤ 18446744073709551616 * u := by linarith
      refine ⟨⟨?_, ?_⟩, by linarith, by linarith⟩
      · rw [Nat.le_floor_iff h0]; linarith
      · rw [Nat.floor_lt h0]; linarith
  rw [unif, Measure.restrict_apply (wordOf_meas measurableSet_Ico), e, Real.volume_Ico, sub_div]

theorem wordLaw_big {s : Set ℕ} (h : ∀ n ∈ s, 18446744073709551616 ≤ n) : wordLaw s = 0 := by
  have h1 : wordLaw (Ico 0 18446744073709551616) = 1 := by
    rw [wordLaw_Ico le_rfl]
    norm_num
  have h2 := (prob_compl_eq_zero_iff (μ := wordLaw) (measurableSet_Ico (a := 0) (b := 18446744073709551616))).2 h1
  refine measure_mono_null (fun n hn => ?_) h2
  simp only [mem_compl_iff, mem_Ico, not_and, not_lt]
  exact fun _ => h n hn

/-- the number of the 64-bit word -/
noncomputable def wordDraw (e : Tape) : Option (ℕ × Tape) := some (⌊(18446744073709551616:ℝ) * e.val 0⌋₊, e.next)

theorem wordDraw_law : PDraw tapeLaw wordDraw wordLaw := canonical_draw.map wordOf_meas

theorem word_toNat (e : Tape) : (Engine.word ℝ e).1.toNat = ⌊(18446744073709551616:ℝ) * e.val 0⌋₊ := by
  have h := e.mem 0
  show (BitVec.ofNat 64 _).toNat = _
  rw [BitVec.toNat_ofNat, Nat.mod_eq_of_lt]
  have : ⌊(18446744073709551616:ℝ) * e.val 0⌋₊ < 18446744073709551616 := by
    rw [Nat.floor_lt (mul_nonneg (by norm_num) h.1)]
    push_cast
    nlinarith [h.2]
  exact this

/-- the accepted words -/
def lemireAcc (r : ℕ) : Set ℕ := {n | ¬ n * r % 18446744073709551616 < (18446744073709551616 - r) % r}

theorem lemireStep_eq (r : ℕ) : lemireStep ℝ (E := Tape) r = stepOf wordDraw (lemireAcc r) fun n => n * r / 18446744073709551616 := by
  funext e
  show (if (Engine.word ℝ e).1.toNat * r % 18446744073709551616 < (18446744073709551616 - r) % r then _ else
    some (Sum.inl ((Engine.word ℝ e).1.toNat * r / 18446744073709551616, e.next))) = _
  rw [word_toNat]
  unfold stepOf wordDraw lemireAcc
  simp only [Option.map_some]
  by_cases h : ⌊(18446744073709551616:ℝ) * e.val 0⌋₊ * r % 18446744073709551616 < (18446744073709551616 - r) % r
  · rw [if_pos h, if_neg (by simpa using h)]
  · rw [if_neg h, if_pos (by simpa using h)]

/-- among the multiples of `r` in `[a, a + Q r)` there are exactly `Q` -/
theorem multiples_Ico {a r Q n : ℕ} (hr : 0 < r) : (a ≤ n * r ∧ n * r < a + Q * r) ↔ ((a + r - 1) / r ≤ n ∧ n < (a + r - 1) / r + Q) := by
  have h1 : ∀ m, (a + r - 1) / r ≤ m ↔ a ≤ m * r := fun m => by
    rw [Nat.div_le_iff_le_mul_add_pred hr]
    rw [mul_comm r m]
    omega
  rw [h1]
  generalize (a + r - 1) / r = X at h1 ⊢
  refine and_congr_right fun _ => ?_
  constructor
  · intro h
    by_contra hc
    have h2 : X ≤ n - Q := by omega
    have h3 := (h1 _).1 h2
    rw [Nat.sub_mul] at h3
    have h4 : Q * r ≤ n * r := Nat.mul_le_mul_right _ (by omega)
    omega
  · intro h
    by_contra hc
    push Not at hc
    have h2 : Q ≤ n := by
      by_contra h3
      have : n * r < Q * r := Nat.mul_lt_mul_of_pos_right (by omega) hr
      omega
    have : a ≤ (n - Q) * r := by rw [Nat.sub_mul]; omega
    rw [← h1] at this
    omega

theorem lemire_class {N r i n : ℕ} (hr : 0 < r) (hN : r ≤ N) :
    (¬ n * r % N < (N - r) % r ∧ n * r / N = i) ↔ (i * N + N % r ≤ n * r ∧ n * r < i * N + N % r + (N / r) * r) := by
  have hN0 : 0 < N := by omega
  rw [← Nat.mod_eq_sub_mod hN]
  have hd := Nat.div_add_mod N r
  rw [mul_comm] at hd
  have hm := Nat.div_add_mod (n * r) N
  have hlt := Nat.mod_lt (n * r) hN0
  rw [mul_comm] at hm
  constructor
  · rintro ⟨h1, rfl⟩
    omega
  · rintro ⟨h1, h2⟩
    have h3 : n * r / N = i := by
      rw [Nat.div_eq_iff hN0]
      constructor
      · omega
      · have : i * N + N = (i + 1) * N := by ring
        omega
    refine ⟨?_, h3⟩
    rw [h3] at hm
    omega

/-- The laws of the indices: each value `0 … k` with the same probability. -/
theorem uniformOn_of_eq {ν : Measure ℕ} [IsProbabilityMeasure ν] {k : ℕ} {c : ℝ≥0∞} (h : ∀ i, i ≤ k → ν {i} = c) (h0 : ∀ i, k < i → ν {i} = 0) :
    ν = uniformOn (Iic k) := by
  have hc : (k + 1 : ℝ≥0∞) * c = 1 := by
    symm
    have h1 : ν (Iic k) = 1 := by
      rw [← prob_compl_eq_zero_iff measurableSet_Iic]
      have : (Iic k)ᶜ = ⋃ i ∈ {i : ℕ | k < i}, {i} := by ext; simp
      rw [this, measure_biUnion_null_iff (to_countable _)]
      exact fun i hi => h0 i hi
    refine h1.symm.trans ?_
    rw [show Iic k = ((Finset.range (k+1) : Finset ℕ) : Set ℕ) by ext; simp,
      ← sum_measure_singleton, Finset.sum_congr rfl fun i hi => h i (Nat.lt_succ_iff.1 (Finset.mem_range.1 hi))]
    simp
  have hc' : c = (k + 1 : ℝ≥0∞)⁻¹ := ENNReal.eq_inv_of_mul_eq_one_left (by rw [mul_comm]; exact hc)
  refine Measure.ext_of_singleton fun i => ?_
  rw [uniformOn, cond_apply measurableSet_Iic]
  have hcount : Measure.count (Iic k) = (k + 1 : ℝ≥0∞) := by
    rw [show Iic k = ((Finset.range (k+1) : Finset ℕ) : Set ℕ) by ext; simp, Measure.count_apply_finset]
    simp
  rw [hcount]
  by_cases hi : i ≤ k
  · rw [h i hi, inter_eq_self_of_subset_right (by simpa using hi), Measure.count_singleton, mul_one, hc']
  · rw [h0 i (by omega), show Iic k ∩ {i} = ∅ by ext x; simp; omega]
    simp

theorem lemire_singleton {r i : ℕ} (hr : 0 < r) (hN : r ≤ 18446744073709551616) (hi : i < r) :
    wordLaw (lemireAcc r ∩ (fun n => n * r / 18446744073709551616) ⁻¹' {i}) =
      ENNReal.ofReal ((18446744073709551616 / r : ℕ) / 18446744073709551616) := by
  have e : lemireAcc r ∩ (fun n => n * r / 18446744073709551616) ⁻¹' {i} =
      Ico ((i * 18446744073709551616 + 18446744073709551616 % r + r - 1) / r)
        ((i * 18446744073709551616 + 18446744073709551616 % r + r - 1) / r + 18446744073709551616 / r) := by
    ext n
    rw [mem_Ico, ← multiples_Ico hr, ← lemire_class hr hN]
    rfl
  rw [e, wordLaw_Ico]
  · congr 1
    push_cast
    ring
  · by_contra hc
    push Not at hc
    have hQ : 0 < 18446744073709551616 / r := Nat.div_pos hN hr
    have hm : 18446744073709551616 ∈ Ico ((i * 18446744073709551616 + 18446744073709551616 % r + r - 1) / r)
        ((i * 18446744073709551616 + 18446744073709551616 % r + r - 1) / r + 18446744073709551616 / r) := by
      refine ⟨?_, hc⟩
      rw [Nat.div_le_iff_le_mul_add_pred hr]
      have h1 : 18446744073709551616 % r < r := Nat.mod_lt _ hr
      have h2 : (i + 1) * 18446744073709551616 ≤ r * 18446744073709551616 := Nat.mul_le_mul_right _ hi
      omega
    rw [← e] at hm
    have h3 : 18446744073709551616 * r / 18446744073709551616 = i := hm.2
    rw [Nat.mul_div_cancel_left _ (by norm_num)] at h3
    omega

theorem lemire_law {k : ℕ} (hk : k < 18446744073709551615) :
    PDraw tapeLaw (loop (lemireStep ℝ (E := Tape) (k+1))) (uniformOn (Iic k)) := by
  have hs := fun i hi => lemire_singleton (r := k+1) (i := i) (by omega) (by omega) hi
  have hm : Measurable fun n : ℕ => n * (k+1) / 18446744073709551616 := measurable_of_countable _
  have hQ : 0 < 18446744073709551616 / (k+1) := Nat.div_pos (by omega) (by omega)
  have hpos : wordLaw (lemireAcc (k+1)) ≠ 0 := by
    intro h0
    have h1 := hs 0 (by omega)
    rw [measure_mono_null inter_subset_left h0] at h1
    have h2 : (0:ℝ) < ((18446744073709551616 / (k+1) : ℕ) : ℝ) / 18446744073709551616 := div_pos (by exact_mod_cast hQ) (by norm_num)
    have h3 := ENNReal.ofReal_pos.2 h2
    rw [← h1] at h3
    exact lt_irrefl _ h3
  have h := wordDraw_law.rejection (acc := lemireAcc (k+1)) (.of_discrete) hpos hm
  rw [← lemireStep_eq] at h
  have := cond_isProbabilityMeasure hpos
  have hp : IsProbabilityMeasure ((ProbabilityTheory.cond wordLaw (lemireAcc (k+1))).map fun n => n * (k+1) / 18446744073709551616) :=
    Measure.isProbabilityMeasure_map hm.aemeasurable
  have hl := uniformOn_of_eq (ν := (ProbabilityTheory.cond wordLaw (lemireAcc (k+1))).map fun n => n * (k+1) / 18446744073709551616) (k := k) (c := (wordLaw (lemireAcc (k+1)))⁻¹ * ENNReal.ofReal ((18446744073709551616 / (k+1) : ℕ) / 18446744073709551616))
    (fun i hi => by
      rw [Measure.map_apply hm (.of_discrete), cond_apply .of_discrete, hs i (by omega)]) (fun i hi => by
    rw [Measure.map_apply hm (.of_discrete), cond_apply .of_discrete]
    refine mul_eq_zero_of_right _ (wordLaw_big ?_)
    rintro n ⟨-, hn⟩
    have hn : n * (k+1) / 18446744073709551616 = i := hn
    by_contra hc
    push Not at hc
    have h1 : n * (k+1) / 18446744073709551616 < k + 1 := by
      rw [Nat.div_lt_iff_lt_mul (by norm_num), mul_comm]
      exact Nat.mul_lt_mul_of_pos_left hc (by omega)
    omega)
  rwa [hl] at h

/-- the law of the index -/
noncomputable def indexLaw (k : ℕ) : Measure ℕ := if k < 18446744073709551615 then uniformOn (Iic k) else wordLaw

theorem wordLaw_uniform : wordLaw = uniformOn (Iic 18446744073709551615) := by
  refine uniformOn_of_eq (c := ENNReal.ofReal (1 / 18446744073709551616)) (fun i hi => ?_) fun i hi => ?_
  · rw [show ({i} : Set ℕ) = Ico i (i+1) by ext; simp; omega, wordLaw_Ico (by omega)]
    congr 1
    push_cast
    ring
  · exact wordLaw_big fun n hn => by rw [mem_singleton_iff] at hn; omega

instance (k : ℕ) : IsProbabilityMeasure (indexLaw k) := by
  unfold indexLaw
  split
  · exact isProbabilityMeasure_uniformOn (finite_Iic k) ⟨k, mem_Iic.2 le_rfl⟩
  · infer_instance

theorem indexLaw_eq {k : ℕ} (hk : k ≤ 18446744073709551615) : indexLaw k = uniformOn (Iic k) := by
  unfold indexLaw
  split
  · rfl
  · rw [wordLaw_uniform]
    congr 2
    omega

theorem uniformDraw_law (k : ℕ) : PDraw tapeLaw (uniformDraw ℝ (E := Tape) k) (indexLaw k) := by
  unfold indexLaw
  by_cases hk : k < 18446744073709551615
  · rw [if_pos hk]
    have := lemire_law hk
    convert this using 1
    funext e
    unfold uniformDraw
    rw [if_pos hk]
  · rw [if_neg hk]
    convert wordDraw_law using 1
    funext e
    unfold uniformDraw wordDraw
    rw [if_neg hk, ← word_toNat]
    rfl

end Trento
