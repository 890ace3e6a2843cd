import Verif.Lemmas.Complete
import Verif.Props.Termination

/-!
# C89: the events of a run are collisions of independent nuclei, without bias from the retries

`sample_collision` draws an impact parameter and two nuclei again and again until at least one pair of nucleons interacts.  With ideal random numbers
the distribution of its results does not depend on the number of attempts it takes: it is the distribution of a first attempt, given that there is
a collision.
-/

namespace Trento
open MeasureTheory Set Spec Filter Topology
open scoped ENNReal

variable {E D : Type} [Rng ℝ E D] [MeasurableSpace E] [MeasurableSpace D] {I : Type} {μ : I → Measure (Rand E D)}

/-- The mean of `f` over the collisions found in at most `n` attempts (no collision counts `0`); `f` is a function of the impact parameter, the number of
binary collisions and the two lists of nucleons.  For `f = 1` it is the probability to find a collision in at most `n` attempts. -/
noncomputable def Spec.collisionMean (ν : Measure (Rand E D)) (rfuel : ℕ) (c : Collider ℝ) (A B : Nucleus ℝ) (n : ℕ) (f : Collided → ℝ≥0∞) : ℝ≥0∞ :=
  ∫⁻ w, ifOk (c.sampleCollision rfuel n A B w) (fun t => f (collided t.1)) ∂ν

omit [MeasurableSpace E] [MeasurableSpace D] in
theorem ifOk_map {α β : Type} (r : Res α) (g : α → β) (f : β → ℝ≥0∞) : ifOk (r.map g) f = ifOk r fun t => f (g t) := by
  cases r <;> rfl

theorem collisionMean_eq {A B : Nucleus ℝ} (hA : NucleusHistory E D A) (hB : NucleusHistory E D B) (ν : I → Measure (Rand E D)) (rfuel : ℕ) (c : Collider ℝ)
    (n : ℕ) (f : Collided → ℝ≥0∞) (i : I) : collisionMean (ν i) rfuel c A B n f = retryMean ν (attempt rfuel c A B) n f i := by
  unfold collisionMean retryMean
  refine lintegral_congr fun w => ?_
  have := collisionLoop_attempts rfuel c A B hA hB n w
  unfold attempts at this
  rw [← this, ifOk_map]
  rfl

/-- **C89, no bias.** For collisions found in at most `n` attempts, the conditional mean of every measurable function `f` of the collision, given that a
collision was found, is the conditional mean for `n = 1`: `E_n[f] P_1 = P_n E_1[f]` (and it does not depend on the state of the source). -/
theorem C89_unbiased (h : FreshSource E D μ) (c : Collider ℝ) (A B : Nucleus ℝ) (hA : NucleusHistory E D A) (hB : NucleusHistory E D B)
    (rfuel n : ℕ) (f : Collided → ℝ≥0∞) (hf : Measurable f) (i j : I) :
    collisionMean (μ i) rfuel c A B n f * collisionMean (μ j) rfuel c A B 1 (fun _ => 1) =
      collisionMean (μ i) rfuel c A B n (fun _ => 1) * collisionMean (μ j) rfuel c A B 1 f := by
  have := h.prob
  have hP := renews_attempt h rfuel c A B
  simp only [collisionMean_eq hA hB μ]
  rw [retryMean_eq hP n hf i, retryMean_eq hP n measurable_const i, retryMean_const hP 1 hf i j, retryMean_const hP 1 (measurable_const (a := (1:ℝ≥0∞))) i j]
  ring

/-- **C89, number of attempts.** The probability `P_n` to find a collision in at most `n` attempts is that of `n` independent attempts which collide
with probability `P_1`, miss with probability `q`, and cannot be completed (a nucleus is not sampled within the given number of rejections) with probability
`1 - q - P_1`. -/
theorem C89_attempts (h : FreshSource E D μ) (c : Collider ℝ) (A B : Nucleus ℝ) (hA : NucleusHistory E D A) (hB : NucleusHistory E D B) (rfuel : ℕ) :
    ∃ q P1 : ℝ≥0∞, q + P1 ≤ 1 ∧ ∀ n i,
      collisionMean (μ i) rfuel c A B n (fun _ => 1) = (∑ k ∈ Finset.range n, q ^ k) * P1 ∧
      (∀ f, Measurable f → ∀ j, collisionMean (μ i) rfuel c A B n f = (∑ k ∈ Finset.range n, q ^ k) * collisionMean (μ j) rfuel c A B 1 f) := by
  have := h.prob
  have hP := renews_attempt h rfuel c A B
  by_cases hI : Nonempty I
  · obtain ⟨i0⟩ := hI
    refine ⟨missProb μ (attempt rfuel c A B) i0, retryMean μ (attempt rfuel c A B) 1 (fun _ => 1) i0, ?_, fun n i => ⟨?_, fun f hf j => ?_⟩⟩
    · rw [miss_add_hit hP i0]
      refine (lintegral_mono (g := fun _ => 1) fun w => ?_).trans (by simp)
      show ifOk (attempt rfuel c A B w) (fun _ => 1) ≤ 1
      cases attempt rfuel c A B w <;> simp [ifOk]
    · rw [collisionMean_eq hA hB μ, retryMean_eq hP n measurable_const i, missProb_const hP i i0, retryMean_const hP 1 measurable_const i i0]
    · rw [collisionMean_eq hA hB μ, collisionMean_eq hA hB μ, retryMean_eq hP n hf i, missProb_const hP i i0, retryMean_const hP 1 hf i j]
  · exact ⟨0, 0, by simp, fun n i => absurd ⟨i⟩ hI⟩

theorem geom_split {q P t : ℝ≥0∞} (hsum : q + P + t = 1) (n : ℕ) : q ^ n + (∑ k ∈ Finset.range n, q ^ k) * (P + t) = 1 := by
  induction n with
  | zero => simp
  | succ n ih =>
    rw [Finset.sum_range_succ, pow_succ]
    calc _ = q ^ n * (q + P + t) + (∑ k ∈ Finset.range n, q ^ k) * (P + t) := by ring
      _ = 1 := by rw [hsum, mul_one, ih]

/-- what remains after all attempts is due to the attempts that cannot be made -/
theorem geom_rest {q P t x : ℝ≥0∞} (hsum : q + P + t = 1) (hx : ∀ n, x + (∑ k ∈ Finset.range n, q ^ k) * P ≤ 1) (hP : P ≠ 0) : x * P ≤ t := by
  have hq : q < 1 := by
    have h0 : q ≠ ⊤ := fun h => by rw [h] at hsum; simp at hsum
    calc q < q + P := ENNReal.lt_add_right h0 hP
      _ ≤ q + P + t := le_self_add
      _ = 1 := hsum
  have hS : ∀ n, (∑ k ∈ Finset.range n, q ^ k) * P ≤ 1 := fun n => le_add_self.trans (hx n)
  have hn : ∀ n, x * P ≤ q ^ n * P + t := by
    intro n
    have h1 : x ≤ q ^ n + (∑ k ∈ Finset.range n, q ^ k) * t := by
      have h2 := hx n
      rw [← geom_split hsum n, mul_add, ← add_assoc, add_right_comm] at h2
      exact (ENNReal.add_le_add_iff_right ((hS n).trans_lt ENNReal.one_lt_top).ne).1 h2
    calc x * P ≤ (q ^ n + (∑ k ∈ Finset.range n, q ^ k) * t) * P := mul_le_mul_left h1 P
      _ = q ^ n * P + ((∑ k ∈ Finset.range n, q ^ k) * P) * t := by ring
      _ ≤ q ^ n * P + 1 * t := by gcongr; exact hS n
      _ = q ^ n * P + t := by rw [one_mul]
  have hPt : P ≠ ⊤ := fun h => by rw [h] at hsum; simp at hsum
  have hl : Tendsto (fun n : ℕ => q ^ n * P + t) atTop (𝓝 (0 * P + t)) :=
    (ENNReal.Tendsto.mul_const (ENNReal.tendsto_pow_atTop_nhds_zero_of_lt_one hq) (Or.inr hPt)).add tendsto_const_nhds
  have := ge_of_tendsto' hl hn
  simpa using this

/-- **C89, termination.** If two nuclei can collide at all (an attempt collides with positive probability for some number of rejections), then
`sample_collision` finds a collision with probability one. -/
theorem C89_terminates [LawfulRng E D] (h : FreshSource E D μ) (c : Collider ℝ) (A B : Nucleus ℝ) (hA : NucleusHistory E D A) (hB : NucleusHistory E D B)
    (sA : Samplable A.kind) (sB : Samplable B.kind) (r0 : ℕ) (i0 : I) (hpos : collisionMean (μ i0) r0 c A B 1 (fun _ => 1) ≠ 0) (i : I) :
    ∀ᵐ w ∂(μ i), ∃ (rfuel n : ℕ) (t : (ℝ × ℕ × Nucleus ℝ × Nucleus ℝ) × Rand E D), c.sampleCollision rfuel n A B w = .ok t := by
  have := h.prob
  obtain ⟨p, hp, hok⟩ := attempt_complete h c A B hA hB sA sB
  rw [ae_iff]
  set x := (μ i) {w | ¬ ∃ (rfuel n : ℕ) (t : (ℝ × ℕ × Nucleus ℝ × Nucleus ℝ) × Rand E D), c.sampleCollision rfuel n A B w = .ok t} with hxdef
  set δ := collisionMean (μ i0) r0 c A B 1 (fun _ => 1) with hδ
  -- the complement
  have hx : ∀ r n, x + collisionMean (μ i) r c A B n (fun _ => 1) ≤ 1 := by
    intro r n
    have hm : Measurable fun w : Rand E D => ifOk (attempts r c A B n w) (fun _ => 1) :=
      ifOk_meas1 ((renews_attempt h r c A B).retry n) measurable_const
    have hS : MeasurableSet {w : Rand E D | ifOk (attempts r c A B n w) (fun _ => 1) = 1} := hm (measurableSet_singleton 1)
    have e1 : collisionMean (μ i) r c A B n (fun _ => 1) = (μ i) {w : Rand E D | ifOk (attempts r c A B n w) (fun _ => 1) = 1} := by
      rw [collisionMean_eq hA hB μ, retryMean, ← lintegral_indicator_one hS]
      refine lintegral_congr fun w => ?_
      show ifOk (attempts r c A B n w) (fun _ => 1) = _
      simp only [indicator, mem_ofPred_eq, Pi.one_apply]
      cases attempts r c A B n w <;> simp [ifOk]
    have hsub : {w | ¬ ∃ (rfuel n : ℕ) (t : (ℝ × ℕ × Nucleus ℝ × Nucleus ℝ) × Rand E D), c.sampleCollision rfuel n A B w = .ok t} ⊆
        {w : Rand E D | ifOk (attempts r c A B n w) (fun _ => 1) = 1}ᶜ := by
      intro w hw hw'
      have e2 := collisionLoop_attempts r c A B hA hB n w
      simp only [mem_ofPred_eq] at hw'
      rw [← e2, ifOk_map] at hw'
      apply hw
      cases hc : collisionLoop r c n A B 0 false w with
      | error e => rw [hc] at hw'; simp [ifOk] at hw'
      | ok t => exact ⟨r, n, t, hc⟩
    calc x + collisionMean (μ i) r c A B n (fun _ => 1)
        ≤ (μ i) {w : Rand E D | ifOk (attempts r c A B n w) (fun _ => 1) = 1}ᶜ + (μ i) {w : Rand E D | ifOk (attempts r c A B n w) (fun _ => 1) = 1} := by
          rw [e1]; exact add_le_add_left (measure_mono hsub) _
      _ = 1 := by rw [add_comm, measure_add_measure_compl hS, measure_univ]
  -- one attempt
  have hmono : ∀ r, r0 ≤ r → δ ≤ collisionMean (μ i) r c A B 1 (fun _ => 1) := by
    intro r hr
    have e0 : δ = collisionMean (μ i) r0 c A B 1 (fun _ => 1) := by
      rw [hδ, collisionMean_eq hA hB μ, collisionMean_eq hA hB μ, retryMean_const (renews_attempt h r0 c A B) 1 measurable_const i0 i]
    rw [e0]
    refine lintegral_mono fun w => ?_
    dsimp only
    cases hc : c.sampleCollision r0 1 A B w with
    | error e => simp [ifOk]
    | ok t =>
      have hs := collisionLoop_settles c r0 r hr 1 1 le_rfl A B 0 false w (by
        show c.sampleCollision r0 1 A B w ≠ _
        rw [hc]; simp)
      have hs' : c.sampleCollision r 1 A B w = .ok t := hs.trans hc
      rw [hs']
  have hall : ∀ r, r0 ≤ r → x * δ ≤ 1 - p r := by
    intro r hr
    have hP := renews_attempt h r c A B
    set q := missProb μ (attempt r c A B) i
    set P1 := collisionMean (μ i) r c A B 1 (fun _ => 1) with hP1
    have hs : q + P1 = ∫⁻ w, ifOk (attempt r c A B w) (fun _ => 1) ∂(μ i) := by
      rw [hP1, collisionMean_eq hA hB μ]; exact miss_add_hit hP i
    have hs1 : q + P1 ≤ 1 := by
      rw [hs]
      refine (lintegral_mono (g := fun _ => 1) fun w => ?_).trans (by simp)
      show ifOk (attempt r c A B w) (fun _ => 1) ≤ 1
      cases attempt r c A B w <;> simp [ifOk]
    have hpr : p r ≤ q + P1 := by rw [hs]; exact hok r () i
    have hrest := geom_rest (q := q) (P := P1) (t := 1 - (q + P1)) (x := x) (add_tsub_cancel_of_le hs1) (fun n => by
      have := hx r n
      rw [collisionMean_eq hA hB μ, retryMean_eq hP n measurable_const i, ← collisionMean_eq hA hB μ] at this
      exact this) (fun h0 => hpos (le_antisymm ((hmono r hr).trans_eq h0) bot_le))
    calc x * δ ≤ x * P1 := mul_le_mul_right (hmono r hr) x
      _ ≤ 1 - (q + P1) := hrest
      _ ≤ 1 - p r := tsub_le_tsub_left hpr 1
  have hlim : Tendsto (fun r => 1 - p r) atTop (𝓝 (1 - 1)) := ENNReal.Tendsto.sub tendsto_const_nhds hp (Or.inl ENNReal.one_ne_top)
  have h0 : x * δ ≤ 1 - 1 := ge_of_tendsto hlim (eventually_atTop.2 ⟨r0, hall⟩)
  rw [tsub_self, nonpos_iff_eq_zero, mul_eq_zero] at h0
  exact h0.resolve_right hpos

end Trento
