import Verif.Props.BinaryCollisions
import Verif.Props.ProtonCrossSection

/-!
# C120: cuts in the impact parameter

Restricting `--b-min` and `--b-max` to a narrower range is the same as selecting, from a run with the wider range, the events with impact parameters in the narrower range.
-/

namespace Trento
open MeasureTheory Set Spec
open scoped ENNReal

variable {E D : Type} [Rng ℝ E D]

/-- Only the collisions with an impact parameter between `b₁` and `b₂` count (specification). -/
noncomputable def Spec.impactWithin (b₁ b₂ : ℝ) (f : Collided → ℝ≥0∞) (x : Collided) : ℝ≥0∞ := if b₁ < x.1 ∧ x.1 < b₂ then f x else 0

variable [MeasurableSpace E] [MeasurableSpace D] {I : Type} {μ : I → Measure (Rand E D)}

theorem cut_meas {b₁ b₂ : ℝ} {f : Collided → ℝ≥0∞} (hf : Measurable f) : Measurable (impactWithin b₁ b₂ f) :=
  Measurable.ite (measurable_fst measurableSet_Ioo) hf measurable_const

omit [Rng ℝ E D] [MeasurableSpace E] [MeasurableSpace D] in
theorem bindR_ok {α β : Type} {r : Res (α × Rand E D)} {g : α → Rand E D → Res (β × Rand E D)} {t : β × Rand E D} (h : bindR r g = .ok t) : ∃ a w, r = .ok (a, w) ∧ g a w = .ok t := by
  cases r with
  | error e => cases h
  | ok p => exact ⟨p.1, p.2, rfl, h⟩

omit [MeasurableSpace E] [MeasurableSpace D] in
theorem attemptAt_impact (rfuel : ℕ) (c : Collider ℝ) (A B : Nucleus ℝ) (b : ℝ) (w : Rand E D) (t : (Collided × Bool) × Rand E D) (h : attemptAt rfuel c A B b w = .ok t) : t.1.1.1 = b := by
  unfold attemptAt at h
  obtain ⟨a1, w1, -, h⟩ := bindR_ok h
  obtain ⟨a2, w2, -, h⟩ := bindR_ok h
  obtain ⟨a3, w3, -, h⟩ := bindR_ok h
  cases h
  rfl

theorem meanAt_within (ν : Measure (Rand E D)) (rfuel : ℕ) (c : Collider ℝ) (A B : Nucleus ℝ) (f : Collided → ℝ≥0∞) (b₁ b₂ b : ℝ) :
    meanAt ν rfuel c A B (impactWithin b₁ b₂ f) b = (Ioo b₁ b₂).indicator (meanAt ν rfuel c A B f) b := by
  have key : ∀ w : Rand E D, ifOk (attemptAt rfuel c A B b w) (fun t => if t.1.2 then impactWithin b₁ b₂ f t.1.1 else 0) =
      if b₁ < b ∧ b < b₂ then ifOk (attemptAt rfuel c A B b w) (fun t => if t.1.2 then f t.1.1 else 0) else 0 := by
    intro w
    cases hw : attemptAt rfuel c A B b w with
    | error e => simp [ifOk]
    | ok t =>
      have hb := attemptAt_impact rfuel c A B b w t hw
      simp only [ifOk, impactWithin, hb]
      split <;> simp
  unfold indicator
  by_cases hb : b ∈ Ioo b₁ b₂
  · have hb' : b₁ < b ∧ b < b₂ := hb
    rw [if_pos hb]
    unfold meanAt
    refine lintegral_congr fun w => ?_
    rw [key, if_pos hb']
  · have hb' : ¬ (b₁ < b ∧ b < b₂) := hb
    rw [if_neg hb]
    unfold meanAt
    rw [lintegral_congr key]
    simp [if_neg hb']

/-- **C120, one attempt.** The mean of any function over the collisions of one attempt with impact parameter between `b₁` and `b₂`, with the weight of the disk of a wider range, is the mean of one attempt with the narrower
range, with the weight of its own disk. -/
theorem C120_attempt (h : FreshSource E D μ) (c : Collider ℝ) (A B : Nucleus ℝ) (hA : NucleusHistory E D A) (hB : NucleusHistory E D B) (b₁ b₂ : ℝ) (h0 : 0 ≤ c.bmin) (h1 : c.bmin ≤ b₁) (h2 : b₁ < b₂)
    (h3 : b₂ ≤ c.bmax) (rfuel : ℕ) (f : Collided → ℝ≥0∞) (hf : Measurable f) (i : I) :
    ENNReal.ofReal (Real.pi * (c.bmax^2 - c.bmin^2)) * collisionMean (μ i) rfuel c A B 1 (impactWithin b₁ b₂ f) =
      ENNReal.ofReal (Real.pi * (b₂^2 - b₁^2)) * collisionMean (μ i) rfuel { c with bmin := b₁, bmax := b₂ } A B 1 f := by
  have e1 := mean_disk h rfuel c hA hB h0 (by linarith) (cut_meas (b₁ := b₁) (b₂ := b₂) hf) i
  have e2 := mean_disk h rfuel { c with bmin := b₁, bmax := b₂ } hA hB (by dsimp only; linarith) (by dsimp only; exact h2) hf i
  rw [e1, e2]
  dsimp only
  have e3 : ∀ b, meanAt (μ i) rfuel { c with bmin := b₁, bmax := b₂ } A B f b = meanAt (μ i) rfuel c A B f b := fun b => rfl
  simp only [e3, meanAt_within]
  have e4 : ∀ b, ENNReal.ofReal (2 * Real.pi * b) * (Ioo b₁ b₂).indicator (meanAt (μ i) rfuel c A B f) b =
      (Ioo b₁ b₂).indicator (fun b => ENNReal.ofReal (2 * Real.pi * b) * meanAt (μ i) rfuel c A B f b) b := by
    intro b
    unfold indicator
    split
    · rfl
    · rw [mul_zero]
  simp only [e4]
  rw [setLIntegral_indicator measurableSet_Ioo, inter_eq_self_of_subset_left (Ioo_subset_Ioo h1 h3)]

/-- **C120, events.** The conditional mean of any measurable function of a collision, given that the impact parameter is between `b₁` and `b₂`, in a run with a wider range, is its mean in a run with the range `b₁` to `b₂`,
whatever the numbers of attempts allowed: `E[f ; S] P' = P[S] E'[f]`. -/
theorem C120_events (h : FreshSource E D μ) (c : Collider ℝ) (A B : Nucleus ℝ) (hA : NucleusHistory E D A) (hB : NucleusHistory E D B) (b₁ b₂ : ℝ) (h0 : 0 ≤ c.bmin) (h1 : c.bmin ≤ b₁) (h2 : b₁ < b₂)
    (h3 : b₂ ≤ c.bmax) (rfuel n n' : ℕ) (f : Collided → ℝ≥0∞) (hf : Measurable f) (i j : I) :
    collisionMean (μ i) rfuel c A B n (impactWithin b₁ b₂ f) * collisionMean (μ j) rfuel { c with bmin := b₁, bmax := b₂ } A B n' (fun _ => 1) =
      collisionMean (μ i) rfuel c A B n (impactWithin b₁ b₂ fun _ => 1) * collisionMean (μ j) rfuel { c with bmin := b₁, bmax := b₂ } A B n' f := by
  obtain ⟨q, P, -, hq⟩ := C89_attempts h c A B hA hB rfuel
  obtain ⟨q', P', -, hq'⟩ := C89_attempts h { c with bmin := b₁, bmax := b₂ } A B hA hB rfuel
  have m1 : Measurable fun _ : Collided => (1:ℝ≥0∞) := measurable_const
  rw [(hq n i).2 _ (cut_meas hf) i, (hq n i).2 _ (cut_meas m1) i, (hq' n' j).2 _ m1 i, (hq' n' j).2 _ hf i]
  have k1 := C120_attempt h c A B hA hB b₁ b₂ h0 h1 h2 h3 rfuel f hf i
  have k2 := C120_attempt h c A B hA hB b₁ b₂ h0 h1 h2 h3 rfuel (fun _ => 1) m1 i
  have hK : ENNReal.ofReal (Real.pi * (c.bmax^2 - c.bmin^2)) ≠ 0 := by
    have := Real.pi_pos
    have : 0 < c.bmax^2 - c.bmin^2 := by nlinarith
    rw [Ne, ENNReal.ofReal_eq_zero, not_le]
    positivity
  have key : collisionMean (μ i) rfuel c A B 1 (impactWithin b₁ b₂ f) * collisionMean (μ i) rfuel { c with bmin := b₁, bmax := b₂ } A B 1 (fun _ => 1) =
      collisionMean (μ i) rfuel c A B 1 (impactWithin b₁ b₂ fun _ => 1) * collisionMean (μ i) rfuel { c with bmin := b₁, bmax := b₂ } A B 1 f := by
    rw [← ENNReal.mul_right_inj hK ENNReal.ofReal_ne_top, ← mul_assoc, k1, ← mul_assoc, k2]
    ring
  calc _ = (∑ k ∈ Finset.range n, q ^ k) * (∑ k ∈ Finset.range n', q' ^ k) *
        (collisionMean (μ i) rfuel c A B 1 (impactWithin b₁ b₂ f) * collisionMean (μ i) rfuel { c with bmin := b₁, bmax := b₂ } A B 1 (fun _ => 1)) := by ring
    _ = _ := by rw [key]; ring

/-- **C120, split.** A range of impact parameters can be run in two parts: the mean of any function per attempt over the whole range is the mean of those over the parts, weighted with the areas of the annuli; with `f = 1`,
the cross sections of the parts add up. -/
theorem C120_split (h : FreshSource E D μ) (c : Collider ℝ) (A B : Nucleus ℝ) (hA : NucleusHistory E D A) (hB : NucleusHistory E D B) (b : ℝ) (h0 : 0 ≤ c.bmin) (h1 : c.bmin < b) (h2 : b < c.bmax)
    (rfuel : ℕ) (f : Collided → ℝ≥0∞) (hf : Measurable f) (i : I) :
    ENNReal.ofReal (Real.pi * (c.bmax^2 - c.bmin^2)) * collisionMean (μ i) rfuel c A B 1 f =
      ENNReal.ofReal (Real.pi * (b^2 - c.bmin^2)) * collisionMean (μ i) rfuel { c with bmax := b } A B 1 f +
      ENNReal.ofReal (Real.pi * (c.bmax^2 - b^2)) * collisionMean (μ i) rfuel { c with bmin := b } A B 1 f := by
  have e1 := mean_disk h rfuel c hA hB h0 (by linarith) hf i
  have e2 := mean_disk h rfuel { c with bmax := b } hA hB h0 h1 hf i
  have e3 := mean_disk h rfuel { c with bmin := b } hA hB (by dsimp only; linarith) h2 hf i
  rw [e1, e2, e3]
  dsimp only
  have d1 : ∀ x, meanAt (μ i) rfuel { c with bmax := b } A B f x = meanAt (μ i) rfuel c A B f x := fun x => rfl
  have d2 : ∀ x, meanAt (μ i) rfuel { c with bmin := b } A B f x = meanAt (μ i) rfuel c A B f x := fun x => rfl
  simp only [d1, d2]
  rw [restrict_Ioo_eq_restrict_Ioc, restrict_Ioo_eq_restrict_Ioc, restrict_Ioo_eq_restrict_Ioc, ← Ioc_union_Ioc_eq_Ioc h1.le h2.le,
    lintegral_union measurableSet_Ioc (Ioc_disjoint_Ioc_of_le le_rfl)]

/-- Proton-proton collisions with impact parameters up to 3 fm in two parts, below and above 1 fm. -/
noncomputable example : let c : Collider ℝ := ⟨mkProton, mkProton, NucleonCommon.make 0.5 0.5 1 2 false 1, 1, false, 0, 3, 0.5⟩
    ENNReal.ofReal (Real.pi * (3^2 - 0^2)) * collisionMean (freshTape ()) 0 c mkProton mkProton 1 (fun _ => 1) =
      ENNReal.ofReal (Real.pi * (1^2 - 0^2)) * collisionMean (freshTape ()) 0 { c with bmax := 1 } mkProton mkProton 1 (fun _ => 1) +
      ENNReal.ofReal (Real.pi * (3^2 - 1^2)) * collisionMean (freshTape ()) 0 { c with bmin := 1 } mkProton mkProton 1 (fun _ => 1) := by
  have hp : NucleusHistory Tape Unit (mkProton : Nucleus ℝ) := .create false (fun _ => .missing) "p" 0 mkProton rfl
  intro c
  exact C120_split freshTape_fresh c mkProton mkProton hp hp 1 (by show (0:ℝ) ≤ 0; norm_num) (by show (0:ℝ) < 1; norm_num) (by show (1:ℝ) < 3; norm_num) 0 (fun _ => 1) measurable_const ()

/-- Proton-proton collisions with impact parameters up to 3 fm, cut to 1 .. 2 fm, and those asked for with that range. -/
noncomputable example : let c : Collider ℝ := ⟨mkProton, mkProton, NucleonCommon.make 0.5 0.5 1 2 false 1, 1, false, 0, 3, 0.5⟩
    ENNReal.ofReal (Real.pi * (3^2 - 0^2)) * collisionMean (freshTape ()) 0 c mkProton mkProton 1 (impactWithin 1 2 fun _ => 1) =
      ENNReal.ofReal (Real.pi * (2^2 - 1^2)) * collisionMean (freshTape ()) 0 { c with bmin := 1, bmax := 2 } mkProton mkProton 1 (fun _ => 1) := by
  have hp : NucleusHistory Tape Unit (mkProton : Nucleus ℝ) := .create false (fun _ => .missing) "p" 0 mkProton rfl
  intro c
  exact C120_attempt freshTape_fresh c mkProton mkProton hp hp 1 2 (by show (0:ℝ) ≤ 0; norm_num) (by show (0:ℝ) ≤ 1; norm_num) (by norm_num) (by show (2:ℝ) ≤ 3; norm_num) 0 (fun _ => 1) measurable_const ()

end Trento
