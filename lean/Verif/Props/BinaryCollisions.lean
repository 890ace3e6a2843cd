import Verif.Lemmas.GlauberIntegral

/-!
# C102: the mean number of binary collisions

At every impact parameter the mean number of binary collisions is the Glauber integral of the two nucleon densities with the probability that a pair collides.  Integrated over the
impact parameter plane it is `A·B` times the integral of the pair probability: `⟨Ncoll⟩ σ_AB = A B σ_NN`.
-/

namespace Trento
open MeasureTheory Set Spec
open scoped ENNReal

variable {E D : Type} [Rng ℝ E D]

theorem pairRow_missed (nc : NucleonCommon ℝ) (cn : Bool) (a : NucleonData ℝ) (Bs : List (NucleonData ℝ)) (k : ℕ) (f : Bool) (w : Rand E D)
    (hf : (pairRow nc cn a Bs k f w).1.2.2.2 = false) : (pairRow nc cn a Bs k f w).1.2.2.1 = k ∧ f = false := by
  induction Bs generalizing a k f w with
  | nil => exact ⟨rfl, hf⟩
  | cons b Bs ih =>
    simp only [pairRow] at hf ⊢
    obtain ⟨h1, h2⟩ := ih _ _ _ _ hf
    rw [Bool.or_eq_false_iff] at h2
    rw [h1, h2.1]
    exact ⟨rfl, h2.2⟩

theorem pairLoop_missed (nc : NucleonCommon ℝ) (cn : Bool) (As Bs : List (NucleonData ℝ)) (k : ℕ) (f : Bool) (w : Rand E D)
    (hf : (pairLoop nc cn As Bs k f w).1.2.2.2 = false) : (pairLoop nc cn As Bs k f w).1.2.2.1 = k ∧ f = false := by
  induction As generalizing Bs k f w with
  | nil => exact ⟨rfl, hf⟩
  | cons a As ih =>
    simp only [pairLoop] at hf ⊢
    obtain ⟨h1, h2⟩ := ih _ _ _ _ hf
    obtain ⟨h3, h4⟩ := pairRow_missed nc cn a Bs k f w h2
    rw [h1, h3]
    exact ⟨rfl, h4⟩

/-- The number of binary collisions of a collision. -/
def Spec.binaryCollisions (x : Collided) : ℝ≥0∞ := x.2.1

variable [MeasurableSpace E] [MeasurableSpace D] {I : Type} {μ : I → Measure (Rand E D)}

theorem binaryCollisions_meas : Measurable binaryCollisions :=
  (measurable_from_top (f := fun n : ℕ => (n : ℝ≥0∞))).comp (show Measurable fun x : Collided => x.2.1 by fun_prop)

section
variable (h : FreshSource E D μ)
include h

theorem meanAt_count (rfuel : ℕ) (c : Collider ℝ) (hn : c.calcNcoll = true) (hn' : c.nc.calcNcoll = true) {A B : Nucleus ℝ} (hA : NucleusHistory E D A)
    (hB : NucleusHistory E D B) (b : ℝ) (i : I) :
    meanAt (μ i) rfuel c A B binaryCollisions b =
      glauber (nucleonDensity (μ i) rfuel A) (nucleonDensity (μ i) rfuel B) (pairProbability (μ i) c.nc) b 0 := by
  have := h.prob
  have hg : Measurable fun r : List (NucleonData ℝ) × List (NucleonData ℝ) × ℕ × Bool => (r.2.2.1 : ℝ≥0∞) :=
    (measurable_from_top (f := fun n : ℕ => (n : ℝ≥0∞))).comp (by fun_prop)
  have hP := pairProbability_meas h c.nc hn' i
  have hit : ∀ a b : NucleonData ℝ, Fresh a → Fresh b → hitProb (μ i) c.nc a b = pairProbability (μ i) c.nc (a.x - b.x) (a.y - b.y) :=
    fun a b ha hb => hitProb_eq h c.nc hn' a b ha hb i
  generalize pairProbability (μ i) c.nc = P at hP hit ⊢
  have e1 : meanAt (μ i) rfuel c A B binaryCollisions b = ∫⁻ w, ifOk (inner rfuel c A B b w) (fun t => (t.1.2.2.1 : ℝ≥0∞)) ∂(μ i) := by
    unfold meanAt
    refine lintegral_congr fun w => ?_
    unfold attemptAt inner
    cases (A.sampleNucleons rfuel (c.asymmetry * b) w).map fun t => (t.1.nucleons, t.2) with
    | error e => rfl
    | ok t =>
      simp only [bindR]
      cases (B.sampleNucleons rfuel ((c.asymmetry - lit 1) * b) t.2).map fun t => (t.1.nucleons, t.2) with
      | error e => rfl
      | ok t' =>
        simp only [ifOk, binaryCollisions]
        split
        · rfl
        · rename_i hf
          rw [(pairLoop_missed _ _ _ _ _ _ _ (by simpa using hf)).1]
          simp
  rw [e1, mean_inner h rfuel c A B b (g := fun r => (r.2.2.1 : ℝ≥0∞)) hg i]
  have hin : Measurable fun p : ℝ × ℝ => ∫⁻ q, P (p.1 - q.1 + b) (p.2 - q.2 + 0) ∂(nucleonDensity (μ i) rfuel B) := by
    have := density_finite h rfuel hB i
    have hm : Measurable fun t : (ℝ × ℝ) × (ℝ × ℝ) => P (t.1.1 - t.2.1 + b) (t.1.2 - t.2.2 + 0) :=
      hP.comp (show Measurable fun t : (ℝ × ℝ) × (ℝ × ℝ) => (t.1.1 - t.2.1 + b, t.1.2 - t.2.2 + 0) by fun_prop)
    exact hm.lintegral_prod_right'
  have hq : ∀ p : ℝ × ℝ, Measurable fun q : ℝ × ℝ => P (p.1 - q.1 + b) (p.2 - q.2 + 0) :=
    fun p => hP.comp (show Measurable fun q : ℝ × ℝ => (p.1 - q.1 + b, p.2 - q.2 + 0) by fun_prop)
  unfold glauber
  refine Eq.trans ?_ (lintegral_density h rfuel A i
    (f := fun p => ∫⁻ q, P (p.1 - q.1 + b) (p.2 - q.2 + 0) ∂(nucleonDensity (μ i) rfuel B)) hin).symm
  refine lintegral_congr fun w => ?_
  rw [C13_offset_is_translation A hA rfuel (c.asymmetry * b) w]
  cases hs : A.sampleNucleons rfuel 0 w with
  | error e => rfl
  | ok t =>
    simp only [Except.map, ifOk]
    have fA : ∀ a ∈ t.1.nucleons, Fresh a := fun a ha => ((C12_sampling_resets A t.1 hA _ _ _ t.2 hs).2 a ha)
    have e2 : ∀ w' : Rand E D, ifOk ((B.sampleNucleons rfuel ((c.asymmetry - lit 1) * b) w').map fun t => (t.1.nucleons, t.2)) (fun t' =>
          meanLoop (μ i) c.nc c.calcNcoll (fun r => (r.2.2.1 : ℝ≥0∞)) (t.1.nucleons.map fun n => { n with x := n.x + c.asymmetry * b }) t'.1) =
        ifOk (B.sampleNucleons rfuel 0 w') (fun t' => (t.1.nucleons.map fun n => (t'.1.nucleons.map fun m =>
          P (n.x - m.x + b) (n.y - m.y + 0)).sum).sum) := by
      intro w'
      rw [C13_offset_is_translation B hB rfuel ((c.asymmetry - lit 1) * b) w']
      cases hs' : B.sampleNucleons rfuel 0 w' with
      | error e => rfl
      | ok t' =>
        simp only [Except.map, ifOk]
        have fB : ∀ a ∈ t'.1.nucleons, Fresh a := fun a ha => ((C12_sampling_resets B t'.1 hB _ _ _ t'.2 hs').2 a ha)
        unfold meanLoop
        rw [hn, ← hn', pairLoop_count h c.nc hn' _ _ (by
          intro a ha
          obtain ⟨a0, ha0, rfl⟩ := List.mem_map.mp ha
          exact (fA a0 ha0).1) (by
          intro a ha
          obtain ⟨a0, ha0, rfl⟩ := List.mem_map.mp ha
          exact (fB a0 ha0).1) i]
        simp only [List.map_map, Function.comp_def]
        congr 1
        refine List.map_congr_left fun n hn0 => ?_
        congr 1
        refine List.map_congr_left fun m hm0 => ?_
        refine (hit _ _ (by exact ⟨(fA n hn0).1, (fA n hn0).2⟩) (by exact ⟨(fB m hm0).1, (fB m hm0).2⟩)).trans ?_
        congr 1
        · simp [lit_real]; ring
        · ring
    refine (lintegral_congr e2).trans ?_
    clear e2 hs fA
    have hmB : ∀ n : NucleonData ℝ, ∫⁻ q, P (n.x - q.1 + b) (n.y - q.2 + 0) ∂(nucleonDensity (μ i) rfuel B) =
        ∫⁻ w', ifOk (B.sampleNucleons rfuel 0 w') (fun t' => (t'.1.nucleons.map fun m => P (n.x - m.x + b) (n.y - m.y + 0)).sum) ∂(μ i) :=
      fun n => lintegral_density h rfuel B i (hq (n.x, n.y))
    have hmm : ∀ n : NucleonData ℝ, Measurable fun w' : Rand E D => ifOk (B.sampleNucleons rfuel 0 w') (fun t' => (t'.1.nucleons.map fun m =>
        P (n.x - m.x + b) (n.y - m.y + 0)).sum) := by
      intro n
      have h1 := measurable_ifOk (Z := Rand E D) (g := fun _ l => (l.map fun m : NucleonData ℝ => P (n.x - m.x + b) (n.y - m.y + 0)).sum)
        (nucleons_meas h rfuel B 0) ((posSum_meas (hq (n.x, n.y))).comp measurable_snd)
      refine measurable_of_eq h1 fun w => ?_
      cases B.sampleNucleons rfuel 0 w <;> rfl
    simp only [hmB]
    induction t.1.nucleons with
    | nil =>
      simp only [List.map_nil, List.sum_nil]
      refine (lintegral_congr fun w' => ?_).trans lintegral_zero
      cases B.sampleNucleons rfuel 0 w' <;> rfl
    | cons n l ih =>
      simp only [List.map_cons, List.sum_cons]
      rw [← ih, ← lintegral_add_left (hmm n)]
      refine lintegral_congr fun w' => ?_
      cases B.sampleNucleons rfuel 0 w' <;> simp [ifOk]


theorem density_reach [LawfulRng E D] (rfuel : ℕ) {A : Nucleus ℝ} (hA : NucleusHistory E D A) {r : ℝ} (hr : Reach E D A.kind r) (i : I) :
    ∀ᵐ p ∂(nucleonDensity (μ i) rfuel A), |p.1| ≤ r := by
  have hs : MeasurableSet {p : ℝ × ℝ | ¬ |p.1| ≤ r} := (measurableSet_le (f := fun p : ℝ × ℝ => |p.1|) (by fun_prop) measurable_const).compl
  rw [ae_iff, density_apply h rfuel A i hs]
  refine (lintegral_congr fun w => ?_).trans lintegral_zero
  cases ht : A.sampleNucleons rfuel 0 w with
  | error e => rfl
  | ok t =>
    show (List.map _ _).sum = (0 : ℝ≥0∞)
    refine List.sum_eq_zero fun x hx => ?_
    obtain ⟨n, hn, rfl⟩ := List.mem_map.mp hx
    have h1 := hr A t.1 rfuel 0 w t.2 hA rfl ht n hn
    have h2 := transverse_le_radiusFrom 0 n
    rw [sub_zero] at h2
    rw [indicator_of_notMem]
    simp only [mem_ofPred_eq, not_not]
    exact h2.trans h1

/-- the impact parameters, weighted -/
theorem mean_disk (rfuel : ℕ) (c : Collider ℝ) {A B : Nucleus ℝ} (hA : NucleusHistory E D A) (hB : NucleusHistory E D B) (h0 : 0 ≤ c.bmin) (hb : c.bmin < c.bmax)
    {f : Collided → ℝ≥0∞} (hf : Measurable f) (i : I) :
    ENNReal.ofReal (Real.pi * (c.bmax^2 - c.bmin^2)) * collisionMean (μ i) rfuel c A B 1 f =
      ∫⁻ b in Ioo c.bmin c.bmax, ENNReal.ofReal (2 * Real.pi * b) * meanAt (μ i) rfuel c A B f b := by
  have hd : 0 < c.bmax^2 - c.bmin^2 := by nlinarith
  rw [mean_one h rfuel c hA hB hf i i, lintegral_impact h0 hb, ← lintegral_const_mul' _ _ ENNReal.ofReal_ne_top]
  refine setLIntegral_congr_fun measurableSet_Ioo fun b hb' => ?_
  rw [← mul_assoc, ← ENNReal.ofReal_mul (by have := Real.pi_pos; positivity)]
  congr 2
  field_simp

theorem sampled_meas (rfuel : ℕ) (A : Nucleus ℝ) : MeasurableSet {w : Rand E D | ∃ r, A.sampleNucleons rfuel 0 w = .ok r} := by
  have h1 := nucleons_meas h rfuel A 0
  have e : {w : Rand E D | ∃ r, A.sampleNucleons rfuel 0 w = .ok r} =
      (fun w : Rand E D => (A.sampleNucleons rfuel 0 w).map fun t => t.1.nucleons) ⁻¹' (range Except.ok) := by
    ext w
    simp only [mem_ofPred_eq, mem_preimage, mem_range]
    cases A.sampleNucleons rfuel 0 w <;> simp [Except.map]
  rw [e]
  exact h1 embedding_ok.measurableSet_range

end

/-- The probability that the sampling of a nucleus ends within the given number of rejections.  It is 1 for protons, spherical nuclei and nuclei from files, and tends to 1
for the others (C102_sampled). -/
noncomputable def Spec.sampled (ν : Measure (Rand E D)) (rfuel : ℕ) (A : Nucleus ℝ) : ℝ≥0∞ := ν {w | ∃ r, A.sampleNucleons rfuel 0 w = .ok r}

/-- A function of the distance vector that depends on the distance only: it does not change when the vector is turned. -/
def Spec.Isotropic (P : ℝ → ℝ → ℝ≥0∞) : Prop := ∀ c s : ℝ, c^2 + s^2 = 1 → ∀ x y, P (c * x - s * y) (s * x + c * y) = P x y

theorem density_total (h : FreshSource E D μ) (rfuel : ℕ) {A : Nucleus ℝ} (hA : NucleusHistory E D A) (i : I) :
    nucleonDensity (μ i) rfuel A univ = A.nucleons.length * sampled (μ i) rfuel A := by
  rw [density_univ h rfuel hA i, sampled, ← lintegral_indicator_one (sampled_meas h rfuel A)]
  congr 1
  refine lintegral_congr fun w => ?_
  simp only [indicator, mem_ofPred_eq, Pi.one_apply]
  split
  · rename_i hx
    obtain ⟨r, hr⟩ := hx
    rw [hr]
    rfl
  · rename_i hx
    cases hs : A.sampleNucleons rfuel 0 w with
    | error e => rfl
    | ok t => exact absurd ⟨t, hs⟩ hx

/-- **C102, pairs.** For two lists of new nucleons at any positions the mean number of binary collisions is the sum over the pairs of the probabilities that two nucleons with
this distance vector collide (although the collisions of one nucleon are not independent of each other: its constituents are drawn once). -/
theorem C102_pairs (h : FreshSource E D μ) (nc : NucleonCommon ℝ) (hn : nc.calcNcoll = true) (As Bs : List (NucleonData ℝ)) (hA : ∀ a ∈ As, Fresh a)
    (hB : ∀ b ∈ Bs, Fresh b) (i : I) :
    ∫⁻ w, ((pairLoop nc true As Bs 0 false w).1.2.2.1 : ℝ≥0∞) ∂(μ i) =
      (As.map fun a => (Bs.map fun b => pairProbability (μ i) nc (a.x - b.x) (a.y - b.y)).sum).sum := by
  have key := pairLoop_count h nc hn As Bs (fun a ha => (hA a ha).1) (fun b hb => (hB b hb).1) i
  rw [hn] at key
  rw [key]
  congr 1
  refine List.map_congr_left fun a ha => ?_
  congr 1
  exact List.map_congr_left fun b hb => hitProb_eq h nc hn a b (hA a ha) (hB b hb) i

/-- **C102, fixed impact parameter.** At impact parameter `b` the mean number of binary collisions per attempt is the Glauber integral
`∫∫ P(s - s' + b) dT_A(s) dT_B(s')` of the nucleon densities of the two nuclei, each about its own centre, and the probability `P` that a pair collides. -/
theorem C102_glauber (h : FreshSource E D μ) (c : Collider ℝ) (hn : c.calcNcoll = true) (hn' : c.nc.calcNcoll = true) (A B : Nucleus ℝ)
    (hA : NucleusHistory E D A) (hB : NucleusHistory E D B) (b : ℝ) (hb : 0 ≤ b) (rfuel : ℕ) (i : I) :
    collisionMean (μ i) rfuel { c with bmin := b, bmax := b } A B 1 binaryCollisions =
      glauber (nucleonDensity (μ i) rfuel A) (nucleonDensity (μ i) rfuel B) (pairProbability (μ i) c.nc) b 0 := by
  rw [← meanAt_eq h rfuel c hA hB binaryCollisions_meas hb i i]
  exact meanAt_count h rfuel c hn hn' hA hB b i

theorem glauber_disk [LawfulRng E D] (h : FreshSource E D μ) {ν : Measure E} (hν : IdealSource E D ν) (i : I) (d : D)
    (hμ : μ i = ν.map fun e => (⟨e, d⟩ : Rand E D)) {nc : NucleonCommon ℝ} (hn' : nc.calcNcoll = true) {A B : Nucleus ℝ}
    (hA : NucleusHistory E D A) (hB : NucleusHistory E D B) (hP : Isotropic (pairProbability (μ i) nc)) (rfuel : ℕ) (j : I) :
    ∫⁻ b in Ioi (0:ℝ), ENNReal.ofReal (2 * Real.pi * b) * glauber (nucleonDensity (μ j) rfuel A) (nucleonDensity (μ j) rfuel B) (pairProbability (μ j) nc) b 0 =
      (A.nucleons.length * sampled (μ j) rfuel A) * (B.nucleons.length * sampled (μ j) rfuel B) * ∫⁻ v : ℝ × ℝ, pairProbability (μ j) nc v.1 v.2 := by
  have fA := density_finite h rfuel hA j
  have fB := density_finite h rfuel hB j
  have hP' : ∀ x y, pairProbability (μ i) nc x y = pairProbability (μ j) nc x y := fun x y => pairProbability_const h nc hn' x y i j
  have hPm := pairProbability_meas h nc hn' j
  rw [← density_total h rfuel hA j, ← density_total h rfuel hB j]
  refine glauber_total hPm fun r θ => ?_
  have hcs : Real.cos θ ^ 2 + Real.sin θ ^ 2 = 1 := Real.cos_sq_add_sin_sq θ
  have := glauber_turn (c := Real.cos θ) (s := Real.sin θ) hPm (fun f hf => density_turn h hν i d hμ rfuel hA hcs hf j) (fun f hf => density_turn h hν i d hμ rfuel hB hcs hf j)
    (fun x y => by rw [← hP', ← hP']; exact hP _ _ hcs x y) r 0
  rw [← this]
  congr 1 <;> ring

/-- **C102, all impact parameters.** If the impact parameters start at 0 and go far enough to hold every collision, `π bmax²` times the mean number of binary collisions per attempt
is the product of the numbers of nucleons and the integral of the probability that a pair collides over its distance vector. -/
theorem C102_total [LawfulRng E D] (h : FreshSource E D μ) {ν : Measure E} (hν : IdealSource E D ν) (i : I) (d : D)
    (hμ : μ i = ν.map fun e => (⟨e, d⟩ : Rand E D)) (c : Collider ℝ) (hn : c.calcNcoll = true) (w v : ℝ) (hw : 0 ≤ w) (m : ℕ) (σ k : ℝ)
    (hc : c.nc = NucleonCommon.make w v m σ true k) (A B : Nucleus ℝ) (hA : NucleusHistory E D A) (hB : NucleusHistory E D B)
    (hP : Isotropic (pairProbability (μ i) c.nc)) (rA rB : ℝ) (rchA : Reach E D A.kind rA) (rchB : Reach E D B.kind rB)
    (h0 : c.bmin = 0) (hpos : 0 < c.bmax) (hb : rA + rB + 6 * w ≤ c.bmax) (rfuel : ℕ) (j : I) :
    ENNReal.ofReal (Real.pi * c.bmax^2) * collisionMean (μ j) rfuel c A B 1 binaryCollisions =
      (A.nucleons.length * sampled (μ j) rfuel A) * (B.nucleons.length * sampled (μ j) rfuel B) * ∫⁻ v : ℝ × ℝ, pairProbability (μ j) c.nc v.1 v.2 := by
  have hn' : c.nc.calcNcoll = true := by rw [hc]; rfl
  have key := mean_disk h rfuel c hA hB h0.ge (by rw [h0]; exact hpos) binaryCollisions_meas j
  rw [h0, zero_pow two_ne_zero, sub_zero] at key
  rw [key, ← glauber_disk h hν i d hμ hn' hA hB hP rfuel j]
  simp only [meanAt_count h rfuel c hn hn' hA hB _ j]
  have hfar : ∀ b : ℝ, c.bmax < b → glauber (nucleonDensity (μ j) rfuel A) (nucleonDensity (μ j) rfuel B) (pairProbability (μ j) c.nc) b 0 = 0 := by
    intro b hb'
    refine glauber_far (density_reach h rfuel hA rchA j) (density_reach h rfuel hB rchB j) (d := 6 * w) ?_ (hb.trans_lt hb') 0
    intro x y hx
    unfold pairProbability
    convert measure_empty (μ := μ j)
    ext r
    simp only [mem_ofPred_eq, mem_empty_iff_false, iff_false, Bool.not_eq_true]
    have h2 : lt c.nc.maxImpactSq (sqr ((newNucleon x y).x - (newNucleon 0 0).x) + sqr ((newNucleon x y).y - (newNucleon 0 0).y)) = true := by
      rw [hc, make_maxImpactSq]
      simp only [sqr_real, lt_real, decide_eq_true_eq, newNucleon, sub_zero]
      nlinarith [sq_nonneg y]
    unfold NucleonCommon.participate
    rw [if_neg (by simp [newNucleon]), if_pos h2]
  rw [← setLIntegral_congr (Ioo_ae_eq_Ioc (a := (0:ℝ)) (b := c.bmax)).symm, ← lintegral_indicator measurableSet_Ioc, ← lintegral_indicator measurableSet_Ioi]
  refine lintegral_congr fun b => ?_
  simp only [indicator, mem_Ioc, mem_Ioi]
  by_cases h1 : 0 < b
  · by_cases h2 : b ≤ c.bmax
    · simp [h1, h2]
    · simp [h1, h2, hfar b (not_le.mp h2)]
  · simp [h1]

/-- **C102, bound.** Whatever range of impact parameters is asked for, `π (bmax² - bmin²)` times the mean number of binary collisions per attempt is at most that for all
impact parameters. -/
theorem C102_bound [LawfulRng E D] (h : FreshSource E D μ) {ν : Measure E} (hν : IdealSource E D ν) (i : I) (d : D)
    (hμ : μ i = ν.map fun e => (⟨e, d⟩ : Rand E D)) (c : Collider ℝ) (hn : c.calcNcoll = true) (hn' : c.nc.calcNcoll = true)
    (A B : Nucleus ℝ) (hA : NucleusHistory E D A) (hB : NucleusHistory E D B)
    (hP : Isotropic (pairProbability (μ i) c.nc)) (h0 : 0 ≤ c.bmin) (hb : c.bmin < c.bmax) (rfuel : ℕ) (j : I) :
    ENNReal.ofReal (Real.pi * (c.bmax^2 - c.bmin^2)) * collisionMean (μ j) rfuel c A B 1 binaryCollisions ≤
      A.nucleons.length * B.nucleons.length * ∫⁻ v : ℝ × ℝ, pairProbability (μ j) c.nc v.1 v.2 := by
  have := h.prob
  rw [mean_disk h rfuel c hA hB h0 hb binaryCollisions_meas j]
  simp only [meanAt_count h rfuel c hn hn' hA hB _ j]
  refine (lintegral_mono_set (t := Ioi 0) fun b hb' => h0.trans_lt hb'.1).trans ?_
  rw [glauber_disk h hν i d hμ hn' hA hB hP rfuel j]
  gcongr
  · exact mul_le_of_le_one_right' prob_le_one
  · exact mul_le_of_le_one_right' prob_le_one

/-! ### Protons -/

/-- **C102, protons.** Binary collision scaling is relative to proton-proton collisions with the same nucleons: the integral of the pair probability is the proton-proton cross
section, `π bmax²` times the probability that an attempt with two protons collides (`b-min` 0, `b-max` at least `6 w`). -/
theorem C102_protons [LawfulRng E D] (h : FreshSource E D μ) {ν : Measure E} (hν : IdealSource E D ν) (i : I) (d : D)
    (hμ : μ i = ν.map fun e => (⟨e, d⟩ : Rand E D)) (c : Collider ℝ) (hn : c.calcNcoll = true) (w v : ℝ) (hw : 0 < w) (m : ℕ) (σ k : ℝ)
    (hc : c.nc = NucleonCommon.make w v m σ true k) (A B : Nucleus ℝ) (hA : NucleusHistory E D A) (hB : NucleusHistory E D B)
    (kA : A.kind = .proton) (kB : B.kind = .proton)
    (hP : Isotropic (pairProbability (μ i) c.nc)) (h0 : c.bmin = 0) (hb : 6 * w ≤ c.bmax) (rfuel : ℕ) (j : I) :
    ENNReal.ofReal (Real.pi * c.bmax^2) * collisionMean (μ j) rfuel c A B 1 (fun _ => 1) = ∫⁻ v : ℝ × ℝ, pairProbability (μ j) c.nc v.1 v.2 := by
  have := h.prob
  have lA := hA.wf
  have lB := hB.wf
  unfold Nucleus.WF at lA lB
  rw [kA] at lA; rw [kB] at lB
  dsimp only at lA lB
  have key := C102_total h hν i d hμ c hn w v hw.le m σ k hc A B hA hB hP 0 0 (by rw [kA]; exact reach_proton) (by rw [kB]; exact reach_proton) h0 (by linarith) (by linarith) rfuel j
  have hs : ∀ N : Nucleus ℝ, N.kind = .proton → sampled (μ j) rfuel N = 1 := by
    intro N hN
    unfold sampled
    have : {w : Rand E D | ∃ r, N.sampleNucleons rfuel 0 w = .ok r} = univ := eq_univ_of_forall fun w => ⟨_, by simp only [Nucleus.sampleNucleons, hN]; rfl⟩
    rw [this]
    exact measure_univ
  rw [hs A kA, hs B kB, lA, lB] at key
  simp only [Nat.cast_one, one_mul, mul_one] at key
  rw [← key]
  congr 1
  have hlt : c.bmin < c.bmax := by rw [h0]; linarith
  rw [mean_one h rfuel c hA hB measurable_const j j, mean_one h rfuel c hA hB binaryCollisions_meas j j]
  refine lintegral_congr fun u => ?_
  unfold meanAt
  refine lintegral_congr fun r => ?_
  obtain ⟨a, ha⟩ := List.length_eq_one_iff.1 lA
  obtain ⟨b', hb'⟩ := List.length_eq_one_iff.1 lB
  simp only [attemptAt, Nucleus.sampleNucleons, kA, kB, ha, hb', sampleProton, Except.map, bindR, ifOk, pairLoop, pairRow, binaryCollisions, hn, Bool.and_true, Bool.or_false]
  split <;> simp

/-- **C102, binary collision scaling.** For two nuclei with `A` and `B` nucleons and impact parameters that hold every collision: `π bmax²` times the mean number of binary collisions
per attempt is `A·B` times the proton-proton cross section with the same nucleons (times the probabilities that the samplings of the nuclei end). -/
theorem C102_scaling [LawfulRng E D] (h : FreshSource E D μ) {ν : Measure E} (hν : IdealSource E D ν) (i : I) (d : D)
    (hμ : μ i = ν.map fun e => (⟨e, d⟩ : Rand E D)) (c cp : Collider ℝ) (hn : c.calcNcoll = true) (hnp : cp.calcNcoll = true)
    (w v : ℝ) (hw : 0 < w) (m : ℕ) (σ k : ℝ) (hc : c.nc = NucleonCommon.make w v m σ true k) (hcp : cp.nc = c.nc)
    (A B pA pB : Nucleus ℝ) (hA : NucleusHistory E D A) (hB : NucleusHistory E D B) (hpA : NucleusHistory E D pA) (hpB : NucleusHistory E D pB)
    (kA : pA.kind = .proton) (kB : pB.kind = .proton) (hP : Isotropic (pairProbability (μ i) c.nc))
    (rA rB : ℝ) (rchA : Reach E D A.kind rA) (rchB : Reach E D B.kind rB)
    (h0 : c.bmin = 0) (hpos : 0 < c.bmax) (hb : rA + rB + 6 * w ≤ c.bmax) (h0p : cp.bmin = 0) (hbp : 6 * w ≤ cp.bmax) (rfuel : ℕ) (j : I) :
    ENNReal.ofReal (Real.pi * c.bmax^2) * collisionMean (μ j) rfuel c A B 1 binaryCollisions =
      (A.nucleons.length * sampled (μ j) rfuel A) * (B.nucleons.length * sampled (μ j) rfuel B) *
        (ENNReal.ofReal (Real.pi * cp.bmax^2) * collisionMean (μ j) rfuel cp pA pB 1 (fun _ => 1)) := by
  rw [C102_protons h hν i d hμ cp hnp w v hw m σ k (hcp.trans hc) pA pB hpA hpB kA kB (by rw [hcp]; exact hP) h0p hbp rfuel j, hcp]
  exact C102_total h hν i d hμ c hn w v hw.le m σ k hc A B hA hB hP rA rB rchA rchB h0 hpos hb rfuel j

/-- **C102, events.** The same for the events of a run (collisions found in at most `n` attempts): the mean number of binary collisions of an event, times the cross section
`σ_AB = π bmax² P_1`, is `A·B` times the integral of the pair probability. -/
theorem C102_events [LawfulRng E D] (h : FreshSource E D μ) {ν : Measure E} (hν : IdealSource E D ν) (i : I) (d : D)
    (hμ : μ i = ν.map fun e => (⟨e, d⟩ : Rand E D)) (c : Collider ℝ) (hn : c.calcNcoll = true) (w v : ℝ) (hw : 0 ≤ w) (m : ℕ) (σ k : ℝ)
    (hc : c.nc = NucleonCommon.make w v m σ true k) (A B : Nucleus ℝ) (hA : NucleusHistory E D A) (hB : NucleusHistory E D B)
    (hP : Isotropic (pairProbability (μ i) c.nc)) (rA rB : ℝ) (rchA : Reach E D A.kind rA) (rchB : Reach E D B.kind rB)
    (h0 : c.bmin = 0) (hpos : 0 < c.bmax) (hb : rA + rB + 6 * w ≤ c.bmax) (rfuel n : ℕ) (j : I) :
    collisionMean (μ j) rfuel c A B n binaryCollisions * (ENNReal.ofReal (Real.pi * c.bmax^2) * collisionMean (μ j) rfuel c A B 1 (fun _ => 1)) =
      collisionMean (μ j) rfuel c A B n (fun _ => 1) *
        ((A.nucleons.length * sampled (μ j) rfuel A) * (B.nucleons.length * sampled (μ j) rfuel B) * ∫⁻ v : ℝ × ℝ, pairProbability (μ j) c.nc v.1 v.2) := by
  rw [← C102_total h hν i d hμ c hn w v hw m σ k hc A B hA hB hP rA rB rchA rchB h0 hpos hb rfuel j]
  have := C89_unbiased h c A B hA hB rfuel n binaryCollisions binaryCollisions_meas j j
  rw [mul_left_comm, this]
  ring

/-- **C102, samplings.** The sampling of a nucleus ends within `rfuel` rejections with a probability that tends to 1; for protons, spherical nuclei and nuclei from a file it always
ends. -/
theorem C102_sampled [LawfulRng E D] (h : FreshSource E D μ) (A : Nucleus ℝ) (hA : NucleusHistory E D A) (hs : Samplable A.kind) (i : I) :
    Filter.Tendsto (fun rfuel => sampled (μ i) rfuel A) Filter.atTop (nhds 1) ∧
      ((∀ a b, A.kind ≠ .deuteron a b) → (∀ R a b2 b4 rm dm, A.kind ≠ .deformed R a b2 b4 rm dm) → ∀ rfuel, sampled (μ i) rfuel A = 1) := by
  have := h.prob
  have e : ∀ rfuel, ∫⁻ w, ifOk ((A.sampleNucleons rfuel 0 w).map fun t => (t.1.nucleons, t.2)) (fun _ => 1) ∂(μ i) = sampled (μ i) rfuel A := by
    intro rfuel
    rw [sampled, ← lintegral_indicator_one (sampled_meas h rfuel A)]
    refine lintegral_congr fun w => ?_
    simp only [indicator, mem_ofPred_eq, Pi.one_apply]
    split
    · rename_i hx
      obtain ⟨r, hr⟩ := hx
      rw [hr]
      rfl
    · rename_i hx
      cases hs : A.sampleNucleons rfuel 0 w with
      | error e => rfl
      | ok t => exact absurd ⟨t, hs⟩ hx
  constructor
  · obtain ⟨q, hq, hA'⟩ := sample_complete h A hA hs
    have h1 : Filter.Tendsto (fun r : ℕ => q ^ r) Filter.atTop (nhds 0) := ENNReal.tendsto_pow_atTop_nhds_zero_of_lt_one hq
    have h2 := ENNReal.Tendsto.pow (n := A.nucleons.length) (ENNReal.Tendsto.sub (tendsto_const_nhds (x := (1:ℝ≥0∞))) h1 (Or.inl ENNReal.one_ne_top))
    simp only [tsub_zero, one_pow] at h2
    refine tendsto_of_tendsto_of_tendsto_of_le_of_le h2 tendsto_const_nhds (fun r => ?_) fun r => prob_le_one
    rw [← e]
    exact hA' r 0 i
  · intro hd hf rfuel
    have : {w : Rand E D | ∃ r, A.sampleNucleons rfuel 0 w = .ok r} = univ := by
      refine eq_univ_of_forall fun w => ?_
      cases hk : A.kind with
      | proton => exact ⟨_, by simp only [Nucleus.sampleNucleons, hk]; rfl⟩
      | woodsSaxon R a dm => exact ⟨_, by simp only [Nucleus.sampleNucleons, hk]; rfl⟩
      | manual configs rmax => rw [hk] at hs; exact C16_manual_total configs hs rmax A hA hk rfuel 0 w
      | deuteron a b => exact absurd hk (hd a b)
      | deformed R a b2 b4 rm dm => exact absurd hk (hf R a b2 b4 rm dm)
    unfold sampled
    rw [this]
    exact measure_univ

/-! ### Nucleons without substructure -/

/-- the pair probability without substructure -/
theorem pairProbability_single (h : FreshSource E D μ) (w v : ℝ) {σ : ℝ} (hσ : 0 ≤ σ) (k : ℝ) (x y : ℝ) (i : I) :
    pairProbability (μ i) (NucleonCommon.make w v 1 σ true k) x y =
      if x^2 + y^2 ≤ (6 * w)^2 then ENNReal.ofReal (1 - Real.exp (-σ * (Real.exp (-(x^2 + y^2) / (4 * v^2)) / (4 * Real.pi * v^2)))) else 0 := by
  have := h.prob
  set nc := NucleonCommon.make w v 1 σ true k with hnc
  have hset : MeasurableSet {r : Rand E D | (nc.participate (newNucleon x y) (newNucleon 0 0) r).1.1 = true} := by
    have e : {r : Rand E D | (nc.participate (newNucleon x y) (newNucleon 0 0) r).1.1 = true} =
        (fun r : Rand E D => (pairLoop nc nc.calcNcoll [newNucleon x y] [newNucleon 0 0] 0 false r).1.2.2.2) ⁻¹' {true} := by
      ext r
      simp [pairLoop, pairRow]
    rw [e]
    exact participate_meas h nc _ _ (measurableSet_singleton true)
  have e1 : pairProbability (μ i) nc x y = ∫⁻ r, (if (nc.participate (newNucleon x y) (newNucleon 0 0) r).1.1 then 1 else 0) ∂(μ i) := by
    unfold pairProbability
    rw [← lintegral_indicator_one hset]
    refine lintegral_congr fun r => ?_
    simp only [indicator, mem_ofPred_eq, Pi.one_apply]
  rw [e1]
  by_cases hd : x^2 + y^2 ≤ (6 * w)^2
  · rw [if_pos hd, hnc, pair_probability h w v 1 hσ true k _ _ (newNucleon_fresh x y) (by simpa [newNucleon] using hd) i]
    have e : ∀ r : Rand E D, overlapTAB v 1 ((NucleonCommon.make w v 1 σ true k).sampleConstituents (newNucleon x y) r).1.constituents
        ((NucleonCommon.make w v 1 σ true k).sampleConstituents (newNucleon 0 0) ((NucleonCommon.make w v 1 σ true k).sampleConstituents (newNucleon x y) r).2).1.constituents =
        Real.exp (-(x^2 + y^2) / (4 * v^2)) / (4 * Real.pi * v^2) := by
      intro r
      obtain ⟨f1, e1⟩ := single_constituent w v σ true k (newNucleon x y) (newNucleon_fresh x y) r
      obtain ⟨f2, e2⟩ := single_constituent w v σ true k (newNucleon 0 0) (newNucleon_fresh 0 0) ((NucleonCommon.make w v 1 σ true k).sampleConstituents (newNucleon x y) r).2
      rw [e1, e2]
      unfold overlapTAB
      simp [newNucleon]
    simp only [e]
    simp
  · rw [if_neg hd]
    have h2 : lt nc.maxImpactSq (sqr ((newNucleon x y).x - (newNucleon 0 0).x) + sqr ((newNucleon x y).y - (newNucleon 0 0).y)) = true := by
      rw [hnc, make_maxImpactSq]
      simp only [sqr_real, lt_real, decide_eq_true_eq, newNucleon, sub_zero]
      exact not_le.mp hd
    have h1 : ∀ r : Rand E D, (nc.participate (newNucleon x y) (newNucleon 0 0) r).1.1 = false := by
      intro r
      unfold NucleonCommon.participate
      rw [if_neg (by simp [newNucleon]), if_pos h2]
    simp [h1]

theorem isotropic_single (h : FreshSource E D μ) (w v : ℝ) {σ : ℝ} (hσ : 0 ≤ σ) (k : ℝ) (i : I) :
    Isotropic (pairProbability (μ i) (NucleonCommon.make w v 1 σ true k)) := by
  intro c s hcs x y
  have e : (c * x - s * y)^2 + (s * x + c * y)^2 = x^2 + y^2 := by linear_combination (x^2 + y^2) * hcs
  rw [pairProbability_single h w v hσ k, pairProbability_single h w v hσ k, e]

theorem lintegral_single (h : FreshSource E D μ) {w : ℝ} (hw : 0 < w) {σ : ℝ} (hσ : 0 ≤ σ) (k : ℝ) (i : I) :
    ∫⁻ p : ℝ × ℝ, pairProbability (μ i) (NucleonCommon.make w w 1 σ true k) p.1 p.2 = ENNReal.ofReal (inelasticCrossSection w σ) := by
  have hpi := Real.pi_pos
  have hrot := isotropic_single h w w hσ k i
  rw [lintegral_turned (pairProbability_meas h _ rfl i) (fun r θ => by
    have := hrot (Real.cos θ) (Real.sin θ) (Real.cos_sq_add_sin_sq θ) r 0
    rw [← this]
    congr 1 <;> ring)]
  set T : ℝ → ℝ := fun b => 2 * Real.pi * b * (1 - Real.exp (-σ * overlapTAB w 1 [⟨b, 0, 1⟩] [⟨0, 0, 1⟩])) with hT
  have hTc : Continuous T := by
    simp only [hT, overlapTAB_single]
    fun_prop
  have hT0 : ∀ b, 0 ≤ b → 0 ≤ T b := fun b hb => mul_nonneg (by positivity) (C07_probability w 1 σ hσ _ _).2.1
  have e1 : ∫⁻ r in Ioi (0:ℝ), ENNReal.ofReal (2 * Real.pi * r) * pairProbability (μ i) (NucleonCommon.make w w 1 σ true k) r 0 =
      ∫⁻ b in Ioc 0 (6 * w), ENNReal.ofReal (T b) := by
    rw [← lintegral_indicator measurableSet_Ioi, ← lintegral_indicator measurableSet_Ioc]
    refine lintegral_congr fun b => ?_
    simp only [indicator, mem_Ioi, mem_Ioc]
    by_cases h1 : 0 < b
    · simp only [h1, if_true, true_and, pairProbability_single h w w hσ k]
      have hiff : b^2 + (0:ℝ)^2 ≤ (6 * w)^2 ↔ b ≤ 6 * w := by
        rw [zero_pow two_ne_zero, add_zero]
        exact pow_le_pow_iff_left₀ h1.le (by positivity) two_ne_zero
      by_cases h2 : b ≤ 6 * w
      · rw [if_pos (hiff.mpr h2), if_pos h2, ← ENNReal.ofReal_mul (by positivity)]
        simp only [hT, overlapTAB_single]
        norm_num
      · rw [if_neg (fun hh => h2 (hiff.mp hh)), if_neg h2, mul_zero]
    · simp [h1]
  rw [e1, inelasticCrossSection, intervalIntegral.integral_of_le (by positivity), ofReal_integral_eq_lintegral_ofReal]
  · exact hTc.continuousOn.integrableOn_Icc.mono_set Ioc_subset_Icc_self
  · rw [Filter.EventuallyLE, ae_restrict_iff' measurableSet_Ioc]
    exact Filter.Eventually.of_forall fun b hb' => hT0 b hb'.1.le

/-- **C102, options.** Nucleons without substructure, partonic cross section fitted to `σ_NN` (C10), `--ncoll`, `--b-min 0` and a `b-max` beyond the reach of the nuclei: the mean number of
binary collisions per attempt times `π bmax²` is `A·B·σ_NN`. -/
theorem C102_options [LawfulRng E D] (h : FreshSource E D μ) {ν : Measure E} (hν : IdealSource E D ν) (i : I) (d : D)
    (hμ : μ i = ν.map fun e => (⟨e, d⟩ : Rand E D)) (o : Options ℝ) (hA : NucleusHistory E D o.projectileA) (hB : NucleusHistory E D o.projectileB)
    (hn : o.ncoll = true) (hw : 0 < o.nucleonWidth) (hv : o.constitWidth = o.nucleonWidth) (hm : o.constitNumber = 1) (σ : ℝ) (hσ : 0 ≤ σ) (sigmaNN : ℝ)
    (hfit : inelasticCrossSection o.nucleonWidth σ = sigmaNN) (rA rB : ℝ) (rchA : Reach E D o.projectileA.kind rA) (rchB : Reach E D o.projectileB.kind rB)
    (h0 : o.bMin = 0) (hpos : 0 < o.bMax) (hb : rA + rB + 6 * o.nucleonWidth ≤ o.bMax) (rfuel : ℕ) (j : I) :
    ENNReal.ofReal (Real.pi * o.bMax^2) * collisionMean (μ j) rfuel (Collider.make o σ) o.projectileA o.projectileB 1 binaryCollisions =
      (o.projectileA.nucleons.length * sampled (μ j) rfuel o.projectileA) * (o.projectileB.nucleons.length * sampled (μ j) rfuel o.projectileB) * ENNReal.ofReal sigmaNN := by
  have hmax : (Collider.make o σ).bmax = o.bMax := by
    simp only [Collider.make, determineBmax, lt_real, lit_real]
    simp [not_lt.mpr hpos.le]
  have hnc : (Collider.make o σ).nc = NucleonCommon.make o.nucleonWidth o.nucleonWidth 1 σ true o.fluctuation := by simp only [Collider.make, hv, hm, hn]
  rw [← hmax, ← hfit, ← lintegral_single h hw hσ o.fluctuation j, ← hnc]
  exact C102_total h hν i d hμ (Collider.make o σ) hn o.nucleonWidth o.nucleonWidth hw.le 1 σ o.fluctuation hnc _ _ hA hB
    (by rw [hnc]; exact isotropic_single h _ _ hσ _ i) rA rB rchA rchB h0 (by rw [hmax]; exact hpos) (by rw [hmax]; exact hb) rfuel j

end Trento
