import Verif.Props.Weights

/-!
# C105: means do not depend on the fluctuation parameter

A function of the collision that is affine in each weight (as the thickness functions are) has the mean it would have if all weights were 1, whatever the fluctuation parameter.
-/

namespace Trento
open MeasureTheory Set Spec ProbabilityTheory
open scoped ENNReal

/-- No weight is negative. -/
def Spec.NonnegWeights (x : Collided) : Prop := ∀ n ∈ x.2.2.1 ++ x.2.2.2, ∀ c ∈ n.constituents, 0 ≤ c.fluctuation

/-- Affine in the weight of every constituent, for non-negative weights. -/
def Spec.AffineInWeights (F : Collided → ℝ≥0∞) : Prop :=
  ∀ x, NonnegWeights x → ∀ q, ∃ α β : ℝ≥0∞, ∀ f : ℝ, 0 ≤ f → F (setWeight q f x) = α + ENNReal.ofReal f * β

/-! ### Lists -/

theorem reweigh_reweigh (j : ℕ) (f g : ℝ) (n : NucleonData ℝ) : (n.reweigh j f).reweigh j g = n.reweigh j g := by
  unfold NucleonData.reweigh NucleonData.revise
  simp only [List.modify_modify_eq]
  rfl

theorem reweigh_comm {j k : ℕ} (h : j ≠ k) (f g : ℝ) (n : NucleonData ℝ) : (n.reweigh j f).reweigh k g = (n.reweigh k g).reweigh j f := by
  unfold NucleonData.reweigh NucleonData.revise
  simp only [List.modify_modify_ne _ _ _ h]

theorem setWeight_same (q : Label) (f g : ℝ) (x : Collided) : setWeight q g (setWeight q f x) = setWeight q g x := by
  unfold setWeight
  cases q.1
  · simp only [Bool.false_eq_true, if_false, List.modify_modify_eq]
    congr 4
    funext n
    exact reweigh_reweigh _ _ _ n
  · simp only [if_true, List.modify_modify_eq]
    congr 4
    funext n
    exact reweigh_reweigh _ _ _ n

theorem setWeight_comm {q r : Label} (h : q ≠ r) (f g : ℝ) (x : Collided) : setWeight r g (setWeight q f x) = setWeight q f (setWeight r g x) := by
  have key : ∀ (l : List (NucleonData ℝ)) (a b j k : ℕ), (a, j) ≠ (b, k) →
      (l.modify a (NucleonData.reweigh j f)).modify b (NucleonData.reweigh k g) = (l.modify b (NucleonData.reweigh k g)).modify a (NucleonData.reweigh j f) := by
    intro l a b j k hab
    by_cases e : a = b
    · subst e
      rw [List.modify_modify_eq, List.modify_modify_eq]
      congr 1
      funext n
      exact reweigh_comm (fun e => hab (by rw [e])) f g n
    · rw [List.modify_modify_ne _ _ _ e]
  obtain ⟨s, a, j⟩ := q
  obtain ⟨t, b, k⟩ := r
  unfold setWeight
  cases s <;> cases t <;> simp only [Bool.false_eq_true, if_false, if_true]
  · rw [key _ a b j k (fun e => h (by rw [e]))]
  · rw [key _ a b j k (fun e => h (by rw [e]))]

theorem mem_modify {α : Type} {l : List α} {a : ℕ} {φ : α → α} {x : α} (h : x ∈ l.modify a φ) : ∃ y ∈ l, x = y ∨ x = φ y := by
  obtain ⟨k, hk, rfl⟩ := List.mem_iff_getElem.mp h
  rw [List.getElem_modify]
  rw [List.length_modify] at hk
  refine ⟨l[k], List.getElem_mem hk, ?_⟩
  split
  · exact Or.inr rfl
  · exact Or.inl rfl

theorem nonneg_set {x : Collided} (h : NonnegWeights x) (q : Label) {f : ℝ} (hf : 0 ≤ f) : NonnegWeights (setWeight q f x) := by
  have key : ∀ l : List (NucleonData ℝ), (∀ n ∈ l, ∀ c ∈ n.constituents, 0 ≤ c.fluctuation) → ∀ a j, ∀ n ∈ l.modify a (NucleonData.reweigh j f), ∀ c ∈ n.constituents, 0 ≤ c.fluctuation := by
    intro l hl a j n hn c hc
    obtain ⟨n', hn', rfl | rfl⟩ := mem_modify hn
    · exact hl _ hn' c hc
    · obtain ⟨c', hc', rfl | rfl⟩ := mem_modify (l := n'.constituents) hc
      · exact hl _ hn' _ hc'
      · exact hf
  have h1 : ∀ n ∈ x.2.2.1, ∀ c ∈ n.constituents, 0 ≤ c.fluctuation := fun n hn => h n (by simp [hn])
  have h2 : ∀ n ∈ x.2.2.2, ∀ c ∈ n.constituents, 0 ≤ c.fluctuation := fun n hn => h n (by simp [hn])
  intro n hn
  unfold setWeight at hn
  split at hn
  · rcases List.mem_append.mp hn with hn | hn
    · exact key _ h1 _ _ n hn
    · exact h2 n hn
  · rcases List.mem_append.mp hn with hn | hn
    · exact h1 n hn
    · exact key _ h2 _ _ n hn

theorem affine_set {F : Collided → ℝ≥0∞} (hF : AffineInWeights F) (q : Label) : AffineInWeights fun x => F (setWeight q 1 x) := by
  intro x hx r
  by_cases h : r = q
  · subst h
    refine ⟨F (setWeight r 1 x), 0, fun f _ => ?_⟩
    dsimp only
    rw [setWeight_same, mul_zero, add_zero]
  · obtain ⟨α, β, hab⟩ := hF (setWeight q 1 x) (nonneg_set hx q zero_le_one) r
    refine ⟨α, β, fun f hf => ?_⟩
    dsimp only
    rw [setWeight_comm h]
    exact hab f hf

/-- give these constituents the weight 1 -/
noncomputable def ones : List Label → Collided → Collided
  | [], x => x
  | q :: Q, x => ones Q (setWeight q 1 x)

theorem ones_meas (Q : List Label) : Measurable (ones Q) := by
  induction Q with
  | nil => exact measurable_id
  | cons q Q ih => exact ih.comp ((setWeight_meas q).comp (f := fun x : Collided => ((1:ℝ), x)) (by fun_prop))

theorem affine_ones {F : Collided → ℝ≥0∞} (hF : AffineInWeights F) (Q : List Label) : AffineInWeights fun x => F (ones Q x) := by
  induction Q with
  | nil => exact hF
  | cons q Q ih => exact affine_set ih q

/-- the nucleons with weight 1 for the chosen constituents -/
noncomputable def onList (P : ℕ → ℕ → Prop) (l : List (NucleonData ℝ)) : List (NucleonData ℝ) := by
  classical
  exact l.mapIdx fun a n => n.revise fun cs => cs.mapIdx fun j c => if P a j then { c with fluctuation := 1 } else c

theorem onList_modify (P : ℕ → ℕ → Prop) (l : List (NucleonData ℝ)) (a j : ℕ) : onList P (l.modify a (NucleonData.reweigh j 1)) = onList (fun a' j' => P a' j' ∨ (a' = a ∧ j' = j)) l := by
  classical
  unfold onList
  refine List.ext_getElem (by simp) fun k h1 h2 => ?_
  simp only [List.getElem_mapIdx, List.getElem_modify]
  by_cases e : a = k
  · subst e
    simp only [if_true, NucleonData.reweigh, NucleonData.revise]
    congr 1
    refine List.ext_getElem (by simp) fun i g1 g2 => ?_
    simp only [List.getElem_mapIdx, List.getElem_modify, true_and]
    by_cases e2 : j = i
    · subst e2; simp
    · simp [e2, Ne.symm e2]
  · simp only [e, if_false, Ne.symm e, false_and, or_false]

theorem onList_none (l : List (NucleonData ℝ)) : onList (fun _ _ => False) l = l := by
  classical
  unfold onList
  refine List.ext_getElem (by simp) fun k h1 h2 => ?_
  simp only [List.getElem_mapIdx, if_false, NucleonData.revise]
  have : (l[k].constituents.mapIdx fun _ c => c) = l[k].constituents := List.ext_getElem (by simp) fun i g1 g2 => by simp
  rw [this]

theorem onList_all {P : ℕ → ℕ → Prop} {l : List (NucleonData ℝ)} {m : ℕ} (hm : ∀ n ∈ l, n.constituents.length ≤ m) (hP : ∀ a < l.length, ∀ j < m, P a j) :
    onList P l = l.map NucleonData.unweigh := by
  classical
  unfold onList
  refine List.ext_getElem (by simp) fun k h1 h2 => ?_
  have hk : k < l.length := by simpa using h1
  simp only [List.getElem_mapIdx, List.getElem_map, NucleonData.unweigh, NucleonData.revise]
  congr 1
  refine List.ext_getElem (by simp) fun i g1 g2 => ?_
  have hi : i < l[k].constituents.length := by simpa using g1
  simp only [List.getElem_mapIdx, List.getElem_map]
  rw [if_pos (hP k hk i (lt_of_lt_of_le hi (hm _ (List.getElem_mem hk))))]

theorem onList_congr {P P' : ℕ → ℕ → Prop} (h : ∀ a j, P a j ↔ P' a j) (l : List (NucleonData ℝ)) : onList P l = onList P' l := by
  have : P = P' := funext fun a => funext fun j => propext (h a j)
  rw [this]

theorem ones_eq (Q : List Label) (x : Collided) :
    ones Q x = (x.1, x.2.1, onList (fun a j => (true, a, j) ∈ Q) x.2.2.1, onList (fun a j => (false, a, j) ∈ Q) x.2.2.2) := by
  induction Q generalizing x with
  | nil => simp only [ones, List.not_mem_nil, onList_none]
  | cons q Q ih =>
    obtain ⟨s, a, j⟩ := q
    rw [ones, ih]
    unfold setWeight
    cases s
    · simp only [Bool.false_eq_true, if_false, onList_modify, Prod.mk.injEq, true_and]
      refine ⟨onList_congr (fun a' j' => by simp) _, onList_congr (fun a' j' => by simp [or_comm]) _⟩
    · simp only [if_true, onList_modify, Prod.mk.injEq, true_and]
      refine ⟨onList_congr (fun a' j' => by simp [or_comm]) _, onList_congr (fun a' j' => by simp) _⟩

/-- all constituents of collisions of nuclei with at most `N` nucleons of `m` constituents -/
def allLabels (N m : ℕ) : List Label := [true, false] ×ˢ (List.range N ×ˢ List.range m)

theorem ones_all {x : Collided} {N m : ℕ} (h1 : x.2.2.1.length ≤ N) (h2 : x.2.2.2.length ≤ N) (hm : ∀ n ∈ x.2.2.1 ++ x.2.2.2, n.constituents.length ≤ m) :
    ones (allLabels N m) x = unitWeights x := by
  rw [ones_eq]
  unfold unitWeights allLabels
  rw [onList_all (m := m) (fun n hn => hm n (by simp [hn])), onList_all (m := m) (fun n hn => hm n (by simp [hn]))]
  · intro a ha j hj
    refine List.mem_product.mpr ⟨by simp, List.mem_product.mpr ⟨List.mem_range.mpr ?_, List.mem_range.mpr hj⟩⟩
    exact lt_of_lt_of_le ha (by assumption)
  · intro a ha j hj
    refine List.mem_product.mpr ⟨by simp, List.mem_product.mpr ⟨List.mem_range.mpr ?_, List.mem_range.mpr hj⟩⟩
    exact lt_of_lt_of_le ha (by assumption)

/-! ### Collisions -/

/-- what is known of the constituents of a collision -/
theorem collision_weights (c : Collider ℝ) {A B A' B' : Nucleus ℝ} (hA : NucleusHistory Tape (LibDist ℝ) A) (hB : NucleusHistory Tape (LibDist ℝ) B) {rfuel fuel : ℕ} {w w' : LibState} {b : ℝ} {nc : ℕ}
    (h : c.sampleCollision rfuel fuel A B w = .ok ((b, nc, A', B'), w')) :
    (∀ a ∈ A'.nucleons, WeightsReal c.nc.constituentNumber a) ∧ (∀ a ∈ B'.nucleons, WeightsReal c.nc.constituentNumber a) ∧
      A'.nucleons.length = A.nucleons.length ∧ B'.nucleons.length = B.nucleons.length := by
  have hP : ∀ n : NucleonData ℝ, n.isParticipant = false → n.constituentsExist = false → WeightsReal c.nc.constituentNumber n :=
    fun n h1 h2 => ⟨fun h => absurd h (by rw [h1]; simp), fun h => absurd h (by rw [h2]; simp)⟩
  have hS : ∀ (kind : Kind ℝ) (off : ℝ → Prop), SamplingInvariant Tape (LibDist ℝ) kind off (WeightsReal c.nc.constituentNumber) (fun _ => True) := by
    intro kind off nuc rfuel x w hh hk hx
    refine ⟨fun _ _ => trivial, ?_⟩
    intro nuc' w' hs n hn
    have := (C12_sampling_resets nuc nuc' hh _ _ _ _ hs).2 n hn
    exact hP n this.1 this.2
  obtain ⟨-, -, -, -, q1, q2, -⟩ := (collisionLoop_inv (Q := fun _ => True) trivial (weightsReal_invariant (E := Tape) (D := LibDist ℝ) c.nc) (hS A.kind _) (hS B.kind _) rfuel fuel A B hA hB rfl rfl
    0 false w).2 b nc A' B' w' h
  obtain ⟨-, -, -, l1, l2, -⟩ := collisionLoop_spec rfuel c fuel A B A' B' hA hB w w' b nc h
  exact ⟨q1, q2, l1, l2⟩

theorem collided_weights (c : Collider ℝ) {A B A' B' : Nucleus ℝ} (hA : NucleusHistory Tape (LibDist ℝ) A) (hB : NucleusHistory Tape (LibDist ℝ) B) {rfuel fuel : ℕ} {w w' : LibState} {b : ℝ} {nc : ℕ}
    (h : c.sampleCollision rfuel fuel A B w = .ok ((b, nc, A', B'), w')) :
    NonnegWeights (collided (b, nc, A', B')) ∧ ∀ n ∈ (collided (b, nc, A', B')).2.2.1 ++ (collided (b, nc, A', B')).2.2.2, n.constituents.length ≤ c.nc.constituentNumber := by
  obtain ⟨q1, q2, -, -⟩ := collision_weights c hA hB h
  have key : ∀ n : NucleonData ℝ, WeightsReal c.nc.constituentNumber n → (∀ c ∈ n.clear.constituents, 0 ≤ c.fluctuation) ∧ n.clear.constituents.length ≤ c.nc.constituentNumber := by
    intro n hn
    unfold NucleonData.clear
    split
    · rename_i he
      exact ⟨(hn.2 he).2, (hn.2 he).1.le⟩
    · exact ⟨fun c hc => by simp at hc, by simp⟩
  have all : ∀ n ∈ (collided (b, nc, A', B')).2.2.1 ++ (collided (b, nc, A', B')).2.2.2, (∀ c ∈ n.constituents, 0 ≤ c.fluctuation) ∧ n.constituents.length ≤ c.nc.constituentNumber := by
    intro n hn
    simp only [collided, List.mem_append, List.mem_map] at hn
    rcases hn with ⟨a, ha, rfl⟩ | ⟨a, ha, rfl⟩
    · exact key a (q1 a ha)
    · exact key a (q2 a ha)
  exact ⟨fun n hn => (all n hn).1, fun n hn => (all n hn).2⟩

theorem affine_gamma {F : Collided → ℝ≥0∞} (hF : AffineInWeights F) {k : ℝ} (hk : 0 < k) {x : Collided} (hx : NonnegWeights x) (q : Label) :
    ∫⁻ f, F (setWeight q f x) ∂gammaMeasure k k = F (setWeight q 1 x) := by
  have hp0 : IsProbabilityMeasure (gammaMeasure k k) := isProbabilityMeasure_gammaMeasure hk hk
  obtain ⟨α, β, hab⟩ := hF x hx q
  obtain ⟨m1, -, m0⟩ := C98_moments hk
  have hae : ∀ᵐ f ∂gammaMeasure k k, 0 ≤ f := by
    rw [ae_iff]
    simp only [not_le]
    exact m0
  have e : ∫⁻ f, F (setWeight q f x) ∂gammaMeasure k k = ∫⁻ f, (α + ENNReal.ofReal f * β) ∂gammaMeasure k k := lintegral_congr_ae (hae.mono fun f hf => hab f hf)
  rw [e, lintegral_add_left measurable_const, lintegral_const, measure_univ, mul_one, lintegral_mul_const _ (by fun_prop), m1, hab 1 zero_le_one]
  simp

/-- **C105, means.** With the library's distributions and an ideal engine: a function of the collision that is affine in the weight of every constituent has the same mean as if every
constituent had weight 1, and its mean is the same for all values of the fluctuation parameter. -/
theorem C105_mean (o : Options ℝ) (sigma : ℝ) (hk : 0 < o.fluctuation) (hA : NucleusHistory Tape (LibDist ℝ) o.projectileA) (hB : NucleusHistory Tape (LibDist ℝ) o.projectileB)
    (rfuel n : ℕ) {F : Collided → ℝ≥0∞} (hF : Measurable F) (haff : AffineInWeights F) (i : LibMix) :
    collisionMean (libMix i) rfuel (Collider.make o sigma) o.projectileA o.projectileB n F =
        collisionMean (libMix i) rfuel (Collider.make o sigma) o.projectileA o.projectileB n (fun x => F (unitWeights x)) ∧
      ∀ k', 0 < k' → collisionMean (libMix i) rfuel (Collider.make { o with fluctuation := k' } sigma) o.projectileA o.projectileB n F =
        collisionMean (libMix i) rfuel (Collider.make o sigma) o.projectileA o.projectileB n F := by
  have unit : ∀ o : Options ℝ, 0 < o.fluctuation → NucleusHistory Tape (LibDist ℝ) o.projectileA → NucleusHistory Tape (LibDist ℝ) o.projectileB →
      collisionMean (libMix i) rfuel (Collider.make o sigma) o.projectileA o.projectileB n F =
        collisionMean (libMix i) rfuel (Collider.make o sigma) o.projectileA o.projectileB n (fun x => F (unitWeights x)) := by
    intro o hk hA hB
    have step : ∀ Q : List Label, collisionMean (libMix i) rfuel (Collider.make o sigma) o.projectileA o.projectileB n F =
        collisionMean (libMix i) rfuel (Collider.make o sigma) o.projectileA o.projectileB n (fun x => F (ones Q x)) := by
      intro Q
      induction Q with
      | nil => rfl
      | cons q Q ih =>
        rw [ih, C105_weight o sigma hk hA hB rfuel n (F := fun x => F (ones Q x)) (hF.comp (ones_meas Q)) q i]
        unfold collisionMean
        refine lintegral_congr fun w => ifOk_congr' fun t ht => ?_
        obtain ⟨⟨b, nc, A', B'⟩, w'⟩ := t
        have hx := (collided_weights _ hA hB ht).1
        exact affine_gamma (affine_ones haff Q) hk hx q
    rw [step (allLabels (max o.projectileA.nucleons.length o.projectileB.nucleons.length) (Collider.make o sigma).nc.constituentNumber)]
    unfold collisionMean
    refine lintegral_congr fun w => ifOk_congr' fun t ht => ?_
    obtain ⟨⟨b, nc, A', B'⟩, w'⟩ := t
    obtain ⟨-, -, l1, l2⟩ := collision_weights _ hA hB ht
    have hl := (collided_weights _ hA hB ht).2
    dsimp only
    rw [ones_all _ _ hl]
    · simp [collided, l1]
    · simp [collided, l2]
  refine ⟨unit o hk hA hB, fun k' hk' => ?_⟩
  have := unit { o with fluctuation := k' } hk' hA hB
  refine this.trans ?_
  rw [unit o hk hA hB]
  exact C105_positions o sigma hk hA hB hk' rfuel n hF i

end Trento
