import Verif.Lemmas.Wounded
import Verif.Props.BinaryCollisions

/-!
# C104: which nucleons are wounded

Given the positions of the nucleons, the probability that none of any chosen set of nucleons is wounded is the mean over the constituents of the product, over the pairs that
involve a chosen nucleon, of the probability `exp(-σ T_AB)` that the pair does not interact.  So a nucleon is wounded with probability `1 - ∏ exp(-σ T_AB)`, and the nuclei
collide with probability `1 - ∏ exp(-σ T_AB)` over all pairs: the Glauber formulas.
-/

namespace Trento
open MeasureTheory Set Spec
open scoped ENNReal

variable {E D : Type} [Rng ℝ E D]

/-- The probability that two nucleons do not interact: 1 if they are more than `6 w` apart, else `exp(-σ T_AB)` for their constituents. -/
noncomputable def Spec.pass (w v : ℝ) (m : ℕ) (σ : ℝ) (a b : NucleonData ℝ) : ℝ≥0∞ :=
  if (6 * w)^2 < (a.x - b.x)^2 + (a.y - b.y)^2 then 1 else ENNReal.ofReal (Real.exp (-σ * overlapTAB v m a.constituents b.constituents))

open scoped Classical in
/-- The product of `P` over all pairs of a nucleon of `As` and a nucleon of `Bs` one of which at least is chosen (by its number, in `S` or `T`). -/
noncomputable def Spec.pairProduct (P : NucleonData ℝ → NucleonData ℝ → ℝ≥0∞) (S T : Set ℕ) (As Bs : List (NucleonData ℝ)) : ℝ≥0∞ :=
  (As.zipIdx.map fun a => (Bs.zipIdx.map fun b => if a.2 ∈ S ∨ b.2 ∈ T then P a.1 b.1 else 1).prod).prod

variable [MeasurableSpace E] [MeasurableSpace D] {I : Type} {μ : I → Measure (Rand E D)}

/-- The mean of the product over the constituents of the nucleons (drawn independently for each nucleon, C98). -/
noncomputable def Spec.spared (ν : Measure (Rand E D)) (nc : NucleonCommon ℝ) (P : NucleonData ℝ → NucleonData ℝ → ℝ≥0∞) (S T : Set ℕ) (As Bs : List (NucleonData ℝ)) : ℝ≥0∞ :=
  ∫⁻ w, pairProduct P S T (dress nc As w).1 (dress nc Bs (dress nc As w).2).1 ∂ν

theorem apartProb_eq (h : FreshSource E D μ) (w v : ℝ) (m : ℕ) {σ : ℝ} (hσ : 0 ≤ σ) (ncoll : Bool) (k : ℝ) (as bs : List (Constituent ℝ)) (i : I) :
    apartProb (μ i) (NucleonCommon.make w v m σ ncoll k) as bs = ENNReal.ofReal (Real.exp (-σ * overlapTAB v m as bs)) := by
  have := h.prob
  unfold apartProb
  simp only [oneMinusProb_eq, lt_real, decide_eq_true_eq]
  have h1 := unif_gt v m hσ as bs
  have hp := (C07_probability v m σ hσ as bs).2
  set e := Real.exp (-σ * overlapTAB v m as bs) with he
  have e0 : 0 < e := Real.exp_pos _
  have e1 : e ≤ 1 := by linarith [hp.1]
  have hm0 : Measurable fun u : ℝ => if e < u then (1:ℝ≥0∞) else 0 := Measurable.ite (measurableSet_lt measurable_const measurable_id) measurable_const measurable_const
  have hm : Measurable fun q : ℝ × Rand E D => if e < q.1 then (0:ℝ≥0∞) else 1 :=
    Measurable.ite (measurableSet_lt measurable_const measurable_fst) measurable_const measurable_const
  have hinv : ∀ (a : ℝ) (i j : I), ∫⁻ _ : Rand E D, (if e < a then (0:ℝ≥0∞) else 1) ∂(μ i) = ∫⁻ _ : Rand E D, (if e < a then (0:ℝ≥0∞) else 1) ∂(μ j) := by
    intro a i j
    rw [lintegral_const, lintegral_const, measure_univ, measure_univ]
  have hc := fresh_canonical h hm (fun a i j => hinv a i j) i i
  refine (show _ = _ from hc).trans ?_
  have h2 : ∀ u : ℝ, ∫⁻ _ : Rand E D, (if e < u then (0:ℝ≥0∞) else 1) ∂(μ i) = if e < u then 0 else 1 := by
    intro u; split <;> simp
  simp only [h2]
  have h3 : ∫⁻ u, ((if e < u then (1:ℝ≥0∞) else 0) + (if e < u then 0 else 1)) ∂unif = 1 := by
    have : ∀ u : ℝ, ((if e < u then (1:ℝ≥0∞) else 0) + (if e < u then 0 else 1)) = 1 := by intro u; split <;> simp
    simp [this, unif]
  rw [lintegral_add_left hm0, h1] at h3
  have h4 : ENNReal.ofReal (1 - e) + ENNReal.ofReal e = 1 := by
    rw [← ENNReal.ofReal_add (by linarith) e0.le]; simp
  exact (ENNReal.add_right_inj ENNReal.ofReal_ne_top).mp (h3.trans h4.symm)

theorem missPair_eq (h : FreshSource E D μ) (w v : ℝ) (m : ℕ) {σ : ℝ} (hσ : 0 ≤ σ) (ncoll : Bool) (k : ℝ) (a b : NucleonData ℝ) (i : I) :
    missPair (μ i) (NucleonCommon.make w v m σ ncoll k) a b = pass w v m σ a b := by
  unfold missPair pass
  rw [apartProb_eq h w v m hσ ncoll k, make_maxImpactSq]
  simp only [lt_real, sqr_real, decide_eq_true_eq]

open scoped Classical in
/-- **C104, given positions.** Two nuclei with their nucleons at given positions, none of them a participant: the probability that afterwards none of the nucleons with numbers in `S` (first
nucleus) and `T` (second nucleus) is a participant is the mean over the constituents of the product of `exp(-σ T_AB)` over the pairs involving one of these nucleons. -/
theorem C104_positions (h : FreshSource E D μ) (w v : ℝ) (m : ℕ) {σ : ℝ} (hσ : 0 ≤ σ) (ncoll : Bool) (k : ℝ) (S T : Set ℕ) (As Bs : List (NucleonData ℝ))
    (hA : ∀ a ∈ As, a.isParticipant = false) (hB : ∀ b ∈ Bs, b.isParticipant = false) (i : I) :
    ∫⁻ r, (if Quiet S (pairLoop (NucleonCommon.make w v m σ ncoll k) ncoll As Bs 0 false r).1.1 ∧
        Quiet T (pairLoop (NucleonCommon.make w v m σ ncoll k) ncoll As Bs 0 false r).1.2.1 then 1 else 0) ∂(μ i) =
      spared (μ i) (NucleonCommon.make w v m σ ncoll k) (pass w v m σ) S T As Bs := by
  have := pairLoop_quiet h (NucleonCommon.make w v m σ ncoll k) S T As Bs hA hB i
  simp only [missPair_eq h w v m hσ ncoll k] at this
  exact this

/-- without substructure, the constituent is the nucleon -/
noncomputable def Spec.point (n : NucleonData ℝ) : NucleonData ℝ := { n with constituents := [⟨n.x, n.y, 1⟩] }

omit [MeasurableSpace E] [MeasurableSpace D] in
theorem pass_point (w v σ : ℝ) (a b a' b' : NucleonData ℝ) (ha : ∃ f, a'.constituents = [⟨a.x, a.y, f⟩]) (hb : ∃ f, b'.constituents = [⟨b.x, b.y, f⟩])
    (h1 : a'.x = a.x) (h2 : a'.y = a.y) (h3 : b'.x = b.x) (h4 : b'.y = b.y) : pass w v 1 σ a' b' = pass w v 1 σ (point a) (point b) := by
  obtain ⟨f, ha⟩ := ha
  obtain ⟨g, hb⟩ := hb
  unfold pass overlapTAB
  rw [ha, hb, h1, h2, h3, h4]
  simp [point]

omit [MeasurableSpace E] [MeasurableSpace D] in
theorem dress_point (w v σ : ℝ) (ncoll : Bool) (k : ℝ) (l : List (NucleonData ℝ)) (hl : ∀ n ∈ l, Fresh n) (r : Rand E D) :
    List.Forall₂ (fun n n' => n'.x = n.x ∧ n'.y = n.y ∧ ∃ f, n'.constituents = [⟨n.x, n.y, f⟩]) l (dress (NucleonCommon.make w v 1 σ ncoll k) l r).1 := by
  induction l generalizing r with
  | nil => exact .nil
  | cons n l ih =>
    refine .cons ⟨sampleConstituents_x _ _ _, sampleConstituents_y _ _ _, single_constituent w v σ ncoll k n (hl n (by simp)) r⟩ (ih (fun n hn => hl n (by simp [hn])) _)

omit [Rng ℝ E D] [MeasurableSpace E] [MeasurableSpace D] in
theorem zipIdx_forall {R : NucleonData ℝ → NucleonData ℝ → Prop} {l l' : List (NucleonData ℝ)} (hR : List.Forall₂ R l l') {f g : NucleonData ℝ × ℕ → ℝ≥0∞}
    (hfg : ∀ n n' k, R n n' → g (n', k) = f (n, k)) (k : ℕ) : ((l'.zipIdx k).map g).prod = ((l.zipIdx k).map f).prod := by
  induction hR generalizing k with
  | nil => rfl
  | cons h1 _ ih => simp only [List.zipIdx_cons, List.map_cons, List.prod_cons, ih, hfg _ _ _ h1]

open scoped Classical in
/-- **C104, without substructure.** Then there is nothing to average over: the probability is the product over the pairs. -/
theorem C104_point (h : FreshSource E D μ) (w v σ : ℝ) (ncoll : Bool) (k : ℝ) (S T : Set ℕ) (As Bs : List (NucleonData ℝ))
    (hA : ∀ a ∈ As, Fresh a) (hB : ∀ b ∈ Bs, Fresh b) (i : I) :
    spared (μ i) (NucleonCommon.make w v 1 σ ncoll k) (pass w v 1 σ) S T As Bs = pairProduct (fun a b => pass w v 1 σ (point a) (point b)) S T As Bs := by
  have := h.prob
  have e : ∀ r : Rand E D, pairProduct (pass w v 1 σ) S T (dress (NucleonCommon.make w v 1 σ ncoll k) As r).1
      (dress (NucleonCommon.make w v 1 σ ncoll k) Bs (dress (NucleonCommon.make w v 1 σ ncoll k) As r).2).1 =
      pairProduct (fun a b => pass w v 1 σ (point a) (point b)) S T As Bs := by
    intro r
    unfold pairProduct
    refine zipIdx_forall (dress_point w v σ ncoll k As hA r) (fun a a' n ha => ?_) 0
    refine zipIdx_forall (dress_point w v σ ncoll k Bs hB _) (fun b b' n' hb => ?_) 0
    dsimp only
    rw [pass_point w v σ a b a' b' ha.2.2 hb.2.2 ha.1 ha.2.1 hb.1 hb.2.1]
  unfold spared
  simp only [e, lintegral_const, measure_univ, mul_one]

/-! ### Collisions of nuclei -/

omit [Rng ℝ E D] [MeasurableSpace E] [MeasurableSpace D] in
theorem quiet_iff (S : Set ℕ) (l : List (NucleonData ℝ)) : Quiet S l ↔ ∀ k n, l[k]? = some n → k ∈ S → n.isParticipant = false := by
  unfold Quiet
  constructor
  · intro hq k n hk hS
    exact hq (n, k) (List.mem_zipIdx_iff_getElem?.mpr hk) hS
  · rintro hq ⟨n, k⟩ hn hS
    exact hq k n (List.mem_zipIdx_iff_getElem?.mp hn) hS

omit [Rng ℝ E D] [MeasurableSpace E] [MeasurableSpace D] in
theorem quiet_clear (S : Set ℕ) (l : List (NucleonData ℝ)) : Quiet S (l.map NucleonData.clear) ↔ Quiet S l := by
  simp only [quiet_iff, List.getElem?_map, Option.map_eq_some_iff, forall_exists_index, and_imp]
  constructor
  · intro hq k n hk hS
    have := hq k _ n hk rfl hS
    rwa [clear_part] at this
  · rintro hq k _ n hk rfl hS
    rw [clear_part]
    exact hq k n hk hS

omit [Rng ℝ E D] [MeasurableSpace E] [MeasurableSpace D] in
theorem quiet_meas (S : Set ℕ) : MeasurableSet {l : List (NucleonData ℝ) | Quiet S l} := by
  rw [measurableSet_list]
  intro n
  have e : (List.ofFn : (Fin n → NucleonData ℝ) → List (NucleonData ℝ)) ⁻¹' {l | Quiet S l} = ⋂ k : Fin n, {v | k.val ∈ S → (v k).isParticipant = false} := by
    ext v
    simp only [mem_preimage, mem_ofPred_eq, mem_iInter, quiet_iff]
    constructor
    · intro hq k hS
      exact hq k (v k) (by simp) hS
    · intro hq k n' hk hS
      rw [List.getElem?_ofFn] at hk
      split at hk
      · rename_i hkn
        simp only [Option.some.injEq] at hk
        rw [← hk]
        exact hq ⟨k, hkn⟩ hS
      · cases hk
  rw [e]
  refine MeasurableSet.iInter fun k => ?_
  by_cases hS : k.val ∈ S
  · have h1 : Measurable fun v : Fin n → NucleonData ℝ => (v k).isParticipant := nucleon_part.comp (measurable_pi_apply k)
    have h2 := h1 (measurableSet_singleton false)
    refine Eq.mp ?_ h2
    congr 1; ext x; simp [hS]
  · simp [hS]

open scoped Classical in
/-- Whether a chosen nucleon is wounded in a collision: 1 if one of the nucleons with numbers in `S` (projectile) or `T` (target) is a participant, else 0. -/
noncomputable def Spec.wounded (S T : Set ℕ) (x : Collided) : ℝ≥0∞ := if Quiet S x.2.2.1 ∧ Quiet T x.2.2.2 then 0 else 1

omit [Rng ℝ E D] [MeasurableSpace E] [MeasurableSpace D] in
theorem wounded_meas (S T : Set ℕ) : Measurable (wounded S T) := by
  classical
  have h1 : Measurable fun x : Collided => x.2.2.1 := by fun_prop
  have h2 : Measurable fun x : Collided => x.2.2.2 := by fun_prop
  exact Measurable.ite ((h1 (quiet_meas S)).inter (h2 (quiet_meas T))) measurable_const measurable_const

/-- The mean of a function of the positions of the nucleons of two nuclei, sampled around `(xA, 0)` and `(xB, 0)`. -/
noncomputable def Spec.positionMean (ν : Measure (Rand E D)) (rfuel : ℕ) (A B : Nucleus ℝ) (xA xB : ℝ) (g : List (NucleonData ℝ) → List (NucleonData ℝ) → ℝ≥0∞) : ℝ≥0∞ :=
  ∫⁻ w, ifOk (A.sampleNucleons rfuel xA w) (fun t => ∫⁻ w', ifOk (B.sampleNucleons rfuel xB w') (fun t' => g t.1.nucleons t'.1.nucleons) ∂ν) ∂ν

omit [MeasurableSpace E] [MeasurableSpace D] in
/-- without a collision there is no participant -/
theorem pairLoop_noflag (nc : NucleonCommon ℝ) (As Bs : List (NucleonData ℝ)) (hA : ∀ a ∈ As, a.isParticipant = false)
    (hB : ∀ b ∈ Bs, b.isParticipant = false) (w : Rand E D) (hf : (pairLoop nc nc.calcNcoll As Bs 0 false w).1.2.2.2 = false) :
    (∀ a ∈ (pairLoop nc nc.calcNcoll As Bs 0 false w).1.1, a.isParticipant = false) ∧ ∀ b ∈ (pairLoop nc nc.calcNcoll As Bs 0 false w).1.2.1, b.isParticipant = false := by
  let s : Fin As.length ⊕ Fin Bs.length → NucleonData ℝ := Sum.elim As.get Bs.get
  let K : List (Fin As.length ⊕ Fin Bs.length) := (List.finRange As.length).map Sum.inl
  let J : List (Fin As.length ⊕ Fin Bs.length) := (List.finRange Bs.length).map Sum.inr
  have hK : K.Nodup := (List.nodup_finRange _).map Sum.inl_injective
  have hJ : J.Nodup := (List.nodup_finRange _).map Sum.inr_injective
  have hd : ∀ k ∈ K, k ∉ J := by
    intro k hk hk'
    obtain ⟨a, -, rfl⟩ := List.mem_map.mp hk
    obtain ⟨b, -, hb⟩ := List.mem_map.mp hk'
    cases hb
  have eA : K.map s = As := by
    simp only [K, List.map_map]
    show (List.finRange As.length).map As.get = As
    exact List.map_get_finRange As
  have eB : J.map s = Bs := by
    simp only [J, List.map_map]
    show (List.finRange Bs.length).map Bs.get = Bs
    exact List.map_get_finRange Bs
  let x : Slots (Fin As.length ⊕ Fin Bs.length) := (s, 0, false)
  have hxp : ∀ m, (x.1 m).isParticipant = false := by
    rintro (m | m)
    · exact hA _ (List.get_mem _ _)
    · exact hB _ (List.get_mem _ _)
  have hx : FitSlots x := fun m hm => by rw [hxp m] at hm; cases hm
  have hne : ∀ p ∈ (K ×ˢ J : List (_ × _)), p.1 ≠ p.2 := by
    intro p hp e
    obtain ⟨h1, h2⟩ := List.mem_product.mp hp
    exact hd _ h1 (e ▸ h2)
  have := pairLoop_slots nc nc.calcNcoll K J hK hJ hd x w
  rw [show K.map x.1 = As from eA, show J.map x.1 = Bs from eB] at this
  rw [show pairLoop nc nc.calcNcoll As Bs 0 false w = _ from this] at hf ⊢
  have hfit : ∀ (L : List (_ × _)) (x : Slots (Fin As.length ⊕ Fin Bs.length)) (w : Rand E D), (∀ p ∈ L, p.1 ≠ p.2) → FitSlots x → FitSlots (loopS nc nc.calcNcoll L x w).1 := by
    intro L
    induction L with
    | nil => exact fun x w _ hx => hx
    | cons p L ih => exact fun x w hL hx => ih _ _ (fun q hq => hL q (List.mem_cons_of_mem _ hq)) (fit_step (hL p (by simp)) hx w)
  have hend := hfit _ x w hne hx
  have none : ∀ m, ((loopS nc nc.calcNcoll (K ×ˢ J) x w).1.1 m).isParticipant = false := by
    intro m
    by_contra hm
    have := (hend m (by simpa using hm)).2
    rw [show (loopS nc nc.calcNcoll (K ×ˢ J) x w).1.2.2 = false from hf] at this
    cases this
  constructor
  · intro a ha
    obtain ⟨m, -, rfl⟩ := List.mem_map.mp ha
    exact none m
  · intro a ha
    obtain ⟨m, -, rfl⟩ := List.mem_map.mp ha
    exact none m

section
variable (h : FreshSource E D μ)
include h

open scoped Classical in
/-- **C104, nuclei.** At impact parameter `b`, the probability of a collision in which one of the nucleons with numbers in `S` (projectile) or `T` (target) is wounded is the mean over the
positions of the nucleons of `1 - ⟨∏ exp(-σ T_AB)⟩`, the product over the pairs that involve one of these nucleons, the mean over the constituents. -/
theorem C104_wounded (c : Collider ℝ) (w v : ℝ) (m : ℕ) {σ : ℝ} (hσ : 0 ≤ σ) (k : ℝ) (hc : c.nc = NucleonCommon.make w v m σ c.calcNcoll k)
    (A B : Nucleus ℝ) (hA : NucleusHistory E D A) (hB : NucleusHistory E D B) (S T : Set ℕ) {b : ℝ} (hb : 0 ≤ b) (rfuel : ℕ) (i : I) :
    collisionMean (μ i) rfuel { c with bmin := b, bmax := b } A B 1 (wounded S T) =
      positionMean (μ i) rfuel A B (c.asymmetry * b) ((c.asymmetry - 1) * b) fun As Bs => 1 - spared (μ i) c.nc (pass w v m σ) S T As Bs := by
  have := h.prob
  have hn : c.calcNcoll = c.nc.calcNcoll := by rw [hc]; rfl
  rw [← meanAt_eq h rfuel c hA hB (wounded_meas S T) hb i i]
  set g : List (NucleonData ℝ) × List (NucleonData ℝ) × ℕ × Bool → ℝ≥0∞ := fun r => if Quiet S r.1 ∧ Quiet T r.2.1 then 0 else 1 with hg
  set g' : List (NucleonData ℝ) × List (NucleonData ℝ) × ℕ × Bool → ℝ≥0∞ := fun r => if Quiet S r.1 ∧ Quiet T r.2.1 then 1 else 0 with hg'
  have hs : MeasurableSet {r : List (NucleonData ℝ) × List (NucleonData ℝ) × ℕ × Bool | Quiet S r.1 ∧ Quiet T r.2.1} := by
    have h1 : Measurable fun r : List (NucleonData ℝ) × List (NucleonData ℝ) × ℕ × Bool => r.1 := by fun_prop
    have h2 : Measurable fun r : List (NucleonData ℝ) × List (NucleonData ℝ) × ℕ × Bool => r.2.1 := by fun_prop
    exact (h1 (quiet_meas S)).inter (h2 (quiet_meas T))
  have hgm : Measurable g := Measurable.ite hs measurable_const measurable_const
  have hgm' : Measurable g' := Measurable.ite hs measurable_const measurable_const
  have e1 : meanAt (μ i) rfuel c A B (wounded S T) b = ∫⁻ r, ifOk (inner rfuel c A B b r) (fun t => g t.1) ∂(μ i) := by
    unfold meanAt
    refine lintegral_congr fun r => ?_
    unfold attemptAt inner
    cases hsA : A.sampleNucleons rfuel (c.asymmetry * b) r with
    | error e => rfl
    | ok t =>
      simp only [Except.map, bindR]
      cases hsB : B.sampleNucleons rfuel ((c.asymmetry - lit 1) * b) t.2 with
      | error e => rfl
      | ok t' =>
        simp only [ifOk, wounded, quiet_clear]
        split
        · rfl
        · rename_i hf
          have fA : ∀ a ∈ t.1.nucleons, a.isParticipant = false := fun a ha => ((C12_sampling_resets A t.1 hA _ _ _ t.2 hsA).2 a ha).1
          have fB : ∀ a ∈ t'.1.nucleons, a.isParticipant = false := fun a ha => ((C12_sampling_resets B t'.1 hB _ _ _ t'.2 hsB).2 a ha).1
          have := pairLoop_noflag c.nc _ _ fA fB t'.2 (by rw [← hn]; simpa using hf)
          rw [← hn] at this
          rw [hg]
          dsimp only
          rw [if_pos]
          exact ⟨(quiet_iff _ _).mpr fun k n hk _ => this.1 n (List.mem_of_getElem? hk), (quiet_iff _ _).mpr fun k n hk _ => this.2 n (List.mem_of_getElem? hk)⟩
  rw [e1, mean_inner h rfuel c A B b hgm i]
  unfold positionMean
  refine lintegral_congr fun r => ?_
  cases hsA : A.sampleNucleons rfuel (c.asymmetry * b) r with
  | error e => rfl
  | ok t =>
    simp only [Except.map, ifOk]
    refine lintegral_congr fun r' => ?_
    rw [show (lit 1 : ℝ) = 1 by simp [lit_real]]
    cases hsB : B.sampleNucleons rfuel ((c.asymmetry - 1) * b) r' with
    | error e => rfl
    | ok t' =>
      simp only [meanLoop]
      have fA : ∀ a ∈ t.1.nucleons, a.isParticipant = false := fun a ha => ((C12_sampling_resets A t.1 hA _ _ _ t.2 hsA).2 a ha).1
      have fB : ∀ a ∈ t'.1.nucleons, a.isParticipant = false := fun a ha => ((C12_sampling_resets B t'.1 hB _ _ _ t'.2 hsB).2 a ha).1
      have hq := C104_positions h w v m hσ c.calcNcoll k S T _ _ fA fB i
      rw [← hc] at hq
      rw [← hq]
      have hL : Measurable fun r'' : Rand E D => (pairLoop c.nc c.calcNcoll t.1.nucleons t'.1.nucleons 0 false r'').1 := by
        have h3 := (renews_pairLoop h c.nc c.calcNcoll).comp (f := fun p : List (NucleonData ℝ) × List (NucleonData ℝ) => ((p.2, 0, false), p.1)) (by fun_prop)
        have h4 : Measurable fun t : (List (NucleonData ℝ) × List (NucleonData ℝ)) × Rand E D => pairLoop c.nc c.calcNcoll t.1.1 t.1.2 0 false t.2 :=
          embedding_ok.measurable_comp_iff.mp h3.meas
        exact measurable_fst.comp (h4.comp (f := fun r'' => ((t.1.nucleons, t'.1.nucleons), r'')) (by fun_prop))
      have hsum : ∫⁻ r'', g' (pairLoop c.nc c.calcNcoll t.1.nucleons t'.1.nucleons 0 false r'').1 ∂(μ i) +
          ∫⁻ r'', g (pairLoop c.nc c.calcNcoll t.1.nucleons t'.1.nucleons 0 false r'').1 ∂(μ i) = 1 := by
        have hm' : Measurable fun r'' : Rand E D => g' (pairLoop c.nc c.calcNcoll t.1.nucleons t'.1.nucleons 0 false r'').1 := hgm'.comp hL
        rw [← lintegral_add_left hm']
        have : ∀ r, g' r + g r = 1 := by
          intro r
          simp only [hg, hg']
          split <;> simp
        simp [this]
      exact (ENNReal.eq_sub_of_add_eq' ENNReal.one_ne_top ((add_comm _ _).trans hsum))

/-- **C104, collision probability.** At impact parameter `b` the nuclei collide with the probability `1 - ⟨∏ exp(-σ T_AB)⟩`, the product over all pairs of nucleons. -/
theorem C104_collision (c : Collider ℝ) (w v : ℝ) (m : ℕ) {σ : ℝ} (hσ : 0 ≤ σ) (k : ℝ) (hc : c.nc = NucleonCommon.make w v m σ c.calcNcoll k)
    (A B : Nucleus ℝ) (hA : NucleusHistory E D A) (hB : NucleusHistory E D B) {b : ℝ} (hb : 0 ≤ b) (rfuel : ℕ) (i : I) :
    collisionMean (μ i) rfuel { c with bmin := b, bmax := b } A B 1 (fun _ => 1) =
      positionMean (μ i) rfuel A B (c.asymmetry * b) ((c.asymmetry - 1) * b) fun As Bs => 1 - spared (μ i) c.nc (pass w v m σ) univ univ As Bs := by
  rw [← C104_wounded h c w v m hσ k hc A B hA hB univ univ hb rfuel i]
  unfold collisionMean
  refine lintegral_congr fun r => ?_
  cases hr : ({ c with bmin := b, bmax := b } : Collider ℝ).sampleCollision rfuel 1 A B r with
  | error e => rfl
  | ok t =>
    obtain ⟨⟨b', n, A', B'⟩, r'⟩ := t
    simp only [ifOk]
    have hcol := (collisionLoop_spec rfuel _ 1 A B A' B' hA hB r r' b' n hr).1
    obtain ⟨⟨a, ha, hp⟩, -⟩ := hcol.participants
    rw [wounded, if_neg]
    rintro ⟨hq, -⟩
    have hq' : Quiet univ A'.nucleons := by
      have := hq
      simp only [collided] at this
      exact (quiet_clear _ _).mp this
    obtain ⟨k, hk⟩ := List.mem_iff_getElem?.mp ha
    have := (quiet_iff _ _).mp hq' k a hk trivial
    rw [this] at hp
    cases hp

/-- **C104, nuclear cross section.** The inelastic cross section of two nuclei: `π (bmax² - bmin²)` times the probability that an attempt collides is the integral of `2πb` times the mean over
the positions of `1 - ⟨∏ exp(-σ T_AB)⟩`. -/
theorem C104_cross_section (c : Collider ℝ) (w v : ℝ) (m : ℕ) {σ : ℝ} (hσ : 0 ≤ σ) (k : ℝ) (hc : c.nc = NucleonCommon.make w v m σ c.calcNcoll k)
    (A B : Nucleus ℝ) (hA : NucleusHistory E D A) (hB : NucleusHistory E D B) (h0 : 0 ≤ c.bmin) (hb : c.bmin < c.bmax) (rfuel : ℕ) (i : I) :
    ENNReal.ofReal (Real.pi * (c.bmax^2 - c.bmin^2)) * collisionMean (μ i) rfuel c A B 1 (fun _ => 1) =
      ∫⁻ b in Ioo c.bmin c.bmax, ENNReal.ofReal (2 * Real.pi * b) *
        positionMean (μ i) rfuel A B (c.asymmetry * b) ((c.asymmetry - 1) * b) fun As Bs => 1 - spared (μ i) c.nc (pass w v m σ) univ univ As Bs := by
  rw [C90_cross_section h c A B hA hB h0 hb rfuel i i]
  refine setLIntegral_congr_fun measurableSet_Ioo fun b hb' => ?_
  rw [C104_collision h c w v m hσ k hc A B hA hB (h0.trans hb'.1.le) rfuel i]

omit h in
/-- The number of participants of a collision (what C23 shows the event reports as `npart`). -/
noncomputable def Spec.participants (x : Collided) : ℝ≥0∞ := (x.2.2.1.filter (·.isParticipant)).length + (x.2.2.2.filter (·.isParticipant)).length

omit h [Rng ℝ E D] [MeasurableSpace E] [MeasurableSpace D] in
open scoped Classical in
theorem participants_sum (l : List (NucleonData ℝ)) {n : ℕ} (hl : l.length = n) :
    ((l.filter (·.isParticipant)).length : ℝ≥0∞) = ∑ k ∈ Finset.range n, if Quiet {k} l then 0 else 1 := by
  subst hl
  induction l with
  | nil => simp
  | cons a l ih =>
    rw [List.length_cons, Finset.sum_range_succ']
    have e1 : ∀ k, Quiet {k+1} (a :: l) ↔ Quiet {k} l := by
      intro k
      simp only [quiet_iff, mem_singleton_iff]
      constructor
      · rintro hq j n hj rfl
        exact hq (j+1) n (by simpa using hj) rfl
      · rintro hq (_ | j) n hj hk
        · cases hk
        · exact hq j n (by simpa using hj) (by omega)
    have e2 : Quiet {0} (a :: l) ↔ a.isParticipant = false := by
      simp only [quiet_iff, mem_singleton_iff]
      constructor
      · exact fun hq => hq 0 a (by simp) rfl
      · rintro hq j n hj rfl
        simp only [List.getElem?_cons_zero, Option.some.injEq] at hj
        rw [← hj]; exact hq
    simp only [e1, e2, ← ih]
    cases ha : a.isParticipant <;> simp [ha]

open scoped Classical in
/-- **C104, number of participants.** At impact parameter `b` the mean number of participants is the sum over all nucleons of the probability that the nucleon is wounded. -/
theorem C104_npart (c : Collider ℝ) (A B : Nucleus ℝ) (hA : NucleusHistory E D A) (hB : NucleusHistory E D B) {b : ℝ} (hb : 0 ≤ b) (rfuel : ℕ) (i : I) :
    collisionMean (μ i) rfuel { c with bmin := b, bmax := b } A B 1 participants =
      ∑ k ∈ Finset.range A.nucleons.length, collisionMean (μ i) rfuel { c with bmin := b, bmax := b } A B 1 (wounded {k} ∅) +
      ∑ k ∈ Finset.range B.nucleons.length, collisionMean (μ i) rfuel { c with bmin := b, bmax := b } A B 1 (wounded ∅ {k}) := by
  have := h.prob
  have hm : ∀ S T, Measurable fun w : Rand E D => ifOk (attemptAt rfuel c A B b w) (fun t => if t.1.2 then wounded S T t.1.1 else 0) := by
    intro S T
    have hg1 : Measurable fun a : Collided × Bool => if a.2 then wounded S T a.1 else 0 :=
      Measurable.ite (measurable_snd (measurableSet_singleton true)) ((wounded_meas S T).comp measurable_fst) measurable_const
    have hR := (renews_attemptAt h rfuel c A B).comp (f := fun _ : Unit => b) measurable_const
    have := measurable_ifOk (g := fun _ t => if t.1.2 then wounded S T t.1.1 else 0) hR.meas (hg1.comp (measurable_fst.comp measurable_snd))
    exact this.comp ((measurable_const (a := ())).prodMk measurable_id)
  have e0 : ∀ S : Set ℕ, ∀ l, Quiet ∅ l := fun S l => (quiet_iff _ _).mpr fun _ _ _ hk => absurd hk (notMem_empty _)
  have eq1 : ∀ x : Collided, x.2.2.1.length = A.nucleons.length → x.2.2.2.length = B.nucleons.length → participants x =
      ∑ k ∈ Finset.range A.nucleons.length, wounded {k} ∅ x + ∑ k ∈ Finset.range B.nucleons.length, wounded ∅ {k} x := by
    intro x h1 h2
    unfold participants wounded
    rw [participants_sum _ h1, participants_sum _ h2]
    simp only [e0 ∅, and_true, true_and]
  have e1 : collisionMean (μ i) rfuel { c with bmin := b, bmax := b } A B 1 participants = collisionMean (μ i) rfuel { c with bmin := b, bmax := b } A B 1
      (fun x => ∑ k ∈ Finset.range A.nucleons.length, wounded {k} ∅ x + ∑ k ∈ Finset.range B.nucleons.length, wounded ∅ {k} x) := by
    unfold collisionMean
    refine lintegral_congr fun r => ?_
    cases hr : ({ c with bmin := b, bmax := b } : Collider ℝ).sampleCollision rfuel 1 A B r with
    | error e => rfl
    | ok t =>
      obtain ⟨⟨b', n, A', B'⟩, r'⟩ := t
      obtain ⟨-, -, -, l1, l2, -⟩ := collisionLoop_spec rfuel _ 1 A B A' B' hA hB r r' b' n hr
      simp only [ifOk]
      exact eq1 _ (by simpa [collided] using l1) (by simpa [collided] using l2)
  have hms : ∀ (s : Finset ℕ) (P : ℕ → Set ℕ × Set ℕ), Measurable fun x : Collided => ∑ k ∈ s, wounded (P k).1 (P k).2 x :=
    fun s P => Finset.measurable_sum s fun k _ => wounded_meas _ _
  have hsum : Measurable fun x : Collided => ∑ k ∈ Finset.range A.nucleons.length, wounded {k} ∅ x + ∑ k ∈ Finset.range B.nucleons.length, wounded ∅ {k} x :=
    (hms (Finset.range A.nucleons.length) fun k => ({k}, ∅)).add (hms (Finset.range B.nucleons.length) fun k => (∅, {k}))
  have ew : ∀ S T, collisionMean (μ i) rfuel { c with bmin := b, bmax := b } A B 1 (wounded S T) = meanAt (μ i) rfuel c A B (wounded S T) b :=
    fun S T => (meanAt_eq h rfuel c hA hB (wounded_meas S T) hb i i).symm
  rw [e1, ← meanAt_eq h rfuel c hA hB hsum hb i i]
  simp only [ew]
  unfold meanAt
  have split1 : ∀ (s : Finset ℕ) (P : ℕ → Set ℕ × Set ℕ) (w : Rand E D), ifOk (attemptAt rfuel c A B b w) (fun t => if t.1.2 then ∑ k ∈ s, wounded (P k).1 (P k).2 t.1.1 else 0) =
      ∑ k ∈ s, ifOk (attemptAt rfuel c A B b w) (fun t => if t.1.2 then wounded (P k).1 (P k).2 t.1.1 else 0) := by
    intro s P w
    cases attemptAt rfuel c A B b w with
    | error e => simp [ifOk]
    | ok t => simp only [ifOk]; split <;> simp
  have split2 : ∀ w : Rand E D, ifOk (attemptAt rfuel c A B b w) (fun t => if t.1.2 then
        ∑ k ∈ Finset.range A.nucleons.length, wounded {k} ∅ t.1.1 + ∑ k ∈ Finset.range B.nucleons.length, wounded ∅ {k} t.1.1 else 0) =
      (∑ k ∈ Finset.range A.nucleons.length, ifOk (attemptAt rfuel c A B b w) (fun t => if t.1.2 then wounded {k} ∅ t.1.1 else 0)) +
      ∑ k ∈ Finset.range B.nucleons.length, ifOk (attemptAt rfuel c A B b w) (fun t => if t.1.2 then wounded ∅ {k} t.1.1 else 0) := by
    intro w
    rw [← split1 _ (fun k => ({k}, ∅)) w, ← split1 _ (fun k => (∅, {k})) w]
    cases attemptAt rfuel c A B b w with
    | error e => simp [ifOk]
    | ok t => simp only [ifOk]; split <;> simp
  refine (lintegral_congr split2).trans ?_
  rw [lintegral_add_left (Finset.measurable_sum _ fun k _ => hm _ _), lintegral_finsetSum _ fun k _ => hm _ _, lintegral_finsetSum _ fun k _ => hm _ _]

omit h [MeasurableSpace E] [MeasurableSpace D] in
theorem dress_sigma (w v : ℝ) (m : ℕ) (σ σ' : ℝ) (ncoll ncoll' : Bool) (k : ℝ) (l : List (NucleonData ℝ)) (r : Rand E D) :
    dress (NucleonCommon.make w v m σ ncoll k) l r = dress (NucleonCommon.make w v m σ' ncoll' k) l r := by
  have hdc : ∀ (n : ℕ) (x y : ℝ) (r : Rand E D), drawConstituents (NucleonCommon.make w v m σ ncoll k) n x y r = drawConstituents (NucleonCommon.make w v m σ' ncoll' k) n x y r := by
    intro n
    induction n with
    | zero => exact fun _ _ _ => rfl
    | succ n ih =>
      intro x y r
      simp only [drawConstituents, ih]
      rfl
  have hs : ∀ (n : NucleonData ℝ) (r : Rand E D), (NucleonCommon.make w v m σ ncoll k).sampleConstituents n r = (NucleonCommon.make w v m σ' ncoll' k).sampleConstituents n r := by
    intro n r
    simp only [NucleonCommon.sampleConstituents, hdc]
    rfl
  induction l generalizing r with
  | nil => rfl
  | cons n l ih => simp only [dress, hs, ih]

omit h [MeasurableSpace E] [MeasurableSpace D] [Rng ℝ E D] in
theorem prod_mono {α : Type} (l : List α) {f g : α → ℝ≥0∞} (hfg : ∀ a ∈ l, f a ≤ g a) : (l.map f).prod ≤ (l.map g).prod := by
  induction l with
  | nil => exact le_refl _
  | cons a l ih =>
    simp only [List.map_cons, List.prod_cons]
    exact mul_le_mul' (hfg a (by simp)) (ih fun b hb => hfg b (by simp [hb]))

omit h [Rng ℝ E D] [MeasurableSpace E] [MeasurableSpace D] in
theorem pass_anti (w v : ℝ) (m : ℕ) {σ σ' : ℝ} (hs : σ ≤ σ') (a b : NucleonData ℝ) : pass w v m σ' a b ≤ pass w v m σ a b := by
  unfold pass
  split
  · exact le_refl _
  · refine ENNReal.ofReal_le_ofReal (Real.exp_le_exp.mpr ?_)
    have h0 : 0 ≤ overlapTAB v m a.constituents b.constituents := by
      unfold overlapTAB
      refine mul_nonneg (by positivity) (List.sum_nonneg fun x hx => ?_)
      obtain ⟨a, -, rfl⟩ := List.mem_map.mp hx
      refine List.sum_nonneg fun x hx => ?_
      obtain ⟨b, -, rfl⟩ := List.mem_map.mp hx
      have := Real.pi_pos
      positivity
    nlinarith

omit h in
theorem spared_mono (ν : Measure (Rand E D)) (w v : ℝ) (m : ℕ) {σ σ' : ℝ} (hs : σ ≤ σ') (k : ℝ) {nc nc' : NucleonCommon ℝ} {n n' : Bool} (hc : nc = NucleonCommon.make w v m σ n k)
    (hc' : nc' = NucleonCommon.make w v m σ' n' k) (S T : Set ℕ) (As Bs : List (NucleonData ℝ)) :
    spared ν nc' (pass w v m σ') S T As Bs ≤ spared ν nc (pass w v m σ) S T As Bs := by
  have hd : ∀ (l : List (NucleonData ℝ)) (r : Rand E D), dress nc' l r = dress nc l r := by
    intro l r
    rw [hc, hc']
    exact dress_sigma w v m σ' σ n' n k l r
  clear hc hc'
  unfold spared
  refine lintegral_mono fun r => ?_
  rw [hd As r, hd Bs]
  unfold pairProduct
  refine prod_mono _ fun a _ => prod_mono _ fun b _ => ?_
  split
  · exact pass_anti w v m hs _ _
  · exact le_refl _

omit h in
theorem positionMean_mono (ν : Measure (Rand E D)) (rfuel : ℕ) (A B : Nucleus ℝ) (xA xB : ℝ) {f g : List (NucleonData ℝ) → List (NucleonData ℝ) → ℝ≥0∞} (hfg : ∀ As Bs, f As Bs ≤ g As Bs) :
    positionMean ν rfuel A B xA xB f ≤ positionMean ν rfuel A B xA xB g := by
  unfold positionMean
  refine lintegral_mono fun r => ?_
  dsimp only
  cases A.sampleNucleons rfuel xA r with
  | error e => exact le_refl _
  | ok t =>
    simp only [ifOk]
    refine lintegral_mono fun r' => ?_
    dsimp only
    cases B.sampleNucleons rfuel xB r' with
    | error e => exact le_refl _
    | ok t' => exact hfg _ _

/-- **C104, monotonicity.** With a larger partonic cross section every set of nucleons is hit at least as often: in particular the collision probability does not decrease.
The switch for binary collisions makes no difference to who is wounded. -/
theorem C104_monotone (c c' : Collider ℝ) (w v : ℝ) (m : ℕ) {σ σ' : ℝ} (hσ : 0 ≤ σ) (hs : σ ≤ σ') (k : ℝ) (hc : c.nc = NucleonCommon.make w v m σ c.calcNcoll k)
    (hc' : c'.nc = NucleonCommon.make w v m σ' c'.calcNcoll k) (has : c'.asymmetry = c.asymmetry)
    (A B : Nucleus ℝ) (hA : NucleusHistory E D A) (hB : NucleusHistory E D B) (S T : Set ℕ) {b : ℝ} (hb : 0 ≤ b) (rfuel : ℕ) (i : I) :
    collisionMean (μ i) rfuel { c with bmin := b, bmax := b } A B 1 (wounded S T) ≤ collisionMean (μ i) rfuel { c' with bmin := b, bmax := b } A B 1 (wounded S T) := by
  refine le_of_eq_of_le (C104_wounded h c w v m hσ k hc A B hA hB S T hb rfuel i) (le_of_le_of_eq ?_ (C104_wounded h c' w v m (hσ.trans hs) k hc' A B hA hB S T hb rfuel i).symm)
  rw [has]
  exact positionMean_mono (μ i) rfuel A B _ _ fun As Bs => tsub_le_tsub_left (spared_mono (μ i) w v m hs k hc hc' S T As Bs) 1

/-- **C104, nuclei without substructure.** At impact parameter `b`, the probability of a collision in which one of the chosen nucleons is wounded is the mean over the positions of
`1 - ∏ exp(-σ T_AB)`. -/
theorem C104_point_nuclei (c : Collider ℝ) (w v : ℝ) {σ : ℝ} (hσ : 0 ≤ σ) (k : ℝ) (hc : c.nc = NucleonCommon.make w v 1 σ c.calcNcoll k)
    (A B : Nucleus ℝ) (hA : NucleusHistory E D A) (hB : NucleusHistory E D B) (S T : Set ℕ) {b : ℝ} (hb : 0 ≤ b) (rfuel : ℕ) (i : I) :
    collisionMean (μ i) rfuel { c with bmin := b, bmax := b } A B 1 (wounded S T) =
      positionMean (μ i) rfuel A B (c.asymmetry * b) ((c.asymmetry - 1) * b) fun As Bs => 1 - pairProduct (fun a b => pass w v 1 σ (point a) (point b)) S T As Bs := by
  refine (C104_wounded h c w v 1 hσ k hc A B hA hB S T hb rfuel i).trans ?_
  unfold positionMean
  refine lintegral_congr fun r => ?_
  cases hsA : A.sampleNucleons rfuel (c.asymmetry * b) r with
  | error e => rfl
  | ok t =>
    simp only [ifOk]
    refine lintegral_congr fun r' => ?_
    cases hsB : B.sampleNucleons rfuel ((c.asymmetry - 1) * b) r' with
    | error e => rfl
    | ok t' =>
      simp only
      rw [hc, C104_point h w v σ c.calcNcoll k S T _ _ (fun a ha => (C12_sampling_resets A t.1 hA _ _ _ t.2 hsA).2 a ha) (fun a ha => (C12_sampling_resets B t'.1 hB _ _ _ t'.2 hsB).2 a ha) i]

end

/-- without substructure, the probability that two nucleons at the same place do not interact -/
example (n : NucleonData ℝ) : pass 1 1 1 2 (point n) (point n) = ENNReal.ofReal (Real.exp (-2 / (4 * Real.pi))) := by
  unfold pass overlapTAB point
  simp only [List.map_cons, List.map_nil, List.sum_cons, List.sum_nil]
  rw [if_neg (by norm_num)]
  norm_num
  ring_nf

/-- The hypotheses are met: copper on lead with nucleons of width 1/2 made of three constituents, at impact parameter 5. -/
example (nCu nPb : Nucleus ℝ) (hCu : createNucleus false (fun _ => .missing) "Cu" 0 = .ok nCu) (hPb : createNucleus false (fun _ => .missing) "Pb" 0 = .ok nPb)
    (c : Collider ℝ) (hc : c.nc = NucleonCommon.make (1/2) (1/5) 3 2 c.calcNcoll 1) :
    collisionMean (freshTape ()) 0 { c with bmin := 5, bmax := 5 } nCu nPb 1 participants =
      ∑ k ∈ Finset.range 63, positionMean (freshTape ()) 0 nCu nPb (c.asymmetry * 5) ((c.asymmetry - 1) * 5) (fun As Bs => 1 - spared (freshTape ()) c.nc (pass (1/2) (1/5) 3 2) {k} ∅ As Bs) +
      ∑ k ∈ Finset.range 208, positionMean (freshTape ()) 0 nCu nPb (c.asymmetry * 5) ((c.asymmetry - 1) * 5) (fun As Bs => 1 - spared (freshTape ()) c.nc (pass (1/2) (1/5) 3 2) ∅ {k} As Bs) := by
  have hA : NucleusHistory Tape Unit nCu := .create _ _ _ _ _ hCu
  have hB : NucleusHistory Tape Unit nPb := .create _ _ _ _ _ hPb
  have eCu : nCu = mkWoodsSaxon 63 (lit 4.20) (lit 0.596) 0 := by injection hCu with h; exact h.symm
  have ePb : nPb = mkWoodsSaxon 208 (lit 6.62) (lit 0.546) 0 := by injection hPb with h; exact h.symm
  have lCu : nCu.nucleons.length = 63 := by rw [eCu]; exact List.length_replicate
  have lPb : nPb.nucleons.length = 208 := by rw [ePb]; exact List.length_replicate
  have key := C104_npart freshTape_fresh c nCu nPb hA hB (b := 5) (by norm_num) 0 ()
  have kw : ∀ S T, collisionMean (freshTape ()) 0 { c with bmin := 5, bmax := 5 } nCu nPb 1 (wounded S T) = _ :=
    fun S T => C104_wounded freshTape_fresh c (1/2) (1/5) 3 (σ := 2) (by norm_num) 1 hc nCu nPb hA hB S T (b := 5) (by norm_num) 0 ()
  rw [lCu, lPb] at key
  simp only [kw] at key
  exact key

end Trento
