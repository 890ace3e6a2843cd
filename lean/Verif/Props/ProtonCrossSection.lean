import Verif.Props.ImpactLaw
import Verif.Lemmas.FreshTape

/-! # C91: the cross section of proton-proton collisions -/

namespace Trento
open MeasureTheory Set Spec Filter Topology
open scoped ENNReal

variable {E D : Type} [Rng ℝ E D] [MeasurableSpace E] [MeasurableSpace D] {I : Type} {μ : I → Measure (Rand E D)}

theorem unif_gt (v : ℝ) (m : ℕ) {σ : ℝ} (hσ : 0 ≤ σ) (as bs : List (Constituent ℝ)) :
    ∫⁻ u, (if Real.exp (-σ * overlapTAB v m as bs) < u then 1 else 0) ∂unif = ENNReal.ofReal (1 - Real.exp (-σ * overlapTAB v m as bs)) := by
  rw [← (C07_probability v m σ hσ as bs).1]
  set e := Real.exp (-σ * overlapTAB v m as bs)
  have hm : MeasurableSet {u : ℝ | e < u} := measurableSet_lt measurable_const measurable_id
  have h1 : ∫⁻ u, (if e < u then 1 else 0) ∂unif = ∫⁻ u, {u : ℝ | e < u}.indicator 1 u ∂unif := by
    refine lintegral_congr fun u => ?_
    simp only [indicator, mem_ofPred_eq, Pi.one_apply]
  rw [h1, lintegral_indicator_one hm, unif, Measure.restrict_apply hm]
  congr 1
  ext u
  simp only [mem_inter_iff, mem_ofPred_eq, mem_Ico]
  tauto

/-- The probability that two new nucleons at a distance of at most `6 w` interact: the mean of `1 - exp(-σ T_AB)` over their constituents. -/
theorem pair_probability (h : FreshSource E D μ) (w v : ℝ) (m : ℕ) {σ : ℝ} (hσ : 0 ≤ σ) (ncoll : Bool) (k : ℝ) (A B : NucleonData ℝ)
    (hA : Fresh A) (hd : (A.x - B.x)^2 + (A.y - B.y)^2 ≤ (6 * w)^2) (i : I) :
    ∫⁻ r, (if ((NucleonCommon.make w v m σ ncoll k).participate A B r).1.1 then 1 else 0) ∂(μ i) =
      ∫⁻ r, ENNReal.ofReal (1 - Real.exp (-σ * overlapTAB v m
        ((NucleonCommon.make w v m σ ncoll k).sampleConstituents A r).1.constituents
        ((NucleonCommon.make w v m σ ncoll k).sampleConstituents B ((NucleonCommon.make w v m σ ncoll k).sampleConstituents A r).2).1.constituents)) ∂(μ i) := by
  have := h.prob
  have h1 : (A.isParticipant && B.isParticipant && !(NucleonCommon.make w v m σ ncoll k).calcNcoll) = false := by rw [hA.1]; simp
  have h2 : lt (NucleonCommon.make w v m σ ncoll k).maxImpactSq (sqr (A.x - B.x) + sqr (A.y - B.y)) = false := by
    rw [make_maxImpactSq]
    simp only [sqr_real, lt_real, decide_eq_false_iff_not, not_lt]
    exact hd
  set nc := NucleonCommon.make w v m σ ncoll k with hnc
  have hR := ((renews_sampleConstituents h nc).comp (f := fun _ : Unit => A) measurable_const).bind
    (((renews_sampleConstituents h nc).comp (f := fun _ : Unit × NucleonData ℝ => B) measurable_const).map
      (f := fun p : (Unit × NucleonData ℝ) × NucleonData ℝ => (p.1.2.constituents, p.2.constituents))
      ((nucleon_cs.comp (measurable_snd.comp measurable_fst)).prodMk (nucleon_cs.comp measurable_snd)))
  have hov : Measurable fun t : (List (Constituent ℝ) × List (Constituent ℝ)) × ℝ => Real.exp (-σ * overlapTAB v m t.1.1 t.1.2) := by
    have h3 : Measurable fun t : (List (Constituent ℝ) × List (Constituent ℝ)) × ℝ => nc.oneMinusProb (overlapSum nc.constituentWidthSq t.1.1 t.1.2) :=
      Real.measurable_exp.comp ((overlapSum_meas _ (measurable_fst.comp measurable_fst) (measurable_snd.comp measurable_fst)).const_mul _)
    refine measurable_of_eq h3 fun t => ?_
    rw [hnc, oneMinusProb_eq]
  have hg : Measurable fun t : (List (Constituent ℝ) × List (Constituent ℝ)) × Rand E D =>
      if Real.exp (-σ * overlapTAB v m t.1.1 t.1.2) < (canonical (F := ℝ) t.2).1 then (1:ℝ≥0∞) else 0 := by
    have hc : Measurable fun t : (List (Constituent ℝ) × List (Constituent ℝ)) × Rand E D => (canonical (F := ℝ) t.2).1 :=
      measurable_fst.comp (h.canonical_meas.comp measurable_snd)
    exact Measurable.ite (measurableSet_lt (hov.comp (measurable_fst.prodMk hc)) hc) measurable_const measurable_const
  have hint : ∀ (t : List (Constituent ℝ) × List (Constituent ℝ)) (i : I),
      ∫⁻ r, (if Real.exp (-σ * overlapTAB v m t.1 t.2) < (canonical (F := ℝ) r).1 then (1:ℝ≥0∞) else 0) ∂(μ i) =
        ENNReal.ofReal (1 - Real.exp (-σ * overlapTAB v m t.1 t.2)) := by
    intro t i
    have hm : Measurable fun q : ℝ × Rand E D => if Real.exp (-σ * overlapTAB v m t.1 t.2) < q.1 then (1:ℝ≥0∞) else 0 :=
      Measurable.ite (measurableSet_lt measurable_const measurable_fst) measurable_const measurable_const
    have := fresh_canonical h hm (fun a i j => by simp) i i
    refine this.trans (Eq.trans (lintegral_congr fun u => ?_) (unif_gt v m hσ t.1 t.2))
    dsimp only
    by_cases hu : Real.exp (-σ * overlapTAB v m t.1 t.2) < u <;> simp [hu]
  have hlaw := hR.law () (fun t => if Real.exp (-σ * overlapTAB v m t.1.1 t.1.2) < (canonical (F := ℝ) t.2).1 then (1:ℝ≥0∞) else 0) hg
    (fun a i j => by dsimp only; rw [hint, hint]) i i i
  refine Eq.trans (lintegral_congr fun r => ?_) (hlaw.trans (lintegral_congr fun r => ?_))
  · unfold NucleonCommon.participate
    simp only [h1, h2, Bool.false_eq_true, if_false, bindR, ifOk, lt_real, decide_eq_true_eq]
    rw [hnc, oneMinusProb_eq]
    split <;> simp_all
  · simp only [bindR, ifOk]
    exact hint (_, _) i

/-- with one constituent, it sits at the centre of the nucleon -/
theorem single_constituent {E D : Type} [Rng ℝ E D] (w v σ : ℝ) (ncoll : Bool) (k : ℝ) (n : NucleonData ℝ) (hn : Fresh n) (r : Rand E D) :
    ∃ f, ((NucleonCommon.make w v 1 σ ncoll k).sampleConstituents n r).1.constituents = [⟨n.x, n.y, f⟩] := by
  unfold NucleonCommon.sampleConstituents
  have hm : (NucleonCommon.make w v 1 σ ncoll k).constituentNumber = 1 := rfl
  simp only [hn.2, Bool.false_eq_true, if_false, hm, drawConstituents, List.map_cons, List.map_nil]
  simp [lit_real, ofInt_real]

/-- **C91, fixed impact parameter.** Two protons without substructure at impact parameter `b` collide with probability `1 - exp(-σ T_AB(b))` if `b ≤ 6 w`,
and never if `b > 6 w`. -/
theorem C91_at (h : FreshSource E D μ) (c : Collider ℝ) (w v σ : ℝ) (hw : 0 ≤ w) (hσ : 0 ≤ σ) (ncoll : Bool) (k : ℝ) (hc : c.nc = NucleonCommon.make w v 1 σ ncoll k)
    (A B : Nucleus ℝ) (hA : NucleusHistory E D A) (hB : NucleusHistory E D B) (kA : A.kind = .proton) (kB : B.kind = .proton)
    (b : ℝ) (hb : 0 ≤ b) (rfuel : ℕ) (i : I) :
    collisionMean (μ i) rfuel { c with bmin := b, bmax := b } A B 1 (fun _ => 1) =
      if b ≤ 6 * w then ENNReal.ofReal (1 - Real.exp (-σ * overlapTAB v 1 [⟨b, 0, 1⟩] [⟨0, 0, 1⟩])) else 0 := by
  have := h.prob
  rw [← meanAt_eq h rfuel c hA hB measurable_const hb i i]
  have lA := hA.wf
  have lB := hB.wf
  unfold Nucleus.WF at lA lB
  rw [kA] at lA; rw [kB] at lB
  dsimp only at lA lB
  obtain ⟨a, ha⟩ := List.length_eq_one_iff.1 lA
  obtain ⟨b', hb'⟩ := List.length_eq_one_iff.1 lB
  set a1 := setNucleonPosition (c.asymmetry * b) a (lit 0) (lit 0) (lit 0) with ha1
  set b1 := setNucleonPosition ((c.asymmetry - lit 1) * b) b' (lit 0) (lit 0) (lit 0) with hb1
  have fa : Fresh a1 := fresh_set ..
  have fb : Fresh b1 := fresh_set ..
  have ax : a1.x = c.asymmetry * b := by simp [ha1, setNucleonPosition, NucleonData.setPosition, lit_real]
  have ay : a1.y = 0 := by simp [ha1, setNucleonPosition, NucleonData.setPosition, lit_real]
  have bx : b1.x = (c.asymmetry - 1) * b := by simp [hb1, setNucleonPosition, NucleonData.setPosition, lit_real]
  have by' : b1.y = 0 := by simp [hb1, setNucleonPosition, NucleonData.setPosition, lit_real]
  have hdist : (a1.x - b1.x)^2 + (a1.y - b1.y)^2 = b^2 := by rw [ax, ay, bx, by']; ring
  have h1 : meanAt (μ i) rfuel c A B (fun _ => 1) b = ∫⁻ r, (if (c.nc.participate a1 b1 r).1.1 then 1 else 0) ∂(μ i) := by
    unfold meanAt
    refine lintegral_congr fun r => ?_
    simp only [attemptAt, Nucleus.sampleNucleons, kA, kB, ha, hb', sampleProton, Except.map, bindR, ifOk, pairLoop, pairRow, ← ha1, ← hb1]
    generalize c.nc.participate a1 b1 r = res
    obtain ⟨⟨x, y, z⟩, r'⟩ := res
    cases x <;> rfl
  rw [h1, hc]
  by_cases hbw : b ≤ 6 * w
  · rw [if_pos hbw, pair_probability h w v 1 hσ ncoll k a1 b1 fa (by rw [hdist]; exact pow_le_pow_left₀ hb hbw 2) i]
    have e : ∀ r : Rand E D, overlapTAB v 1 ((NucleonCommon.make w v 1 σ ncoll k).sampleConstituents a1 r).1.constituents
        ((NucleonCommon.make w v 1 σ ncoll k).sampleConstituents b1 ((NucleonCommon.make w v 1 σ ncoll k).sampleConstituents a1 r).2).1.constituents =
        overlapTAB v 1 [⟨b, 0, 1⟩] [⟨0, 0, 1⟩] := by
      intro r
      obtain ⟨f1, e1⟩ := single_constituent w v σ ncoll k a1 fa r
      obtain ⟨f2, e2⟩ := single_constituent w v σ ncoll k b1 fb ((NucleonCommon.make w v 1 σ ncoll k).sampleConstituents a1 r).2
      rw [e1, e2]
      unfold overlapTAB
      simp only [List.map_cons, List.map_nil, hdist]
      simp
    simp only [e]
    simp
  · rw [if_neg hbw]
    have h1 : ∀ r : Rand E D, ((NucleonCommon.make w v 1 σ ncoll k).participate a1 b1 r).1.1 = false := by
      intro r
      have h2 : lt (NucleonCommon.make w v 1 σ ncoll k).maxImpactSq (sqr (a1.x - b1.x) + sqr (a1.y - b1.y)) = true := by
        rw [make_maxImpactSq]
        simp only [sqr_real, lt_real, decide_eq_true_eq]
        rw [hdist]
        exact pow_lt_pow_left₀ (not_le.1 hbw) (by positivity) two_ne_zero
      unfold NucleonCommon.participate
      simp only [fa.1, h2, Bool.false_and, Bool.false_eq_true, if_false, if_true]
    simp [h1]

/-- **C91.** For two protons without substructure and `b-min = 0`, `b-max ≥ 6 w`: `π bmax²` times the probability that an attempt collides is the inelastic
nucleon-nucleon cross section for the partonic cross section in use. -/
theorem C91_cross_section (h : FreshSource E D μ) (c : Collider ℝ) (w σ : ℝ) (hw : 0 < w) (hσ : 0 ≤ σ) (ncoll : Bool) (k : ℝ)
    (hc : c.nc = NucleonCommon.make w w 1 σ ncoll k) (A B : Nucleus ℝ) (hA : NucleusHistory E D A) (hB : NucleusHistory E D B)
    (kA : A.kind = .proton) (kB : B.kind = .proton) (h0 : c.bmin = 0) (hb : 6 * w ≤ c.bmax) (rfuel : ℕ) (i : I) :
    ENNReal.ofReal (Real.pi * c.bmax^2) * collisionMean (μ i) rfuel c A B 1 (fun _ => 1) = ENNReal.ofReal (inelasticCrossSection w σ) := by
  have hpi := Real.pi_pos
  have hlt : c.bmin < c.bmax := by rw [h0]; linarith
  have key := C90_cross_section h c A B hA hB h0.ge hlt rfuel i i
  rw [h0, zero_pow two_ne_zero, sub_zero] at key
  rw [key]
  set T : ℝ → ℝ := fun b => 2 * Real.pi * b * (1 - Real.exp (-σ * overlapTAB w 1 [⟨b, 0, 1⟩] [⟨0, 0, 1⟩])) with hT
  have hTc : Continuous T := by
    simp only [hT, overlapTAB_single]
    fun_prop
  have hT0 : ∀ b, 0 ≤ b → 0 ≤ T b := fun b hb => mul_nonneg (by positivity) (C07_probability w 1 σ hσ _ _).2.1
  have e1 : ∫⁻ b in Ioo 0 c.bmax, ENNReal.ofReal (2 * Real.pi * b) * collisionMean (μ i) rfuel { c with bmin := b, bmax := b } A B 1 (fun _ => 1) =
      ∫⁻ b in Ioo 0 c.bmax, (Iic (6 * w)).indicator (fun b => ENNReal.ofReal (T b)) b := by
    refine setLIntegral_congr_fun measurableSet_Ioo fun b hb' => ?_
    rw [C91_at h c w w σ hw.le hσ ncoll k hc A B hA hB kA kB b hb'.1.le rfuel i]
    simp only [indicator, mem_Iic]
    split
    · rw [← ENNReal.ofReal_mul (by have := hb'.1; positivity)]
    · simp
  have e2 : (Iic (6 * w) ∩ Ioo 0 c.bmax : Set ℝ) =ᵐ[volume] Ioc 0 (6 * w) := by
    have : Ioc (0:ℝ) (6*w) =ᵐ[volume] Ioo 0 (6*w) := Ioo_ae_eq_Ioc.symm
    refine EventuallyEq.trans ?_ this.symm
    have h1 : Iic (6*w) =ᵐ[volume] Iio (6 * w) := Iio_ae_eq_Iic.symm
    refine (h1.inter (ae_eq_refl (Ioo 0 c.bmax))).trans ?_
    have : Iio (6*w) ∩ Ioo 0 c.bmax = Ioo 0 (6*w) := by
      ext x
      simp only [mem_inter_iff, mem_Iio, mem_Ioo]
      constructor
      · rintro ⟨h1, h2, h3⟩; exact ⟨h2, h1⟩
      · rintro ⟨h1, h2⟩; exact ⟨h2, h1, by linarith⟩
    rw [this]
    exact ae_eq_refl _
  rw [e1, lintegral_indicator measurableSet_Iic, Measure.restrict_restrict measurableSet_Iic, Measure.restrict_congr_set e2,
    inelasticCrossSection, intervalIntegral.integral_of_le (by positivity), ofReal_integral_eq_lintegral_ofReal]
  · exact hTc.continuousOn.integrableOn_Icc.mono_set Ioc_subset_Icc_self
  · rw [EventuallyLE, ae_restrict_iff' measurableSet_Ioc]
    exact Eventually.of_forall fun b hb' => hT0 b hb'.1.le


/-- **C91, options.** Two protons (`trento p p`) with nucleon width `w`, without substructure, for all impact parameters (`--b-max` not given or
negative, `--b-min` 0): if the partonic cross section `σ` fits the inelastic cross section `σ_NN` (C10), then `π (6 w)²` times the probability that an attempt
collides is `σ_NN`. -/
theorem C91_options (h : FreshSource E D μ) (o : Options ℝ) (hA : NucleusHistory E D o.projectileA) (hB : NucleusHistory E D o.projectileB)
    (kA : o.projectileA.kind = .proton) (kB : o.projectileB.kind = .proton) (hw : 0 < o.nucleonWidth) (hv : o.constitWidth = o.nucleonWidth)
    (hm : o.constitNumber = 1) (h0 : o.bMin = 0) (h1 : o.bMax < 0) (σ : ℝ) (hσ : 0 ≤ σ) (sigmaNN : ℝ)
    (hfit : inelasticCrossSection o.nucleonWidth σ = sigmaNN) (rfuel : ℕ) (i : I) :
    ENNReal.ofReal (Real.pi * (6 * o.nucleonWidth)^2) *
      collisionMean (μ i) rfuel (Collider.make o σ) o.projectileA o.projectileB 1 (fun _ => 1) = ENNReal.ofReal sigmaNN := by
  have hb : (Collider.make o σ).bmax = 6 * o.nucleonWidth := by
    simp only [Collider.make, determineBmax, Nucleus.radius, kA, kB, Kind.radius, NucleonCommon.maxImpact, lt_real, lit_real]
    rw [make_maxImpactSq, sqrt_real, Real.sqrt_sq (by positivity)]
    simp [h1]
  rw [← hfit, ← hb]
  refine C91_cross_section h (Collider.make o σ) o.nucleonWidth σ hw hσ o.ncoll o.fluctuation ?_ _ _ hA hB kA kB h0 hb.ge rfuel i
  simp only [Collider.make, hv, hm]


theorem inelastic_pos {w σ : ℝ} (hw : 0 < w) (hσ : 0 < σ) : 0 < inelasticCrossSection w σ := by
  have h1 : 0 ≤ inelasticCrossSection w (σ/2) := by
    refine intervalIntegral.integral_nonneg (by positivity) fun b hb => ?_
    have := Real.pi_pos
    exact mul_nonneg (mul_nonneg (by positivity) hb.1) (C07_probability w 1 (σ/2) (by positivity) _ _).2.1
  exact h1.trans_lt (C10_strictly_increasing w hw (by rw [mem_Ioi]; positivity) (mem_Ioi.2 hσ) (by linarith))

/-- **C91, termination.** For two protons without substructure and a positive partonic cross section, `sample_collision` finds a collision
with probability one. -/
theorem C91_terminates [LawfulRng E D] (h : FreshSource E D μ) (c : Collider ℝ) (w σ : ℝ) (hw : 0 < w) (hσ : 0 < σ) (ncoll : Bool) (k : ℝ)
    (hc : c.nc = NucleonCommon.make w w 1 σ ncoll k) (A B : Nucleus ℝ) (hA : NucleusHistory E D A) (hB : NucleusHistory E D B)
    (kA : A.kind = .proton) (kB : B.kind = .proton) (h0 : c.bmin = 0) (hb : 6 * w ≤ c.bmax) (i : I) :
    ∀ᵐ r ∂(μ i), ∃ (rfuel n : ℕ) (t : (ℝ × ℕ × Nucleus ℝ × Nucleus ℝ) × Rand E D), c.sampleCollision rfuel n A B r = .ok t := by
  refine C89_terminates h c A B hA hB (by rw [kA]; trivial) (by rw [kB]; trivial) 0 i ?_ i
  intro hz
  have := C91_cross_section h c w σ hw hσ.le ncoll k hc A B hA hB kA kB h0 hb 0 i
  rw [hz, mul_zero, eq_comm, ENNReal.ofReal_eq_zero] at this
  exact absurd this (not_le.2 (inelastic_pos hw hσ))

/-- The hypotheses of C89 to C91 are met: independent uniform numbers, two protons of width 1/2 with partonic cross section 2. -/
noncomputable example : let c : Collider ℝ := ⟨mkProton, mkProton, NucleonCommon.make 0.5 0.5 1 2 false 1, 1, false, 0, 3, 0.5⟩
    (∀ᵐ r ∂(freshTape ()), ∃ (rfuel n : ℕ) (t : (ℝ × ℕ × Nucleus ℝ × Nucleus ℝ) × Rand Tape Unit), c.sampleCollision rfuel n mkProton mkProton r = .ok t) ∧
    ENNReal.ofReal (Real.pi * 3^2) * collisionMean (freshTape ()) 0 c mkProton mkProton 1 (fun _ => 1) = ENNReal.ofReal (inelasticCrossSection 0.5 2) := by
  have hp : NucleusHistory Tape Unit (mkProton : Nucleus ℝ) := .create false (fun _ => .missing) "p" 0 mkProton rfl
  intro c
  exact ⟨C91_terminates freshTape_fresh c 0.5 2 (by norm_num) (by norm_num) false 1 rfl mkProton mkProton hp hp rfl rfl rfl (by show (6:ℝ) * 0.5 ≤ 3; norm_num) (),
    C91_cross_section freshTape_fresh c 0.5 2 (by norm_num) (by norm_num) false 1 rfl mkProton mkProton hp hp rfl rfl rfl (by show (6:ℝ) * 0.5 ≤ 3; norm_num) 0 ()⟩

end Trento
