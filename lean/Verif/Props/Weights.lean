import Verif.Lemmas.ReweighCollision

/-!
# C105: the weights of the constituents

With the library's distributions and an ideal engine, the gamma-distributed weights of the constituents are independent of everything else that happens in a collision: who collides, how many
attempts were needed, where everything is.  So the fluctuation parameter changes no mean thickness.
-/

namespace Trento
open MeasureTheory Set Spec ProbabilityTheory
open scoped ENNReal

theorem make_gammaUnit (w v : ℝ) (m : ℕ) (σ : ℝ) (ncoll : Bool) {k : ℝ} (hk : 0 < k) : GammaUnit (NucleonCommon.make w v m σ ncoll k) k :=
  ⟨hk, rfl, by show (lit 1 : ℝ) / k = 1 / k; simp [lit_real]⟩

theorem fresh_sampled {rfuel : ℕ} {A : Nucleus ℝ} (hA : NucleusHistory Tape (LibDist ℝ) A) {o : ℝ} {w : LibState} {t : List (NucleonData ℝ) × LibState}
    (ht : (A.sampleNucleons rfuel o w).map (fun t => (t.1.nucleons, t.2)) = .ok t) : ∀ a ∈ t.1, Fresh a := by
  cases hs : A.sampleNucleons rfuel o w with
  | error e => rw [hs] at ht; cases ht
  | ok r =>
    obtain ⟨A', w'⟩ := r
    rw [hs] at ht
    simp only [Except.map, Except.ok.injEq] at ht
    subst ht
    intro a ha
    exact (C12_sampling_resets A A' hA _ _ _ _ hs).2 a ha

/-- a function of a collision, 0 if there is none -/
noncomputable def orZero (F : Collided → ℝ≥0∞) (p : Collided × Bool) : ℝ≥0∞ := if p.2 then F p.1 else 0

theorem orZero_meas {F : Collided → ℝ≥0∞} (hF : Measurable F) : Measurable (orZero F) :=
  Measurable.ite (measurable_snd (measurableSet_singleton true)) (hF.comp measurable_fst) measurable_const

theorem meanAt_loop (rfuel : ℕ) (c : Collider ℝ) (A B : Nucleus ℝ) {F : Collided → ℝ≥0∞} (hF : Measurable F) (b : ℝ) (i : LibMix) :
    meanAt (libMix i) rfuel c A B F b =
      ∫⁻ w, ifOk ((A.sampleNucleons rfuel (c.asymmetry * b) w).map fun t => (t.1.nucleons, t.2)) (fun t =>
        ∫⁻ w', ifOk ((B.sampleNucleons rfuel ((c.asymmetry - lit 1) * b) w').map fun t => (t.1.nucleons, t.2)) (fun t' =>
          meanLoop (libMix i) c.nc c.calcNcoll (fun r => orZero F (kept b r)) t.1 t'.1) ∂libMix i) ∂libMix i := by
  rw [← mean_inner C97_fresh.1 rfuel c A B b (g := fun r => orZero F (kept b r)) ((orZero_meas hF).comp (kept_meas' b)) i]
  unfold meanAt
  refine lintegral_congr fun r => ?_
  unfold attemptAt inner
  cases hsA : A.sampleNucleons rfuel (c.asymmetry * b) r with
  | error e => rfl
  | ok t =>
    simp only [Except.map, bindR]
    cases hsB : B.sampleNucleons rfuel ((c.asymmetry - lit 1) * b) t.2 with
    | error e => rfl
    | ok t' => rfl

theorem meanLoop_resample {nc : NucleonCommon ℝ} {k : ℝ} (hk : GammaUnit nc k) (As Bs : List (NucleonData ℝ)) (hA : ∀ a ∈ As, Fresh a) (hB : ∀ b ∈ Bs, Fresh b) (b : ℝ) (q : Label)
    {F : Collided → ℝ≥0∞} (hF : Measurable F) (i : LibMix) :
    meanLoop (libMix i) nc nc.calcNcoll (fun r => orZero F (kept b r)) As Bs =
      meanLoop (libMix i) nc nc.calcNcoll (fun r => orZero (fun x => ∫⁻ f, F (setWeight q f x) ∂gammaMeasure k k) (kept b r)) As Bs := by
  have hp0 : IsProbabilityMeasure (gammaMeasure k k) := isProbabilityMeasure_gammaMeasure hk.1 hk.1
  have hpr := C97_fresh.1.prob
  rw [← meanLoop_weight hk As Bs hA hB b q (orZero_meas hF) i]
  unfold meanLoop
  have hL : Measurable fun w : LibState => (pairLoop nc nc.calcNcoll As Bs 0 false w).1 := by
    have h3 := (renews_pairLoop C97_fresh.1 nc nc.calcNcoll).comp (f := fun p : List (NucleonData ℝ) × List (NucleonData ℝ) => ((p.2, 0, false), p.1)) (by fun_prop)
    have h4 : Measurable fun t : (List (NucleonData ℝ) × List (NucleonData ℝ)) × LibState => pairLoop nc nc.calcNcoll t.1.1 t.1.2 0 false t.2 :=
      embedding_ok.measurable_comp_iff.mp h3.meas
    exact measurable_fst.comp (h4.comp (f := fun r'' => ((As, Bs), r'')) (by fun_prop))
  have hk' : Measurable fun w : LibState => kept b (pairLoop nc nc.calcNcoll As Bs 0 false w).1 := (kept_meas' b).comp hL
  have hj : Measurable fun t : ℝ × LibState => orZero F (setWeight q t.1 (kept b (pairLoop nc nc.calcNcoll As Bs 0 false t.2).1).1, (kept b (pairLoop nc nc.calcNcoll As Bs 0 false t.2).1).2) := by
    refine (orZero_meas hF).comp (Measurable.prodMk ?_ (measurable_snd.comp (hk'.comp measurable_snd)))
    exact (setWeight_meas q).comp (measurable_fst.prodMk (measurable_fst.comp (hk'.comp measurable_snd)))
  refine (lintegral_lintegral_swap (f := fun f w => orZero F (setWeight q f (kept b (pairLoop nc nc.calcNcoll As Bs 0 false w).1).1, (kept b (pairLoop nc nc.calcNcoll As Bs 0 false w).1).2)) hj.aemeasurable).trans ?_
  refine lintegral_congr fun w => ?_
  have key : ∀ y : Collided × Bool, ∫⁻ f, orZero F (setWeight q f y.1, y.2) ∂gammaMeasure k k = orZero (fun x => ∫⁻ f, F (setWeight q f x) ∂gammaMeasure k k) y := by
    rintro ⟨y, fl⟩
    cases fl <;> simp [orZero]
  exact key _

theorem resample_meas (q : Label) {F : Collided → ℝ≥0∞} (hF : Measurable F) (G : Measure ℝ) [SFinite G] : Measurable fun x => ∫⁻ f, F (setWeight q f x) ∂G := by
  have h : Measurable fun p : Collided × ℝ => F (setWeight q p.2 p.1) := hF.comp ((setWeight_meas q).comp (f := fun p : Collided × ℝ => (p.2, p.1)) (by fun_prop))
  exact h.lintegral_prod_right'

theorem collisionMean_congr (rfuel : ℕ) {c c' : Collider ℝ} (hb : c'.bmin = c.bmin ∧ c'.bmax = c.bmax) {A B : Nucleus ℝ} (hA : NucleusHistory Tape (LibDist ℝ) A)
    (hB : NucleusHistory Tape (LibDist ℝ) B) {F F' : Collided → ℝ≥0∞} (hF : Measurable F) (hF' : Measurable F') (i : LibMix)
    (h : ∀ b, meanAt (libMix i) rfuel c' A B F' b = meanAt (libMix i) rfuel c A B F b) : collisionMean (libMix i) rfuel c' A B 1 F' = collisionMean (libMix i) rfuel c A B 1 F := by
  rw [mean_one C97_fresh.1 rfuel c hA hB hF i i, mean_one C97_fresh.1 rfuel c' hA hB hF' i i, hb.1, hb.2]
  exact lintegral_congr fun u => h _

/-- **C105, independence.** With the library's distributions and an ideal engine: in the collisions found in at most `n` attempts, the weight of any constituent is independent of
everything else and gamma distributed with mean 1: drawing it anew changes the mean of no measurable function of the collision. -/
theorem C105_weight (o : Options ℝ) (sigma : ℝ) (hk : 0 < o.fluctuation) (hA : NucleusHistory Tape (LibDist ℝ) o.projectileA) (hB : NucleusHistory Tape (LibDist ℝ) o.projectileB)
    (rfuel n : ℕ) {F : Collided → ℝ≥0∞} (hF : Measurable F) (q : Label) (i : LibMix) :
    collisionMean (libMix i) rfuel (Collider.make o sigma) o.projectileA o.projectileB n F =
      collisionMean (libMix i) rfuel (Collider.make o sigma) o.projectileA o.projectileB n fun x => ∫⁻ f, F (setWeight q f x) ∂gammaMeasure o.fluctuation o.fluctuation := by
  have hp0 : IsProbabilityMeasure (gammaMeasure o.fluctuation o.fluctuation) := isProbabilityMeasure_gammaMeasure hk hk
  have hF' := resample_meas q hF (gammaMeasure o.fluctuation o.fluctuation)
  obtain ⟨_, _, -, hatt⟩ := C89_attempts C97_fresh.1 (Collider.make o sigma) o.projectileA o.projectileB hA hB rfuel
  rw [(hatt n i).2 _ hF i, (hatt n i).2 _ hF' i]
  congr 1
  refine collisionMean_congr rfuel ⟨rfl, rfl⟩ hA hB hF' hF i fun b => ?_
  rw [meanAt_loop rfuel _ _ _ hF, meanAt_loop rfuel _ _ _ hF']
  refine lintegral_congr fun w => ifOk_congr' fun t ht => lintegral_congr fun w' => ifOk_congr' fun t' ht' => ?_
  exact meanLoop_resample (make_gammaUnit _ _ _ _ _ hk) t.1 t'.1 (fresh_sampled hA ht) (fresh_sampled hB ht') b q hF i

/-- **C105, positions.** What does not depend on the weights has the same mean for all values of the fluctuation parameter. -/
theorem C105_positions (o : Options ℝ) (sigma : ℝ) (hk : 0 < o.fluctuation) (hA : NucleusHistory Tape (LibDist ℝ) o.projectileA) (hB : NucleusHistory Tape (LibDist ℝ) o.projectileB)
    {k' : ℝ} (hk' : 0 < k') (rfuel n : ℕ) {F : Collided → ℝ≥0∞} (hF : Measurable F) (i : LibMix) :
    collisionMean (libMix i) rfuel (Collider.make { o with fluctuation := k' } sigma) o.projectileA o.projectileB n (fun x => F (unitWeights x)) =
      collisionMean (libMix i) rfuel (Collider.make o sigma) o.projectileA o.projectileB n fun x => F (unitWeights x) := by
  have hidem : ∀ x : Collided, unitWeights (unitWeights x) = unitWeights x := by
    intro x
    simp [unitWeights, List.map_map, Function.comp_def, unweigh_unweigh]
  have hpr := C97_fresh.1.prob
  have hnc : (Collider.make { o with fluctuation := k' } sigma).nc = { (Collider.make o sigma).nc with gammaAlpha := k', gammaBeta := 1 / k' } := by
    have : (lit 1 : ℝ) / k' = 1 / k' := by simp [lit_real]
    rw [← this]; rfl
  -- one attempt
  have key : ∀ {G : Collided × Bool → ℝ≥0∞}, Measurable G → (∀ x f, G (unitWeights x, f) = G (x, f)) → ∀ b,
      ∫⁻ w, ifOk (inner rfuel (Collider.make { o with fluctuation := k' } sigma) o.projectileA o.projectileB b w) (fun t => G (kept b t.1)) ∂libMix i =
        ∫⁻ w, ifOk (inner rfuel (Collider.make o sigma) o.projectileA o.projectileB b w) (fun t => G (kept b t.1)) ∂libMix i := by
    intro G hG hinv b
    rw [mean_inner C97_fresh.1 rfuel (Collider.make { o with fluctuation := k' } sigma) o.projectileA o.projectileB b (g := fun r => G (kept b r)) (hG.comp (kept_meas' b)) i, mean_inner C97_fresh.1 rfuel (Collider.make o sigma) o.projectileA o.projectileB b (g := fun r => G (kept b r)) (hG.comp (kept_meas' b)) i]
    refine lintegral_congr fun w => ifOk_congr' fun t ht => lintegral_congr fun w' => ifOk_congr' fun t' ht' => ?_
    rw [hnc]
    exact meanLoop_positions (make_gammaUnit _ _ _ _ _ hk) hk' t.1 t'.1 (fresh_sampled hA ht) (fresh_sampled hB ht') b hG hinv i
  have att : ∀ {G : Collided × Bool → ℝ≥0∞}, Measurable G → (∀ x f, G (unitWeights x, f) = G (x, f)) →
      ∫⁻ w, ifOk (attempt rfuel (Collider.make { o with fluctuation := k' } sigma) o.projectileA o.projectileB w) (fun t => G t.1) ∂libMix i =
        ∫⁻ w, ifOk (attempt rfuel (Collider.make o sigma) o.projectileA o.projectileB w) (fun t => G t.1) ∂libMix i := by
    intro G hG hinv
    have e : ∀ c : Collider ℝ, ∫⁻ w, ifOk (attempt rfuel c o.projectileA o.projectileB w) (fun t => G t.1) ∂libMix i =
        ∫⁻ u, ∫⁻ w, ifOk (inner rfuel c o.projectileA o.projectileB (impactFormula c.bmin c.bmax u) w) (fun t => G (kept (impactFormula c.bmin c.bmax u) t.1)) ∂libMix i ∂unif := by
      intro c
      have hR := (renews_attemptAt C97_fresh.1 rfuel c o.projectileA o.projectileB).comp (impact_meas c.bmin c.bmax)
      have hg : Measurable fun t : ℝ × LibState => ifOk (attemptAt rfuel c o.projectileA o.projectileB (impactFormula c.bmin c.bmax t.1) t.2) (fun t => G t.1) :=
        measurable_ifOk (g := fun (_ : ℝ × LibState) (t : (Collided × Bool) × LibState) => G t.1) hR.meas (hG.comp (measurable_fst.comp measurable_snd))
      simp only [attempt_at]
      rw [fresh_canonical C97_fresh.1 (g := fun t : ℝ × LibState => ifOk (attemptAt rfuel c o.projectileA o.projectileB (impactFormula c.bmin c.bmax t.1) t.2) (fun t => G t.1))
        hg (fun u i j => hR.const u hG i j) i i]
      refine lintegral_congr fun u => lintegral_congr fun w => ?_
      unfold attemptAt inner
      cases o.projectileA.sampleNucleons rfuel (c.asymmetry * impactFormula c.bmin c.bmax u) w with
      | error e => rfl
      | ok t =>
        simp only [Except.map, bindR]
        cases o.projectileB.sampleNucleons rfuel ((c.asymmetry - lit 1) * impactFormula c.bmin c.bmax u) t.2 with
        | error e => rfl
        | ok t' => rfl
    rw [e, e]
    exact lintegral_congr fun u => key hG hinv _
  have hFu : Measurable fun x => F (unitWeights x) := hF.comp unitWeights_meas
  rw [collisionMean_eq hA hB libMix, collisionMean_eq hA hB libMix, retryMean_eq (renews_attempt C97_fresh.1 rfuel _ _ _) n hFu i,
    retryMean_eq (renews_attempt C97_fresh.1 rfuel _ _ _) n hFu i]
  have hmiss : missProb libMix (attempt rfuel (Collider.make { o with fluctuation := k' } sigma) o.projectileA o.projectileB) i =
      missProb libMix (attempt rfuel (Collider.make o sigma) o.projectileA o.projectileB) i :=
    att (G := fun a => if a.2 then 0 else 1) (Measurable.ite (measurable_snd (measurableSet_singleton true)) measurable_const measurable_const) (fun _ _ => rfl)
  rw [hmiss]
  congr 1
  generalize hFe : (fun x => F (unitWeights x)) = F' at *
  have hF'e : ∀ x, F' x = F (unitWeights x) := fun x => by rw [← hFe]
  unfold retryMean
  simp only [ifOk_retry_one]
  simp only [hF'e]
  exact att (G := fun a => if a.2 then F (unitWeights a.1) else 0) (Measurable.ite (measurable_snd (measurableSet_singleton true)) ((hF.comp unitWeights_meas).comp measurable_fst) measurable_const)
    (fun x f => by simp only [hidem])

end Trento
