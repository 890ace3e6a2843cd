import Verif.Props.Unbiased
import Verif.Props.CrossSectionFit

/-!
# C90, C91: the impact parameter distribution and the cross section

An attempt at an impact parameter drawn between `b-min` and `b-max` is a mixture of attempts at fixed impact parameters `b`, with the weight of the
annulus at `b`.  So `π (bmax² - bmin²)` times the probability that an attempt collides is the cross section; for two protons without substructure it is the
cross section the partonic cross section parameter was fitted to.
-/

namespace Trento
open MeasureTheory Set Spec Filter Topology
open scoped ENNReal

variable {E D : Type} [Rng ℝ E D] [MeasurableSpace E] [MeasurableSpace D] {I : Type} {μ : I → Measure (Rand E D)}

/-- an attempt at impact parameter `b` -/
noncomputable def attemptAt (rfuel : ℕ) (c : Collider ℝ) (A B : Nucleus ℝ) (b : ℝ) (w : Rand E D) : Res ((Collided × Bool) × Rand E D) :=
  bindR ((A.sampleNucleons rfuel (c.asymmetry * b) w).map fun t => (t.1.nucleons, t.2)) fun As w =>
  bindR ((B.sampleNucleons rfuel ((c.asymmetry - lit 1) * b) w).map fun t => (t.1.nucleons, t.2)) fun Bs w =>
  bindR (.ok (pairLoop c.nc c.calcNcoll As Bs 0 false w)) fun r w =>
    .ok (((b, r.2.2.1, r.1.map NucleonData.clear, r.2.1.map NucleonData.clear), r.2.2.2), w)

omit [MeasurableSpace E] [MeasurableSpace D] in
theorem attempt_at (rfuel : ℕ) (c : Collider ℝ) (A B : Nucleus ℝ) (w : Rand E D) :
    attempt rfuel c A B w = attemptAt rfuel c A B (impactFormula c.bmin c.bmax (canonical (F := ℝ) w).1) (canonical (F := ℝ) w).2 := rfl

theorem renews_attemptAt (h : FreshSource E D μ) (rfuel : ℕ) (c : Collider ℝ) (A B : Nucleus ℝ) :
    Renews μ fun (b : ℝ) (w : Rand E D) => attemptAt rfuel c A B b w := by
  have := h.prob
  have h1 := (renews_sampleNucleons h rfuel A).comp (f := fun b : ℝ => c.asymmetry * b) (measurable_id.const_mul _)
  have h2 := (renews_sampleNucleons h rfuel B).comp (f := fun p : ℝ × List (NucleonData ℝ) => (c.asymmetry - lit 1) * p.1) (measurable_fst.const_mul _)
  have h3 := (renews_pairLoop h c.nc c.calcNcoll).comp (f := fun p : (ℝ × List (NucleonData ℝ)) × List (NucleonData ℝ) => ((p.2, 0, false), p.1.2))
    (by fun_prop)
  have h4 := h3.map (f := fun p : ((ℝ × List (NucleonData ℝ)) × List (NucleonData ℝ)) × (List (NucleonData ℝ) × List (NucleonData ℝ) × ℕ × Bool) =>
      (((p.1.1.1, p.2.2.2.1, p.2.1.map NucleonData.clear, p.2.2.1.map NucleonData.clear), p.2.2.2.2) : Collided × Bool))
    (Measurable.prodMk (Measurable.prodMk (by fun_prop) (Measurable.prodMk (by fun_prop)
      (Measurable.prodMk (clearList_meas (by fun_prop)) (clearList_meas (by fun_prop))))) (by fun_prop))
  exact (h1.bind (h2.bind h4)).congr fun y w => rfl

/-- the mean of `f` over the collisions at impact parameter `b` -/
noncomputable def meanAt (ν : Measure (Rand E D)) (rfuel : ℕ) (c : Collider ℝ) (A B : Nucleus ℝ) (f : Collided → ℝ≥0∞) (b : ℝ) : ℝ≥0∞ :=
  ∫⁻ w, ifOk (attemptAt rfuel c A B b w) (fun t => if t.1.2 then f t.1.1 else 0) ∂ν

theorem mean_one (h : FreshSource E D μ) (rfuel : ℕ) (c : Collider ℝ) {A B : Nucleus ℝ} (hA : NucleusHistory E D A) (hB : NucleusHistory E D B)
    {f : Collided → ℝ≥0∞} (hf : Measurable f) (i j : I) :
    collisionMean (μ i) rfuel c A B 1 f = ∫⁻ u, meanAt (μ j) rfuel c A B f (impactFormula c.bmin c.bmax u) ∂unif := by
  have := h.prob
  have hg1 : Measurable fun a : Collided × Bool => if a.2 then f a.1 else 0 :=
    Measurable.ite (measurable_snd (measurableSet_singleton true)) (hf.comp measurable_fst) measurable_const
  have hR := (renews_attemptAt h rfuel c A B).comp (impact_meas c.bmin c.bmax)
  have hg : Measurable fun t : ℝ × Rand E D => ifOk (attemptAt rfuel c A B (impactFormula c.bmin c.bmax t.1) t.2) (fun t => if t.1.2 then f t.1.1 else 0) :=
    measurable_ifOk (g := fun _ t => if t.1.2 then f t.1.1 else 0) hR.meas (hg1.comp (measurable_fst.comp measurable_snd))
  rw [collisionMean_eq hA hB μ, retryMean]
  simp only [ifOk_retry_one, attempt_at]
  rw [fresh_canonical h (g := fun t : ℝ × Rand E D => ifOk (attemptAt rfuel c A B (impactFormula c.bmin c.bmax t.1) t.2) (fun t => if t.1.2 then f t.1.1 else 0))
    hg (fun u i j => hR.const u hg1 i j) i j]
  rfl

theorem meanAt_eq (h : FreshSource E D μ) (rfuel : ℕ) (c : Collider ℝ) {A B : Nucleus ℝ} (hA : NucleusHistory E D A) (hB : NucleusHistory E D B)
    {f : Collided → ℝ≥0∞} (hf : Measurable f) {b : ℝ} (hb : 0 ≤ b) (i j : I) :
    meanAt (μ i) rfuel c A B f b = collisionMean (μ j) rfuel { c with bmin := b, bmax := b } A B 1 f := by
  have := h.prob
  rw [mean_one h rfuel _ hA hB hf j i]
  have e : ∀ u, impactFormula b b u = b := by
    intro u
    rw [impactFormula_real]
    simp [Real.sqrt_mul_self hb]
  simp only [e]
  have e2 : meanAt (μ i) rfuel { c with bmin := b, bmax := b } A B f b = meanAt (μ i) rfuel c A B f b := rfl
  rw [e2]
  simp

/-- the change of variables from the uniform number to the impact parameter -/
theorem lintegral_impact {bmin bmax : ℝ} (h0 : 0 ≤ bmin) (h : bmin < bmax) (k : ℝ → ℝ≥0∞) :
    ∫⁻ u, k (impactFormula bmin bmax u) ∂unif = ∫⁻ b in Ioo bmin bmax, ENNReal.ofReal (2 * b / (bmax^2 - bmin^2)) * k b := by
  have hd : 0 < bmax^2 - bmin^2 := by nlinarith
  have hder : ∀ x ∈ Ioo bmin bmax, HasDerivWithinAt (fun b : ℝ => (b^2 - bmin^2) / (bmax^2 - bmin^2)) (2 * x / (bmax^2 - bmin^2)) (Ioo bmin bmax) x := by
    intro x _
    have := (((hasDerivAt_pow 2 x).sub_const (bmin^2)).div_const (bmax^2 - bmin^2)).hasDerivWithinAt (s := Ioo bmin bmax)
    simpa using this
  have hinj : InjOn (fun b : ℝ => (b^2 - bmin^2) / (bmax^2 - bmin^2)) (Ioo bmin bmax) := by
    intro x hx y hy hxy
    have h1 : x^2 = y^2 := by
      have := (div_left_inj' hd.ne').1 hxy
      linarith
    exact (sq_eq_sq₀ (h0.trans hx.1.le) (h0.trans hy.1.le)).1 h1
  have himg : (fun b : ℝ => (b^2 - bmin^2) / (bmax^2 - bmin^2)) '' Ioo bmin bmax = Ioo 0 1 := by
    ext u
    simp only [mem_image, mem_Ioo]
    constructor
    · rintro ⟨b, ⟨h1, h2⟩, rfl⟩
      have hb : 0 ≤ b := h0.trans h1.le
      constructor
      · apply div_pos _ hd; nlinarith
      · rw [div_lt_one hd]; nlinarith
    · rintro ⟨h1, h2⟩
      refine ⟨Real.sqrt (bmin^2 + (bmax^2 - bmin^2) * u), ⟨?_, ?_⟩, ?_⟩
      · apply Real.lt_sqrt_of_sq_lt; nlinarith [mul_pos hd h1]
      · rw [Real.sqrt_lt' (by linarith)]; nlinarith
      · rw [Real.sq_sqrt (by nlinarith [mul_pos hd h1, sq_nonneg bmin])]; field_simp; ring
  have key := lintegral_image_eq_lintegral_abs_deriv_mul measurableSet_Ioo hder hinj (fun u => k (impactFormula bmin bmax u))
  unfold unif
  rw [Measure.restrict_congr_set Ioo_ae_eq_Ico.symm, ← himg, key]
  refine setLIntegral_congr_fun measurableSet_Ioo fun b hb => ?_
  have hb0 : 0 ≤ b := h0.trans hb.1.le
  have e1 : impactFormula bmin bmax ((b^2 - bmin^2) / (bmax^2 - bmin^2)) = b := by
    rw [impactFormula_real]
    have : bmin * bmin + (bmax * bmax - bmin * bmin) * ((b^2 - bmin^2) / (bmax^2 - bmin^2)) = b * b := by
      field_simp; ring
    rw [this, Real.sqrt_mul_self hb0]
  rw [e1, abs_of_nonneg (by apply div_nonneg <;> nlinarith)]

/-- **C90.** The impact parameter of an attempt has the density `2b/(bmax² - bmin²)` on `(bmin, bmax)`, and given `b` the attempt is one with this impact
parameter prescribed (`b-min = b-max = b`): for every measurable function `f` of the collision, `E[f] = ∫ 2b/(bmax² - bmin²) E_b[f] db`. -/
theorem C90_impact_mixture (h : FreshSource E D μ) (c : Collider ℝ) (A B : Nucleus ℝ) (hA : NucleusHistory E D A) (hB : NucleusHistory E D B)
    (h0 : 0 ≤ c.bmin) (hb : c.bmin < c.bmax) (rfuel : ℕ) (f : Collided → ℝ≥0∞) (hf : Measurable f) (i j : I) :
    collisionMean (μ i) rfuel c A B 1 f =
      ∫⁻ b in Ioo c.bmin c.bmax, ENNReal.ofReal (2 * b / (c.bmax^2 - c.bmin^2)) * collisionMean (μ j) rfuel { c with bmin := b, bmax := b } A B 1 f := by
  rw [mean_one h rfuel c hA hB hf i j, lintegral_impact h0 hb]
  refine setLIntegral_congr_fun measurableSet_Ioo fun b hb' => ?_
  rw [meanAt_eq h rfuel c hA hB hf (h0.trans hb'.1.le) j j]

/-- **C90, cross section.** `π (bmax² - bmin²)` times the probability that an attempt collides is the integral of `2πb P(b)`, where `P(b)` is the probability
of a collision at impact parameter `b`. -/
theorem C90_cross_section (h : FreshSource E D μ) (c : Collider ℝ) (A B : Nucleus ℝ) (hA : NucleusHistory E D A) (hB : NucleusHistory E D B)
    (h0 : 0 ≤ c.bmin) (hb : c.bmin < c.bmax) (rfuel : ℕ) (i j : I) :
    ENNReal.ofReal (Real.pi * (c.bmax^2 - c.bmin^2)) * collisionMean (μ i) rfuel c A B 1 (fun _ => 1) =
      ∫⁻ b in Ioo c.bmin c.bmax, ENNReal.ofReal (2 * Real.pi * b) * collisionMean (μ j) rfuel { c with bmin := b, bmax := b } A B 1 (fun _ => 1) := by
  have hd : 0 < c.bmax^2 - c.bmin^2 := by nlinarith
  rw [C90_impact_mixture h c A B hA hB h0 hb rfuel (fun _ => 1) measurable_const i j, ← lintegral_const_mul' _ _ ENNReal.ofReal_ne_top]
  refine setLIntegral_congr_fun measurableSet_Ioo fun b hb' => ?_
  have hb0 : 0 ≤ b := h0.trans hb'.1.le
  rw [← mul_assoc, ← ENNReal.ofReal_mul (by have := Real.pi_pos; positivity)]
  congr 2
  field_simp

end Trento
