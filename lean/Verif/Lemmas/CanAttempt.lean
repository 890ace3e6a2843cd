import Verif.Lemmas.CanSample
import Verif.Props.Unbiased

/-! # An attempt can be a collision -/

namespace Trento
open MeasureTheory Set Spec Filter Topology
open scoped ENNReal

variable {E D : Type} [Rng ℝ E D] [MeasurableSpace E] [MeasurableSpace D] {I : Type} {μ : I → Measure (Rand E D)}

/-- two nucleons close to their axes are close to each other when the axes are -/
theorem central_dist {ε b a x y x' y' : ℝ} (h1 : (x - a * b)^2 + y^2 ≤ ε^2) (h2 : (x' - (a - 1) * b)^2 + y'^2 ≤ ε^2) {R : ℝ} (hε : 0 ≤ ε) (hb : 0 ≤ b)
    (hR : b + 2*ε ≤ R) : (x - x')^2 + (y - y')^2 ≤ R^2 := by
  have e : x - x' = b + ((x - a*b) - (x' - (a-1)*b)) := by ring
  rw [e]
  set p := x - a*b
  set q := x' - (a-1)*b
  have hq : (p - q)^2 + (y - y')^2 ≤ (2*ε)^2 := by nlinarith [sq_nonneg (p+q), sq_nonneg (y+y')]
  have hpq : p - q ≤ 2*ε := abs_le.mp (abs_le_of_sq_le_sq (by nlinarith [sq_nonneg (y-y')]) (by linarith)) |>.2
  have h3 : (b + (p - q))^2 + (y - y')^2 ≤ (b + 2*ε)^2 := by nlinarith
  nlinarith

theorem impact_low {bmin bmax R : ℝ} (h0 : 0 ≤ bmin) (hR : bmin < R) : ∃ η > 0, ∀ u : ℝ, |u - 0| < η → 0 ≤ u → 
    impactFormula bmin bmax u < R := by
  have hc : Continuous fun u : ℝ => impactFormula bmin bmax u := by
    simp only [impactFormula, sqrt_real]
    fun_prop
  have e : impactFormula bmin bmax 0 = bmin := by
    simp only [impactFormula, sqrt_real]
    rw [mul_zero, add_zero]
    exact Real.sqrt_mul_self h0
  have := hc.continuousAt (x := 0)
  rw [Metric.continuousAt_iff] at this
  obtain ⟨η, hη, h1⟩ := this (R - bmin) (by linarith)
  refine ⟨η, hη, fun u hu _ => ?_⟩
  have h2 := h1 (x := u) (by rw [Real.dist_eq]; exact hu)
  rw [Real.dist_eq, e] at h2
  linarith [(abs_lt.mp h2).2]

theorem impact_nonneg (bmin bmax u : ℝ) : 0 ≤ impactFormula bmin bmax u := by
  simp only [impactFormula, sqrt_real]; exact Real.sqrt_nonneg _

variable (h : FreshSource E D μ)
include h

theorem can_attempt [LawfulRng E D] (c : Collider ℝ) (A B : Nucleus ℝ) (hA : NucleusHistory E D A) (hB : NucleusHistory E D B)
    (sA : Samplable A.kind) (sB : Samplable B.kind) (nA : A.nucleons ≠ []) (nB : B.nucleons ≠ [])
    (hm : c.nc.constituentNumber ≠ 0) (hσ : 0 < c.nc.sigmaPartonic) (hp : 0 < c.nc.prefactor)
    {R : ℝ} (hR : c.nc.maxImpactSq = R^2) (h0 : 0 ≤ c.bmin) (hbR : c.bmin < R) (rfuel : ℕ) (hr : 1 ≤ rfuel) :
    Can μ (fun w : Rand E D => attempt rfuel c A B w) {x | x.2 = true} := by
  have := h.prob
  have h1 := (renews_sampleNucleons h rfuel A).comp (f := fun p : Unit × ℝ => c.asymmetry * impactFormula c.bmin c.bmax p.2)
    (((impact_meas c.bmin c.bmax).comp measurable_snd).const_mul _)
  have h2 := (renews_sampleNucleons h rfuel B).comp (f := fun p : (Unit × ℝ) × List (NucleonData ℝ) => (c.asymmetry - lit 1) * impactFormula c.bmin c.bmax p.1.2)
    (((impact_meas c.bmin c.bmax).comp (measurable_snd.comp measurable_fst)).const_mul _)
  have h3 := (renews_pairLoop h c.nc c.calcNcoll).comp (f := fun p : ((Unit × ℝ) × List (NucleonData ℝ)) × List (NucleonData ℝ) => ((p.2, 0, false), p.1.2))
    (by fun_prop)
  have h4 := h3.map (f := fun p : (((Unit × ℝ) × List (NucleonData ℝ)) × List (NucleonData ℝ)) × (List (NucleonData ℝ) × List (NucleonData ℝ) × ℕ × Bool) =>
      (((impactFormula c.bmin c.bmax p.1.1.1.2, p.2.2.2.1, p.2.1.map NucleonData.clear, p.2.2.1.map NucleonData.clear), p.2.2.2.2) : Collided × Bool))
    (Measurable.prodMk (Measurable.prodMk ((impact_meas c.bmin c.bmax).comp (by fun_prop)) (Measurable.prodMk (by fun_prop)
      (Measurable.prodMk (clearList_meas (by fun_prop)) (clearList_meas (by fun_prop))))) (by fun_prop))
  have hS : MeasurableSet {x : Collided × Bool | x.2 = true} := measurable_snd (measurableSet_singleton true)
  obtain ⟨η, hη, hnear⟩ := impact_low (bmax := c.bmax) h0 hbR
  have l1 : (lit 1 : ℝ) = 1 := by simp
  unfold attempt
  refine Can.bind ((renews_canonical h).comp (measurable_const (a := ()))) ((h1.bind (h2.bind h4)).comp (f := fun u : ℝ => ((), u)) (by fun_prop)) hS
    (G := Ioo 0 (min η 1)) (can_interval h le_rfl (min_le_right _ _) (by positivity)) ?_
  intro u hu
  have hb := hnear u (by rw [sub_zero, abs_of_pos hu.1]; exact hu.2.trans_le (min_le_left _ _)) hu.1.le
  have hb0 := impact_nonneg c.bmin c.bmax u
  set b := impactFormula c.bmin c.bmax u with hbdef
  have hε : 0 < (R - b)/2 := by linarith
  refine Can.bind (h1.comp (f := fun _ : Unit => ((), u)) (by fun_prop)) ((h2.bind h4).comp (f := fun As : List (NucleonData ℝ) => (((), u), As)) (by fun_prop)) hS
    (can_central h A hA sA nA hε rfuel hr _) ?_
  rintro As ⟨a, As', rfl, fa, da⟩
  refine Can.bind (h2.comp (f := fun _ : Unit => (((), u), a :: As')) (by fun_prop)) (h4.comp (f := fun Bs : List (NucleonData ℝ) => ((((), u), a :: As'), Bs)) (by fun_prop)) hS
    (can_central h B hB sB nB hε rfuel hr _) ?_
  rintro Bs ⟨b', Bs', rfl, fb, db⟩
  rw [l1] at db
  refine (can_participate h c.nc hm hσ hp a b' fa fb (by rw [hR]; exact central_dist da db hε.le hb0 (by linarith))).mono ?_
  intro w t ht hG
  cases ht
  exact ⟨_, rfl, pairLoop_first _ _ _ _ _ _ _ _ _ hG⟩

/-- a first attempt is a collision with positive probability -/
theorem collisionMean_pos [LawfulRng E D] (c : Collider ℝ) (A B : Nucleus ℝ) (hA : NucleusHistory E D A) (hB : NucleusHistory E D B)
    (sA : Samplable A.kind) (sB : Samplable B.kind) (nA : A.nucleons ≠ []) (nB : B.nucleons ≠ [])
    (hm : c.nc.constituentNumber ≠ 0) (hσ : 0 < c.nc.sigmaPartonic) (hp : 0 < c.nc.prefactor)
    {R : ℝ} (hR : c.nc.maxImpactSq = R^2) (h0 : 0 ≤ c.bmin) (hbR : c.bmin < R) (rfuel : ℕ) (hr : 1 ≤ rfuel) (i : I) :
    collisionMean (μ i) rfuel c A B 1 (fun _ => 1) ≠ 0 := by
  have := h.prob
  have hc := can_attempt h c A B hA hB sA sB nA nB hm hσ hp hR h0 hbR rfuel hr i
  rw [collisionMean_eq hA hB μ, retryMean]
  intro hz
  apply hc
  have hmeas : Measurable fun w : Rand E D => ifOk (attempts rfuel c A B 1 w) (fun _ => 1) :=
      ifOk_meas1 ((renews_attempt h rfuel c A B).retry 1) measurable_const
  change ∫⁻ w, ifOk (attempts rfuel c A B 1 w) (fun _ => 1) ∂(μ i) = 0 at hz
  rw [lintegral_eq_zero_iff hmeas] at hz
  refine measure_mono_null ?_ hz
  rintro w ⟨⟨⟨x, f⟩, w'⟩, h1, h2⟩
  simp only [mem_ofPred_eq] at h2
  subst h2
  intro h3
  change ifOk (attempts rfuel c A B 1 w) (fun _ => 1) = 0 at h3
  simp [attempts, retry, h1, ifOk, bindR] at h3

end Trento
