import Verif.Lemmas.LibFresh
import Verif.Lemmas.GaussPi
import Verif.Lemmas.Nucleon

/-!
# The law of the constituents of a nucleon
-/

namespace Trento
open MeasureTheory Set ProbabilityTheory Spec
open scoped ENNReal NNReal

/-- a program that draws a value with law `ν`, independent of the state after it -/
structure LDraw {α : Type} [MeasurableSpace α] (T : LibState → α × LibState) (ν : Measure α) : Prop where
  meas : Measurable T
  law : ∀ i, ∃ j, (libMix i).map T = ν.prod (libMix j)

variable {α β γ : Type} [MeasurableSpace α] [MeasurableSpace β] [MeasurableSpace γ]

theorem LDraw.map {T : LibState → α × LibState} {ν : Measure α} [IsProbabilityMeasure ν] (h : LDraw T ν) {f : α → β} (hf : Measurable f) :
    LDraw (fun w => (f (T w).1, (T w).2)) (ν.map f) := by
  have : IsProbabilityMeasure (ν.map f) := Measure.isProbabilityMeasure_map hf.aemeasurable
  refine ⟨(hf.comp (measurable_fst.comp h.meas)).prodMk (measurable_snd.comp h.meas), fun i => ?_⟩
  obtain ⟨j, hj⟩ := h.law i
  refine ⟨j, ?_⟩
  have e : (fun w => (f (T w).1, (T w).2)) = Prod.map f id ∘ T := rfl
  rw [e, ← Measure.map_map (hf.prodMap measurable_id) h.meas, hj, ← Measure.map_prod_map _ _ hf measurable_id, Measure.map_id]

theorem LDraw.seq {T : LibState → α × LibState} {S : LibState → β × LibState} {ν : Measure α} {ρ : Measure β} [IsProbabilityMeasure ν]
    [IsProbabilityMeasure ρ] (hT : LDraw T ν) (hS : LDraw S ρ) :
    LDraw (fun w => (((T w).1, (S (T w).2).1), (S (T w).2).2)) (ν.prod ρ) := by
  have hm : Measurable fun w => (((T w).1, (S (T w).2).1), (S (T w).2).2) := by
    have h1 := hT.meas
    have h2 : Measurable fun w => S (T w).2 := hS.meas.comp (measurable_snd.comp h1)
    exact ((measurable_fst.comp h1).prodMk (measurable_fst.comp h2)).prodMk (measurable_snd.comp h2)
  refine ⟨hm, fun i => ?_⟩
  obtain ⟨j, hj⟩ := hT.law i
  obtain ⟨l, hl⟩ := hS.law j
  refine ⟨l, ?_⟩
  have e : (fun w => (((T w).1, (S (T w).2).1), (S (T w).2).2)) = MeasurableEquiv.prodAssoc.symm ∘ (Prod.map id S ∘ T) := rfl
  have h1 : (libMix i).map (Prod.map id S ∘ T) = ν.prod (ρ.prod (libMix l)) := by
    rw [← Measure.map_map (measurable_id.prodMap hS.meas) hT.meas, hj, ← Measure.map_prod_map _ _ measurable_id hS.meas, hl, Measure.map_id]
  rw [e, ← Measure.map_map MeasurableEquiv.prodAssoc.symm.measurable ((measurable_id.prodMap hS.meas).comp hT.meas), h1, ← Measure.prodAssoc_prod,
    Measure.map_map MeasurableEquiv.prodAssoc.symm.measurable MeasurableEquiv.prodAssoc.measurable]
  simp

/-- `k` draws in a row -/
def vecDraw (T : LibState → α × LibState) : (k : ℕ) → LibState → (Fin k → α) × LibState
  | 0, w => (Fin.elim0, w)
  | k+1, w => (Fin.cons (T w).1 (vecDraw T k (T w).2).1, (vecDraw T k (T w).2).2)

theorem LDraw.vec {T : LibState → α × LibState} {ν : Measure α} [IsProbabilityMeasure ν] (h : LDraw T ν) (k : ℕ) :
    LDraw (vecDraw T k) (Measure.pi fun _ : Fin k => ν) := by
  induction k with
  | zero =>
    have e : (Measure.pi fun _ : Fin 0 => ν) = Measure.dirac Fin.elim0 := by
      rw [Measure.pi_of_empty (fun _ : Fin 0 => ν) Fin.elim0]
    refine ⟨measurable_const.prodMk measurable_id, fun i => ⟨i, ?_⟩⟩
    rw [e, Measure.dirac_prod]
    rfl
  | succ k ih =>
    have h1 := (h.seq ih).map (f := fun p : α × (Fin k → α) => (Fin.cons p.1 p.2 : Fin (k+1) → α)) (by
      refine measurable_pi_iff.2 fun i => ?_
      refine Fin.cases ?_ (fun i => ?_) i
      · exact measurable_fst
      · exact (measurable_pi_apply i).comp measurable_snd)
    have e : (ν.prod (Measure.pi fun _ : Fin k => ν)).map (fun p : α × (Fin k → α) => (Fin.cons p.1 p.2 : Fin (k+1) → α)) = Measure.pi fun _ : Fin (k+1) => ν := by
      have h2 := (measurePreserving_piFinSuccAbove (fun _ : Fin (k+1) => ν) 0).symm
      have h3 := h2.map_eq
      convert h3 using 2
      funext p
      exact (Fin.insertNth_zero' p.1 p.2).symm
    rw [e] at h1
    exact h1

/-- position and weight of one constituent -/
noncomputable def oneConstituent (nc : NucleonCommon ℝ) (w : LibState) : (ℝ × ℝ × ℝ) × LibState :=
  let x := drawNormal 0 nc.samplingWidth w
  let y := drawNormal 0 nc.samplingWidth x.2
  let f := drawGamma nc.gammaAlpha nc.gammaBeta y.2
  ((x.1, y.1, f.1), f.2)

theorem drawConstituents_vec (nc : NucleonCommon ℝ) (k : ℕ) (x0 y0 : ℝ) (w : LibState) :
    drawConstituents nc k x0 y0 w = ((List.ofFn fun i => (⟨((vecDraw (oneConstituent nc) k w).1 i).1, ((vecDraw (oneConstituent nc) k w).1 i).2.1,
      ((vecDraw (oneConstituent nc) k w).1 i).2.2⟩ : Constituent ℝ), x0 + ∑ i, ((vecDraw (oneConstituent nc) k w).1 i).1,
      y0 + ∑ i, ((vecDraw (oneConstituent nc) k w).1 i).2.1), (vecDraw (oneConstituent nc) k w).2) := by
  induction k generalizing x0 y0 w with
  | zero => simp [drawConstituents, vecDraw]
  | succ k ih =>
    rw [drawConstituents]
    simp only [ih, lit_zero']
    rw [List.ofFn_succ, Fin.sum_univ_succ, Fin.sum_univ_succ, ← add_assoc, ← add_assoc]
    rfl

theorem gauss_var (s : ℝ) : gauss.map (fun z => z * s + 0) = gaussianReal 0 (s^2).toNNReal := by
  have h1 : (fun z : ℝ => z * s + 0) = fun z => s * z := by funext z; ring
  rw [h1, gauss, gaussianReal_map_const_mul]
  congr 1
  · simp
  · ext
    simp [Real.coe_toNNReal _ (sq_nonneg s)]

/-- the law of position and weight -/
noncomputable def constituentLaw (s k : ℝ) : Measure (ℝ × ℝ × ℝ) :=
  (gaussianReal 0 (s^2).toNNReal).prod ((gaussianReal 0 (s^2).toNNReal).prod (gammaMeasure k k))

theorem oneConstituent_law (nc : NucleonCommon ℝ) {k : ℝ} (hk : 0 < k) (ha : nc.gammaAlpha = k) (hb : nc.gammaBeta = 1 / k) :
    LDraw (oneConstituent nc) (constituentLaw nc.samplingWidth k) := by
  have hn := lib_normal 0 nc.samplingWidth
  rw [gauss_var] at hn
  have hN : LDraw (fun w : LibState => drawNormal 0 nc.samplingWidth w) (gaussianReal 0 (nc.samplingWidth^2).toNNReal) := ⟨hn.1, hn.2⟩
  have hg := lib_gamma nc.gammaAlpha nc.gammaBeta
  have e : gammaLaw nc.gammaAlpha nc.gammaBeta = gammaMeasure k k := by
    unfold gammaLaw
    rw [if_pos ⟨by rw [ha]; exact hk, by rw [hb]; positivity⟩, ha, hb, one_div_one_div]
  rw [e] at hg
  have hp : IsProbabilityMeasure (gammaMeasure k k) := isProbabilityMeasure_gammaMeasure hk hk
  have hG : LDraw (fun w : LibState => drawGamma nc.gammaAlpha nc.gammaBeta w) (gammaMeasure k k) := ⟨hg.1, hg.2⟩
  exact hN.seq (hN.seq hG)

/-- The constituents of a nucleon at the origin: positions relative to the centre of mass, and weights. -/
noncomputable def relative {m : ℕ} (v : Fin m → ℝ × ℝ × ℝ) (i : Fin m) : ℝ × ℝ × ℝ :=
  ((v i).1 - (∑ j, (v j).1) / m, (v i).2.1 - (∑ j, (v j).2.1) / m, (v i).2.2)

theorem relative_meas {m : ℕ} (i : Fin m) : Measurable fun v : Fin m → ℝ × ℝ × ℝ => relative v i := by
  unfold relative
  fun_prop

theorem sampleConstituents_vec (nc : NucleonCommon ℝ) (n : NucleonData ℝ) (hn : n.constituentsExist = false) (w : LibState) :
    (nc.sampleConstituents n w).1.constituents = List.ofFn fun i =>
      (⟨n.x + (relative (vecDraw (oneConstituent nc) nc.constituentNumber w).1 i).1, n.y + (relative (vecDraw (oneConstituent nc) nc.constituentNumber w).1 i).2.1,
        (relative (vecDraw (oneConstituent nc) nc.constituentNumber w).1 i).2.2⟩ : Constituent ℝ) := by
  unfold NucleonCommon.sampleConstituents
  rw [hn]
  simp only [Bool.false_eq_true, if_false, drawConstituents_vec, List.map_ofFn, lit_zero', zero_add]
  congr 1
  funext i
  simp only [Function.comp_apply, relative, ofInt_real, Constituent.mk.injEq]
  push_cast
  refine ⟨by ring, by ring, trivial⟩

/-- **One constituent.** -/
theorem relative_law {m : ℕ} (i : Fin m) {s k : ℝ} (hk : 0 < k) (u : ℝ≥0) (hu : (u:ℝ) = s^2 * (1 - 1 / m)) :
    (Measure.pi fun _ : Fin m => constituentLaw s k).map (fun v => relative v i) =
      (gaussianReal 0 u).prod ((gaussianReal 0 u).prod (gammaMeasure k k)) := by
  have hp : IsProbabilityMeasure (gammaMeasure k k) := isProbabilityMeasure_gammaMeasure hk hk
  set N := gaussianReal 0 (s^2).toNNReal
  set G := gammaMeasure k k
  have h1 := measurePreserving_arrowProdEquivProdArrow ℝ (ℝ × ℝ) (Fin m) (fun _ => N) (fun _ => N.prod G)
  have h2 := measurePreserving_arrowProdEquivProdArrow ℝ ℝ (Fin m) (fun _ => N) (fun _ => G)
  have hoff : (Measure.pi fun _ : Fin m => N).map (fun v : Fin m → ℝ => v i - (∑ j, v j) / (m:ℝ)) = gaussianReal 0 u :=
    gauss_offset i _ u (by rw [hu, Real.coe_toNNReal _ (sq_nonneg s)])
  have hm1 : Measurable fun v : Fin m → ℝ => v i - (∑ j, v j) / (m:ℝ) := by fun_prop
  have hG : (Measure.pi fun _ : Fin m => G).map (fun v : Fin m → ℝ => v i) = G := (measurePreserving_eval (fun _ : Fin m => G) i).map_eq
  have e : (fun v : Fin m → ℝ × ℝ × ℝ => relative v i) =
      Prod.map (fun v : Fin m → ℝ => v i - (∑ j, v j) / (m:ℝ)) (Prod.map (fun v : Fin m → ℝ => v i - (∑ j, v j) / (m:ℝ)) fun v : Fin m → ℝ => v i) ∘
        (Prod.map id (MeasurableEquiv.arrowProdEquivProdArrow ℝ ℝ (Fin m)) ∘ MeasurableEquiv.arrowProdEquivProdArrow ℝ (ℝ × ℝ) (Fin m)) := rfl
  have h3 : (Measure.pi fun _ : Fin m => constituentLaw s k).map
      (Prod.map id (MeasurableEquiv.arrowProdEquivProdArrow ℝ ℝ (Fin m)) ∘ MeasurableEquiv.arrowProdEquivProdArrow ℝ (ℝ × ℝ) (Fin m)) =
      (Measure.pi fun _ : Fin m => N).prod ((Measure.pi fun _ : Fin m => N).prod (Measure.pi fun _ : Fin m => G)) := by
    rw [← Measure.map_map (measurable_id.prodMap h2.measurable) h1.measurable]
    have h4 := h1.map_eq
    unfold constituentLaw
    rw [h4, ← Measure.map_prod_map _ _ measurable_id h2.measurable, h2.map_eq, Measure.map_id]
  rw [e, ← Measure.map_map (hm1.prodMap (hm1.prodMap (measurable_pi_apply i))) ((measurable_id.prodMap h2.measurable).comp h1.measurable), h3,
    ← Measure.map_prod_map _ _ hm1 (hm1.prodMap (measurable_pi_apply i)), ← Measure.map_prod_map _ _ hm1 (measurable_pi_apply i), hoff, hG]

end Trento
