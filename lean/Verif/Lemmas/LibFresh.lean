import Verif.Lemmas.LemireLaw
import Verif.Lemmas.PwlLaw
import Verif.Lemmas.RenewModel

/-!
# The random library on an ideal engine is a fresh source
-/

namespace Trento
open MeasureTheory Set ProbabilityTheory Spec
open scoped ENNReal

instance : MeasurableSpace (LibDist ℝ) := MeasurableSpace.comap (fun d => (d.position, d.fluctuation)) inferInstance

theorem libDist_tuple : Measurable fun d : LibDist ℝ => (d.position, d.fluctuation) := comap_measurable _
theorem libDist_mk {Z : Type} [MeasurableSpace Z] {f g : Z → Option ℝ} (hf : Measurable f) (hg : Measurable g) :
    Measurable fun z => (⟨f z, g z⟩ : LibDist ℝ) := measurable_comap_iff.mpr (hf.prodMk hg)

/-- the state of the random numbers: engine and distribution objects -/
abbrev LibState := Rand Tape (LibDist ℝ)

/-- from the position object and the engine, and the fluctuation object -/
def posState (p : (Option ℝ × Tape) × Option ℝ) : LibState := ⟨p.1.2, ⟨p.1.1, p.2⟩⟩
def posParts (w : LibState) : (Option ℝ × Tape) × Option ℝ := ((w.dist.position, w.eng), w.dist.fluctuation)

/-- from the fluctuation object and the engine, and the position object -/
def fluState (p : (Option ℝ × Tape) × Option ℝ) : LibState := ⟨p.1.2, ⟨p.2, p.1.1⟩⟩
def fluParts (w : LibState) : (Option ℝ × Tape) × Option ℝ := ((w.dist.fluctuation, w.eng), w.dist.position)

theorem libState_eng : Measurable fun w : LibState => w.eng := measurable_fst.comp rand_tuple
theorem libState_pos : Measurable fun w : LibState => w.dist.position := measurable_fst.comp (libDist_tuple.comp (measurable_snd.comp rand_tuple))
theorem libState_flu : Measurable fun w : LibState => w.dist.fluctuation := measurable_snd.comp (libDist_tuple.comp (measurable_snd.comp rand_tuple))

theorem posState_meas : Measurable posState :=
  rand_mk (measurable_snd.comp measurable_fst) (libDist_mk (measurable_fst.comp measurable_fst) measurable_snd)
theorem fluState_meas : Measurable fluState :=
  rand_mk (measurable_snd.comp measurable_fst) (libDist_mk measurable_snd (measurable_fst.comp measurable_fst))
theorem posParts_meas : Measurable posParts := (libState_pos.prodMk libState_eng).prodMk libState_flu
theorem fluParts_meas : Measurable fluParts := (libState_flu.prodMk libState_eng).prodMk libState_pos

/-- The laws of the state: the engine ideal, and either object with a saved standard normal number or without. -/
noncomputable def libLaw (b : Bool × Bool) : Measure LibState := ((objLaw b.1).prod (savedLaw b.2)).map posState

instance (b : Bool × Bool) : IsProbabilityMeasure (libLaw b) := Measure.isProbabilityMeasure_map posState_meas.aemeasurable

/-- a ↔ c in `((a, e), c)` -/
def exchange (p : (Option ℝ × Tape) × Option ℝ) : (Option ℝ × Tape) × Option ℝ := ((p.2, p.1.2), p.1.1)

theorem exchange_law (b c : Bool) : ((objLaw b).prod (savedLaw c)).map exchange = (objLaw c).prod (savedLaw b) := by
  have h1 : (((savedLaw b).prod idealTape).prod (savedLaw c)).map MeasurableEquiv.prodAssoc = (savedLaw b).prod (idealTape.prod (savedLaw c)) :=
    Measure.prodAssoc_prod
  have h2 : ((savedLaw b).prod (idealTape.prod (savedLaw c))).map Prod.swap = (idealTape.prod (savedLaw c)).prod (savedLaw b) := Measure.prod_swap
  have h3 : ((idealTape.prod (savedLaw c)).prod (savedLaw b)).map (Prod.map Prod.swap id) = ((savedLaw c).prod idealTape).prod (savedLaw b) := by
    rw [← Measure.map_prod_map _ _ measurable_swap measurable_id, Measure.prod_swap, Measure.map_id]
  rw [← h1, Measure.map_map measurable_swap MeasurableEquiv.prodAssoc.measurable] at h2
  rw [← h2, Measure.map_map (measurable_swap.prodMap measurable_id) (measurable_swap.comp MeasurableEquiv.prodAssoc.measurable)] at h3
  exact h3

theorem libLaw_flu (b : Bool × Bool) : libLaw b = ((objLaw b.2).prod (savedLaw b.1)).map fluState := by
  have he : Measurable exchange := ((measurable_snd).prodMk (measurable_snd.comp measurable_fst)).prodMk (measurable_fst.comp measurable_fst)
  unfold libLaw
  rw [← exchange_law b.2 b.1, Measure.map_map posState_meas he]
  rfl

/-- A draw with the position object. -/
theorem PDraw.pos {α : Type} [MeasurableSpace α] {T : Option ℝ × Tape → Option (α × (Option ℝ × Tape))} {ν : Measure α} [SFinite ν] (h : PDraw objLaw T ν) :
    PDraw libLaw (fun w => (T (w.dist.position, w.eng)).map fun t => (t.1, (⟨t.2.2, ⟨t.2.1, w.dist.fluctuation⟩⟩ : LibState))) ν :=
  h.lift savedLaw (i := posState) (o := posParts) posState_meas posParts_meas fun _ => rfl

/-- A draw with the fluctuation object. -/
theorem PDraw.flu {α : Type} [MeasurableSpace α] {T : Option ℝ × Tape → Option (α × (Option ℝ × Tape))} {ν : Measure α} [SFinite ν] (h : PDraw objLaw T ν) :
    PDraw libLaw (fun w => (T (w.dist.fluctuation, w.eng)).map fun t => (t.1, (⟨t.2.2, ⟨w.dist.position, t.2.1⟩⟩ : LibState))) ν :=
  (h.lift savedLaw (i := fluState) (o := fluParts) fluState_meas fluParts_meas fun _ => rfl).reindex (Equiv.prodComm Bool Bool) libLaw_flu

/-- A draw that uses the engine only. -/
theorem PDraw.eng {α : Type} [MeasurableSpace α] {T : Tape → Option (α × Tape)} {ν : Measure α} [SFinite ν] (h : PDraw tapeLaw T ν) :
    PDraw libLaw (fun w => (T w.eng).map fun t => (t.1, (⟨t.2, w.dist⟩ : LibState))) ν := by
  have h1 := h.obj.pos
  convert h1 using 2 with w
  cases T w.eng <;> rfl

/-! ### The draws of the model -/

/-- the laws of the state during a program: mixtures -/
abbrev LibMix := {c : Bool × Bool → ℝ≥0∞ // ∑ b, c b = 1}

noncomputable def libMix (c : LibMix) : Measure LibState := mixture libLaw c.1

instance (c : LibMix) : IsProbabilityMeasure (libMix c) := mixture_prob c.2

/-- both objects fresh -/
noncomputable def freshMix : LibMix := ⟨fun b => if b = (false, false) then 1 else 0, by simp⟩

/-- the state of the program at the start: fresh distribution objects -/
noncomputable def libStart (e : Tape) : LibState := ⟨e, Rng.freshDist ℝ Tape⟩

theorem libStart_meas : Measurable libStart := rand_mk measurable_id measurable_const

theorem libMix_fresh : libMix freshMix = idealTape.map libStart := by
  refine Measure.ext_of_lintegral _ fun g hg => ?_
  unfold libMix
  rw [lintegral_mixture, Finset.sum_eq_single (false, false)]
  · simp only [freshMix, if_true, one_mul]
    unfold libLaw
    rw [lintegral_map hg posState_meas, lintegral_map hg libStart_meas]
    have h1 : Measurable fun p => g (posState p) := hg.comp posState_meas
    rw [lintegral_prod _ h1.aemeasurable]
    show ∫⁻ x, ∫⁻ y, g (posState (x, y)) ∂Measure.dirac none ∂objLaw false = _
    have h2 : ∀ x, ∫⁻ y, g (posState (x, y)) ∂Measure.dirac (none : Option ℝ) = g (posState (x, none)) := fun x =>
      lintegral_dirac' _ (show Measurable fun y => g (posState (x, y)) from h1.comp (measurable_const.prodMk measurable_id))
    simp only [h2]
    rw [objLaw_false (show Measurable fun x => g (posState (x, none)) from h1.comp (measurable_id.prodMk measurable_const))]
    rfl
  · intro b _ hb
    simp [freshMix, hb]
  · intro h; exact absurd (Finset.mem_univ _) h

theorem libMix_draw {α : Type} [MeasurableSpace α] {T : LibState → Option (α × LibState)} {ν : Measure α} [IsProbabilityMeasure ν] (h : PDraw libLaw T ν)
    {dflt : LibState → α} (hd : Measurable dflt) {P : LibState → α × LibState} (hP : ∀ w, P w = (T w).getD (dflt w, w)) :
    Measurable P ∧ ∀ i, ∃ j, (libMix i).map P = ν.prod (libMix j) := by
  have hP' : P = fun w => (T w).getD (dflt w, w) := funext hP
  obtain ⟨hm, K, hK, hl⟩ := h.total (hd.prodMk measurable_id)
  rw [hP']
  exact ⟨hm, fun i => ⟨⟨_, (hl i.1 i.2).1⟩, (hl i.1 i.2).2⟩⟩

theorem lib_canonical : (Measurable fun w : LibState => canonical (F := ℝ) w) ∧
    ∀ i, ∃ j, (libMix i).map (fun w => canonical (F := ℝ) w) = unif.prod (libMix j) :=
  libMix_draw canonical_draw.eng (dflt := fun _ => 0) measurable_const fun w => rfl

theorem lib_normal (m s : ℝ) : (Measurable fun w : LibState => drawNormal m s w) ∧
    ∀ i, ∃ j, (libMix i).map (fun w => drawNormal m s w) = (gauss.map fun z => z * s + m).prod (libMix j) := by
  have hm : Measurable fun z : ℝ => z * s + m := by fun_prop
  have : IsProbabilityMeasure (gauss.map fun z => z * s + m) := Measure.isProbabilityMeasure_map hm.aemeasurable
  refine libMix_draw ((standardNormal_law.map hm).pos) (dflt := fun _ => m) measurable_const fun w => ?_
  show ((libNormal m s w.dist w.eng).1, (⟨(libNormal m s w.dist w.eng).2.2, (libNormal m s w.dist w.eng).2.1⟩ : LibState)) = _
  unfold libNormal
  rcases standardNormal w.dist.position w.eng with _ | ⟨z, s', e'⟩ <;> rfl

/-- the law of a gamma number (with 0 for parameters that are not allowed) -/
noncomputable def gammaLaw (a b : ℝ) : Measure ℝ := if 0 < a ∧ 0 < b then gammaMeasure a (1 / b) else Measure.dirac 0

instance (a b : ℝ) : IsProbabilityMeasure (gammaLaw a b) := by
  unfold gammaLaw
  split
  · next h => exact isProbabilityMeasure_gammaMeasure h.1 (by have := h.2; positivity)
  · exact Measure.dirac.isProbabilityMeasure

theorem lib_gamma (a b : ℝ) : (Measurable fun w : LibState => drawGamma a b w) ∧
    ∀ i, ∃ j, (libMix i).map (fun w => drawGamma a b w) = (gammaLaw a b).prod (libMix j) := by
  by_cases h : 0 < a ∧ 0 < b
  · have hl := gammaDraw_law h.1 h.2
    rw [show gammaMeasure a (1 / b) = gammaLaw a b by unfold gammaLaw; rw [if_pos h]] at hl
    refine libMix_draw hl.flu (dflt := fun _ => 0) measurable_const fun w => ?_
    show ((libGamma a b w.dist w.eng).1, (⟨(libGamma a b w.dist w.eng).2.2, (libGamma a b w.dist w.eng).2.1⟩ : LibState)) = _
    unfold libGamma
    rw [if_pos (by simpa [lt_real] using h)]
    rcases gammaDraw a b w.dist.fluctuation w.eng with _ | ⟨z, s', e'⟩
    · simp
    · rfl
  · have e : (fun w : LibState => drawGamma a b w) = fun w => (0, w) := by
      funext w
      show ((libGamma a b w.dist w.eng).1, (⟨(libGamma a b w.dist w.eng).2.2, (libGamma a b w.dist w.eng).2.1⟩ : LibState)) = _
      unfold libGamma
      rw [if_neg (by simpa [lt_real] using h)]
      simp
    rw [e]
    refine ⟨measurable_const.prodMk measurable_id, fun i => ⟨i, ?_⟩⟩
    unfold gammaLaw
    rw [if_neg h, Measure.dirac_prod]

theorem lib_radius (t : List (ℝ × ℝ)) : (Measurable fun w : LibState => drawPiecewiseLinear t w) ∧
    ∀ i, ∃ j, (libMix i).map (fun w => drawPiecewiseLinear t w) = (unif.map (pwlOf t)).prod (libMix j) := by
  have : IsProbabilityMeasure (unif.map (pwlOf t)) := Measure.isProbabilityMeasure_map (pwlOf_meas t).aemeasurable
  refine libMix_draw ((canonical_draw.map (pwlOf_meas t)).eng) (dflt := fun _ => 0) measurable_const fun w => ?_
  show ((pwlDraw t w.eng).1, (⟨(pwlDraw t w.eng).2, w.dist⟩ : LibState)) = _
  rw [pwlDraw_eq]
  rfl

theorem lib_index (k : ℕ) : (Measurable fun w : LibState => drawIndex ℝ k w) ∧
    ∀ i, ∃ j, (libMix i).map (fun w => drawIndex ℝ k w) = (indexLaw k).prod (libMix j) := by
  refine libMix_draw (uniformDraw_law k).eng (dflt := fun _ => 0) measurable_const fun w => ?_
  show ((libUniform (F := ℝ) k w.dist w.eng).1, (⟨(libUniform (F := ℝ) k w.dist w.eng).2.2, (libUniform (F := ℝ) k w.dist w.eng).2.1⟩ : LibState)) = _
  unfold libUniform
  rcases uniformDraw ℝ k w.eng with _ | ⟨i, e'⟩ <;> rfl

theorem libMix_source : FreshSource Tape (LibDist ℝ) libMix where
  prob := inferInstance
  canonical_meas := lib_canonical.1
  canonical_law := lib_canonical.2
  normal_meas m s := (lib_normal m s).1
  normal_law m s := ⟨_, Measure.isProbabilityMeasure_map (by fun_prop), (lib_normal m s).2⟩
  gamma_meas a b := (lib_gamma a b).1
  gamma_law a b := ⟨_, inferInstance, (lib_gamma a b).2⟩
  radius_meas t := (lib_radius t).1
  radius_law t := ⟨_, Measure.isProbabilityMeasure_map (pwlOf_meas t).aemeasurable, (lib_radius t).2⟩
  index_meas k := (lib_index k).1
  index_law k := ⟨_, inferInstance, (lib_index k).2⟩

end Trento
