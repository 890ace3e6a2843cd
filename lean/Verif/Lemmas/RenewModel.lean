import Verif.Lemmas.Renew
import Verif.Lemmas.Clear

/-! # The sampling functions of the model renew the source -/

namespace Trento
open MeasureTheory Set Spec
open scoped ENNReal

/-- The random numbers are in a state drawn with one of the laws `μ i`, and all draws are ideal: the value drawn next has a law which does not depend
on `i` (uniform in `[0, 1)` for canonical numbers) and is independent of the state after the draw, which has one of the laws again.  (There are several
laws because `std::normal_distribution` may hold a saved value or none.) -/
structure Spec.FreshSource (E D : Type) [Rng ℝ E D] [MeasurableSpace E] [MeasurableSpace D] {I : Type} (μ : I → Measure (Rand E D)) : Prop where
  prob : ∀ i, IsProbabilityMeasure (μ i)
  canonical_meas : Measurable fun w : Rand E D => canonical (F := ℝ) w
  canonical_law : ∀ i, ∃ j, (μ i).map (fun w => canonical (F := ℝ) w) = (volume.restrict (Ico (0:ℝ) 1)).prod (μ j)
  normal_meas : ∀ m s : ℝ, Measurable fun w : Rand E D => drawNormal m s w
  normal_law : ∀ m s : ℝ, ∃ ν : Measure ℝ, IsProbabilityMeasure ν ∧ ∀ i, ∃ j, (μ i).map (fun w => drawNormal m s w) = ν.prod (μ j)
  gamma_meas : ∀ a b : ℝ, Measurable fun w : Rand E D => drawGamma a b w
  gamma_law : ∀ a b : ℝ, ∃ ν : Measure ℝ, IsProbabilityMeasure ν ∧ ∀ i, ∃ j, (μ i).map (fun w => drawGamma a b w) = ν.prod (μ j)
  radius_meas : ∀ t : List (ℝ × ℝ), Measurable fun w : Rand E D => drawPiecewiseLinear t w
  radius_law : ∀ t : List (ℝ × ℝ), ∃ ν : Measure ℝ, IsProbabilityMeasure ν ∧ ∀ i, ∃ j, (μ i).map (fun w => drawPiecewiseLinear t w) = ν.prod (μ j)
  index_meas : ∀ k : ℕ, Measurable fun w : Rand E D => drawIndex ℝ k w
  index_law : ∀ k : ℕ, ∃ ν : Measure ℕ, IsProbabilityMeasure ν ∧ ∀ i, ∃ j, (μ i).map (fun w => drawIndex ℝ k w) = ν.prod (μ j)

variable {E D : Type} [Rng ℝ E D] [MeasurableSpace E] [MeasurableSpace D] {I : Type} {μ : I → Measure (Rand E D)}
variable {Y Z : Type} [MeasurableSpace Y] [MeasurableSpace Z]

section
variable (h : FreshSource E D μ)
include h

theorem renews_canonical : Renews μ fun (_ : Y) (w : Rand E D) => .ok (canonical (F := ℝ) w) := by
  have := h.prob
  exact Renews.draw h.canonical_meas h.canonical_law

theorem renews_normal (m s : ℝ) : Renews μ fun (_ : Y) (w : Rand E D) => .ok (drawNormal m s w) := by
  have := h.prob
  obtain ⟨ν, hν, hl⟩ := h.normal_law m s
  exact Renews.draw (h.normal_meas m s) hl

theorem renews_gamma (a b : ℝ) : Renews μ fun (_ : Y) (w : Rand E D) => .ok (drawGamma a b w) := by
  have := h.prob
  obtain ⟨ν, hν, hl⟩ := h.gamma_law a b
  exact Renews.draw (h.gamma_meas a b) hl

theorem renews_radius (t : List (ℝ × ℝ)) : Renews μ fun (_ : Y) (w : Rand E D) => .ok (drawPiecewiseLinear t w) := by
  have := h.prob
  obtain ⟨ν, hν, hl⟩ := h.radius_law t
  exact Renews.draw (h.radius_meas t) hl

theorem renews_index (k : ℕ) : Renews μ fun (_ : Y) (w : Rand E D) => .ok (drawIndex ℝ k w) := by
  have := h.prob
  obtain ⟨ν, hν, hl⟩ := h.index_law k
  exact Renews.draw (h.index_meas k) hl

theorem renews_cosTheta : Renews μ fun (_ : Y) (w : Rand E D) => .ok (cosTheta (F := ℝ) w) := by
  have := h.prob
  refine ((renews_canonical h).map (f := fun p : Y × ℝ => lit 2 * p.2 - lit 1) ((measurable_snd.const_mul _).sub_const _)).congr fun y w => rfl

theorem renews_phi : Renews μ fun (_ : Y) (w : Rand E D) => .ok (phi (F := ℝ) w) := by
  have := h.prob
  exact ((renews_canonical h).map (f := fun p : Y × ℝ => twoPi * p.2) (measurable_snd.const_mul _)).congr fun y w => rfl

/-! ### Nuclei -/

theorem renews_deuteronLoop (a b : ℝ) (fuel : ℕ) : Renews μ fun (_ : Y) (w : Rand E D) => deuteronLoop a b fuel w := by
  have := h.prob
  induction fuel with
  | zero => exact Renews.fail _
  | succ fuel ih =>
    have hr : Measurable fun u : ℝ => deuteronRadius a u := by
      simp only [deuteronRadius, log_real, lit_real]; fun_prop
    have hpr : Measurable fun u : ℝ => deuteronProb a b u (deuteronRadius a u) := by
      simp only [deuteronProb, exp_real, pow_real, lit_real]
      exact (((Real.measurable_exp.comp (hr.const_mul _)).sub (Real.measurable_exp.comp (hr.const_mul _))).pow_const _).div measurable_id
    have h3 : Renews μ fun (p : (Y × ℝ) × ℝ) (w : Rand E D) =>
        if deuteronProb a b p.1.2 (deuteronRadius a p.1.2) < p.2 then deuteronLoop a b fuel w else .ok (deuteronRadius a p.1.2, w) := by
      classical
      refine Renews.ite (ih.comp (f := fun p : (Y × ℝ) × ℝ => p.1.1) (measurable_fst.comp measurable_fst))
        (Renews.pure (hr.comp (measurable_snd.comp measurable_fst))) ?_
      exact measurableSet_lt (hpr.comp (measurable_snd.comp measurable_fst)) measurable_snd
    refine ((renews_canonical h).bind ((renews_canonical h).bind h3)).congr fun y w => ?_
    rw [deuteronLoop]
    simp only [bindR, lt_real, decide_eq_true_eq]

end

theorem measurable_decide' {c : Z → Prop} [DecidablePred c] (hc : MeasurableSet {z | c z}) : Measurable fun z => decide (c z) := by
  have h1 : Measurable fun z => if c z then true else false := Measurable.ite hc measurable_const measurable_const
  refine measurable_of_eq h1 fun z => ?_
  by_cases hz : c z <;> simp [hz]

theorem spherical_meas {r c p : Z → ℝ} (hr : Measurable r) (hc : Measurable c) (hp : Measurable p) :
    Measurable fun z => spherical (r z) (c z) (p z) := by
  simp only [spherical, sqrt_real, lit_real, cos_real, sin_real]
  fun_prop

theorem setPos_meas {o x y z : Z → ℝ} {n : Z → NucleonData ℝ} (ho : Measurable o) (hn : Measurable n) (hx : Measurable x) (hy : Measurable y)
    (hz : Measurable z) : Measurable fun t => setNucleonPosition (o t) (n t) (x t) (y t) (z t) :=
  nucleon_mk (hx.add ho) hy hz measurable_const measurable_const (nucleon_cs.comp hn)

theorem isTooClose_meas (dm : ℝ) {l : Z → List (NucleonData ℝ)} {n : Z → NucleonData ℝ} (hl : Measurable l) (hn : Measurable n) :
    Measurable fun z => isTooClose dm (l z) (n z) := by
  unfold isTooClose
  by_cases hd : (lt dm (lit 1e-10 : ℝ)) = true
  · simp only [hd, if_true]; exact measurable_const
  · simp only [hd, Bool.false_eq_true, if_false]
    refine Measurable.listAny (Y := NucleonData ℝ) (α := NucleonData ℝ)
      (g := fun n n2 => let dx := n.x - n2.x; let dy := n.y - n2.y; let dz := n.z - n2.z; lt (dx*dx + dy*dy + dz*dz) dm) ?_ hn hl
    simp only [lt_real]
    have hx : Measurable fun p : NucleonData ℝ × NucleonData ℝ => p.1.x - p.2.x := (nucleon_x.comp measurable_fst).sub (nucleon_x.comp measurable_snd)
    have hy : Measurable fun p : NucleonData ℝ × NucleonData ℝ => p.1.y - p.2.y := (nucleon_y.comp measurable_fst).sub (nucleon_y.comp measurable_snd)
    have hz : Measurable fun p : NucleonData ℝ × NucleonData ℝ => p.1.z - p.2.z := (nucleon_z.comp measurable_fst).sub (nucleon_z.comp measurable_snd)
    exact measurable_decide' (measurableSet_lt (((hx.mul hx).add (hy.mul hy)).add (hz.mul hz)) measurable_const)

section
variable (h : FreshSource E D μ)
include h

theorem renews_sampleDeuteron (a b : ℝ) (fuel : ℕ) (ns : List (NucleonData ℝ)) :
    Renews μ fun (o : ℝ) (w : Rand E D) => sampleDeuteron fuel a b o ns w := by
  have := h.prob
  have hf : Measurable fun p : ((ℝ × ℝ) × ℝ) × ℝ => spherical p.1.1.2 p.1.2 p.2 :=
    spherical_meas (measurable_snd.comp (measurable_fst.comp measurable_fst)) (measurable_snd.comp measurable_fst) measurable_snd
  have ho : Measurable fun p : ((ℝ × ℝ) × ℝ) × ℝ => p.1.1.1 := measurable_fst.comp (measurable_fst.comp measurable_fst)
  match ns with
  | [] =>
    refine ((renews_deuteronLoop h a b fuel).bind ((renews_cosTheta h).bind ((renews_phi h).bind
      (Renews.fail (Y := ((ℝ × ℝ) × ℝ) × ℝ) (.ub "deuteron without two nucleons"))))).congr fun o w => ?_
    unfold sampleDeuteron
    cases deuteronLoop a b fuel w <;> rfl
  | [n] =>
    refine ((renews_deuteronLoop h a b fuel).bind ((renews_cosTheta h).bind ((renews_phi h).bind
      (Renews.fail (Y := ((ℝ × ℝ) × ℝ) × ℝ) (.ub "deuteron without two nucleons"))))).congr fun o w => ?_
    unfold sampleDeuteron
    cases deuteronLoop a b fuel w <;> rfl
  | n1 :: n2 :: rest =>
    have hfx := measurable_fst.comp hf
    have hfy := measurable_fst.comp (measurable_snd.comp hf)
    have hfz := measurable_snd.comp (measurable_snd.comp hf)
    have hm := Measurable.cons (setPos_meas ho (measurable_const (a := n1)) hfx hfy hfz)
      (Measurable.cons (setPos_meas ho (measurable_const (a := n2)) hfx.neg hfy.neg hfz.neg) (measurable_const (a := rest)))
    refine ((renews_deuteronLoop h a b fuel).bind ((renews_cosTheta h).bind ((renews_phi h).map hm))).congr fun o w => ?_
    unfold sampleDeuteron
    cases deuteronLoop a b fuel w <;> rfl

theorem renews_drawRadii (R a : ℝ) (k : ℕ) : Renews μ fun (_ : Y) (w : Rand E D) => .ok (drawRadii R a k w) := by
  have := h.prob
  induction k with
  | zero => exact (Renews.pure (measurable_const (a := ([] : List ℝ)))).congr fun y w => rfl
  | succ k ih =>
    have ih' : Renews μ fun (_ : Y × ℝ) (w : Rand E D) => .ok (drawRadii R a k w) := ih.comp measurable_fst
    refine ((renews_radius h (woodsSaxonTable R a)).bind (ih'.map
      (f := fun p : (Y × ℝ) × List ℝ => p.1.2 :: p.2) ((measurable_snd.comp measurable_fst).cons measurable_snd))).congr fun y w => rfl

theorem renews_placeWS (dm : ℝ) (left : ℕ) : Renews μ fun (p : ((ℝ × ℝ) × List (NucleonData ℝ)) × NucleonData ℝ) (w : Rand E D) =>
    .ok (placeWS p.1.1.1 dm p.1.1.2 p.1.2 left p.2 w) := by
  have := h.prob
  induction left with
  | zero => exact (Renews.pure measurable_snd).congr fun p w => rfl
  | succ left ih =>
    -- parameters ((p, cosT), ph)
    have hn : Measurable fun q : ((((ℝ × ℝ) × List (NucleonData ℝ)) × NucleonData ℝ) × ℝ) × ℝ =>
        setNucleonPosition q.1.1.1.1.1 q.1.1.2 (spherical q.1.1.1.1.2 q.1.2 q.2).1 (spherical q.1.1.1.1.2 q.1.2 q.2).2.1 (spherical q.1.1.1.1.2 q.1.2 q.2).2.2 := by
      have hs : Measurable fun q : ((((ℝ × ℝ) × List (NucleonData ℝ)) × NucleonData ℝ) × ℝ) × ℝ => spherical q.1.1.1.1.2 q.1.2 q.2 :=
        spherical_meas (by fun_prop) (by fun_prop) (by fun_prop)
      exact setPos_meas (by fun_prop) (by fun_prop) (measurable_fst.comp hs) (measurable_fst.comp (measurable_snd.comp hs)) (measurable_snd.comp (measurable_snd.comp hs))
    have hl : Measurable fun q : ((((ℝ × ℝ) × List (NucleonData ℝ)) × NucleonData ℝ) × ℝ) × ℝ => q.1.1.1.2 := by fun_prop
    have h3 := Renews.bite (ih.comp ((measurable_fst.comp (measurable_fst.comp measurable_fst)).prodMk hn)) (Renews.pure (μ := μ) hn)
      (c := fun q => decide (0 < left) && isTooClose dm q.1.1.1.2
        (setNucleonPosition q.1.1.1.1.1 q.1.1.2 (spherical q.1.1.1.1.2 q.1.2 q.2).1 (spherical q.1.1.1.1.2 q.1.2 q.2).2.1 (spherical q.1.1.1.1.2 q.1.2 q.2).2.2))
      ((measurable_of_countable fun b : Bool => decide (0 < left) && b).comp (isTooClose_meas dm hl hn))
    refine ((renews_cosTheta h).bind ((renews_phi h).bind h3)).congr fun p w => ?_
    rw [placeWS]
    simp only [bindR]
    split <;> rfl


theorem renews_placeAllWS (dm : ℝ) (ns : List (NucleonData ℝ)) :
    Renews μ fun (p : (ℝ × List (NucleonData ℝ)) × List ℝ) (w : Rand E D) => .ok (placeAllWS p.1.1 dm p.1.2 p.2 ns w) := by
  have := h.prob
  induction ns with
  | nil =>
    refine (Renews.pure (q := fun p : (ℝ × List (NucleonData ℝ)) × List ℝ => p.1.2 ++ []) ((measurable_snd.comp measurable_fst).append measurable_const)).congr fun p w => ?_
    rw [placeAllWS]
    rintro _ _ _ _ _ h0; cases h0
  | cons n ns ih =>
    refine Renews.listCases (P := fun (y : ℝ × List (NucleonData ℝ)) rs w => .ok (placeAllWS y.1 dm y.2 rs (n :: ns) w)) ?_ ?_
    · refine (Renews.pure (q := fun p : ℝ × List (NucleonData ℝ) => p.2 ++ (n :: ns)) (measurable_snd.append measurable_const)).congr fun p w => ?_
      rw [placeAllWS]
      rintro _ _ _ _ h0; cases h0
    · have h1 : Renews μ fun (p : (ℝ × List (NucleonData ℝ)) × ℝ × List ℝ) (w : Rand E D) =>
          .ok (placeWS p.1.1 dm p.2.1 p.1.2 1000 n w) :=
        (renews_placeWS h dm 1000).comp (f := fun p : (ℝ × List (NucleonData ℝ)) × ℝ × List ℝ => (((p.1.1, p.2.1), p.1.2), n)) (by fun_prop)
      have h2 := ih.comp (f := fun p : ((ℝ × List (NucleonData ℝ)) × ℝ × List ℝ) × NucleonData ℝ => ((p.1.1.1, p.1.1.2 ++ [p.2]), p.1.2.2))
        (((measurable_fst.comp (measurable_fst.comp measurable_fst)).prodMk
          ((measurable_snd.comp (measurable_fst.comp measurable_fst)).append (measurable_snd.cons measurable_const))).prodMk
          (measurable_snd.comp (measurable_snd.comp measurable_fst)))
      refine (h1.bind h2).congr fun p w => ?_
      rw [placeAllWS]
      rfl

omit h in
theorem insertBy_meas {α : Type} [MeasurableSpace α] {key : α → ℝ} (hk : Measurable key) {a : Z → α} {l : Z → List α} (ha : Measurable a) (hl : Measurable l) :
    Measurable fun z => insertBy key (a z) (l z) := by
  have := measurable_list_rec (Y := α) (α := α) (f := fun a l => insertBy key a l) (measurable_id.cons measurable_const) (fun n ih => by
    have h1 := ih (Z := α × α × (Fin n → α)) (y := fun p => p.1) (v := fun p => p.2.2) measurable_fst (measurable_snd.comp measurable_snd)
    simp only [insertBy, lt_real, decide_eq_true_eq]
    have hb : Measurable fun p : α × α × (Fin n → α) => p.2.1 := measurable_fst.comp measurable_snd
    have hv : Measurable fun p : α × α × (Fin n → α) => List.ofFn p.2.2 := (measurable_ofFn n).comp (measurable_snd.comp measurable_snd)
    refine Measurable.ite (measurableSet_lt (hk.comp hb) (hk.comp measurable_fst)) (hb.cons h1) (measurable_fst.cons (hb.cons hv)))
  exact this.comp (ha.prodMk hl)

omit h in
theorem sortBy_meas {α : Type} [MeasurableSpace α] {key : α → ℝ} (hk : Measurable key) {l : Z → List α} (hl : Measurable l) :
    Measurable fun z => sortBy key (l z) := by
  have := measurable_list_rec (Y := Unit) (α := α) (f := fun _ l => sortBy key l) measurable_const (fun n ih => by
    have h1 := ih (Z := Unit × α × (Fin n → α)) (y := fun p => p.1) (v := fun p => p.2.2) measurable_fst (measurable_snd.comp measurable_snd)
    exact insertBy_meas hk (measurable_fst.comp measurable_snd) h1)
  exact this.comp ((measurable_const (a := ())).prodMk hl)

theorem renews_sampleWS (R a dm : ℝ) (ns : List (NucleonData ℝ)) : Renews μ fun (o : ℝ) (w : Rand E D) => .ok (sampleWS R a dm o ns w) := by
  have := h.prob
  have h2 := (renews_placeAllWS h dm ns).comp (f := fun p : ℝ × List ℝ => ((p.1, ([] : List (NucleonData ℝ))), sortBy id p.2))
    ((measurable_fst.prodMk measurable_const).prodMk (sortBy_meas measurable_id measurable_snd))
  exact ((renews_drawRadii h R a ns.length).bind h2).congr fun o w => rfl

theorem renews_deformedReject (R a b2 b4 rmax : ℝ) (fuel : ℕ) : Renews μ fun (_ : Y) (w : Rand E D) => deformedReject R a b2 b4 rmax fuel w := by
  have := h.prob
  induction fuel with
  | zero => exact Renews.fail _
  | succ fuel ih =>
    have hd : Measurable fun p : ℝ × ℝ => deformedDist R a b2 b4 p.1 p.2 := by
      simp only [deformedDist, exp_real, lit_real, sqrt_real]
      fun_prop
    have hr : Measurable fun p : ((Y × ℝ) × ℝ) × ℝ => rmax * cbrt p.1.1.2 :=
      (cbrt_meas.comp (measurable_snd.comp (measurable_fst.comp measurable_fst))).const_mul _
    have hc : Measurable fun p : ((Y × ℝ) × ℝ) × ℝ => p.1.2 := by fun_prop
    have h3 : Renews μ fun (p : ((Y × ℝ) × ℝ) × ℝ) (w : Rand E D) =>
        if deformedDist R a b2 b4 (rmax * cbrt p.1.1.2) p.1.2 < p.2 then deformedReject R a b2 b4 rmax fuel w
        else .ok ((rmax * cbrt p.1.1.2, p.1.2), w) := by
      classical
      refine Renews.ite (ih.comp (f := fun p : ((Y × ℝ) × ℝ) × ℝ => p.1.1.1) (by fun_prop)) (Renews.pure (hr.prodMk hc)) ?_
      exact measurableSet_lt (hd.comp (hr.prodMk hc)) measurable_snd
    refine ((renews_canonical h).bind ((renews_cosTheta h).bind ((renews_canonical h).bind h3))).congr fun y w => ?_
    rw [deformedReject]
    simp only [bindR, lt_real, decide_eq_true_eq]

theorem renews_drawDeformed (fuel : ℕ) (R a b2 b4 rmax : ℝ) (k : ℕ) : Renews μ fun (_ : Y) (w : Rand E D) => drawDeformed fuel R a b2 b4 rmax k w := by
  have := h.prob
  induction k with
  | zero => exact (Renews.pure (measurable_const (a := ([] : List (ℝ × ℝ))))).congr fun y w => rfl
  | succ k ih =>
    have ih' : Renews μ fun (_ : Y × (ℝ × ℝ)) (w : Rand E D) => drawDeformed fuel R a b2 b4 rmax k w := ih.comp measurable_fst
    refine ((renews_deformedReject h R a b2 b4 rmax fuel).bind (ih'.map
      (f := fun p : (Y × (ℝ × ℝ)) × List (ℝ × ℝ) => p.1.2 :: p.2) ((measurable_snd.comp measurable_fst).cons measurable_snd))).congr fun y w => ?_
    rw [drawDeformed]
    cases deformedReject R a b2 b4 rmax fuel w with
    | error e => rfl
    | ok t =>
      simp only [bindR]
      cases drawDeformed fuel R a b2 b4 rmax k t.2 <;> rfl

theorem renews_drawTiltSpin : Renews μ fun (_ : Y) (w : Rand E D) => .ok (drawTiltSpin (F := ℝ) w) := by
  have := h.prob
  refine ((renews_cosTheta h).bind ((renews_phi h).map
    (f := fun p : (Y × ℝ) × ℝ => (⟨p.1.2, sqrt (lit 1 - p.1.2 * p.1.2), cos p.2, sin p.2⟩ : TiltSpin ℝ)) ?_)).congr fun y w => rfl
  refine measurable_comap_iff.mpr ?_
  show Measurable fun p : (Y × ℝ) × ℝ => (p.1.2, Real.sqrt (((1:ℚ):ℝ) - p.1.2 * p.1.2), Real.cos p.2, Real.sin p.2)
  fun_prop

omit h in
theorem rotateTS_meas {t : Z → TiltSpin ℝ} {x y z : Z → ℝ} (ht : Measurable t) (hx : Measurable x) (hy : Measurable y) (hz : Measurable z) :
    Measurable fun s => rotateTS (t s) (x s) (y s) (z s) := by
  have h0 := tilt_tuple.comp ht
  have h1 : Measurable fun s => (t s).cosA := measurable_fst.comp h0
  have h2 : Measurable fun s => (t s).sinA := (measurable_fst.comp measurable_snd).comp h0
  have h3 : Measurable fun s => (t s).cosB := (measurable_fst.comp (measurable_snd.comp measurable_snd)).comp h0
  have h4 : Measurable fun s => (t s).sinB := (measurable_snd.comp (measurable_snd.comp measurable_snd)).comp h0
  unfold rotateTS
  fun_prop

/-- the parameters of a placement: offset, orientation, transverse radius, nucleons placed, z, nucleon -/
abbrev PD := ((((ℝ × TiltSpin ℝ) × ℝ) × List (NucleonData ℝ)) × ℝ) × NucleonData ℝ

theorem renews_placeDef (dm : ℝ) (left : ℕ) : Renews μ fun (p : PD) (w : Rand E D) =>
    .ok (placeDef p.1.1.1.1.1 dm p.1.1.1.1.2 p.1.1.1.2 p.1.1.2 left p.1.2 p.2 w) := by
  have := h.prob
  induction left with
  | zero => exact (Renews.pure measurable_snd).congr fun p w => rfl
  | succ left ih =>
    have hrot : Measurable fun q : PD × ℝ => rotateTS q.1.1.1.1.1.2 (q.1.1.1.1.2 * Real.cos q.2) (q.1.1.1.1.2 * Real.sin q.2) q.1.1.2 :=
      rotateTS_meas (by fun_prop) (by fun_prop) (by fun_prop) (by fun_prop)
    have hn : Measurable fun q : PD × ℝ => setNucleonPosition q.1.1.1.1.1.1 q.1.2
        (rotateTS q.1.1.1.1.1.2 (q.1.1.1.1.2 * Real.cos q.2) (q.1.1.1.1.2 * Real.sin q.2) q.1.1.2).1
        (rotateTS q.1.1.1.1.1.2 (q.1.1.1.1.2 * Real.cos q.2) (q.1.1.1.1.2 * Real.sin q.2) q.1.1.2).2.1
        (rotateTS q.1.1.1.1.1.2 (q.1.1.1.1.2 * Real.cos q.2) (q.1.1.1.1.2 * Real.sin q.2) q.1.1.2).2.2 :=
      setPos_meas (by fun_prop) (by fun_prop) (measurable_fst.comp hrot) (measurable_fst.comp (measurable_snd.comp hrot))
        (measurable_snd.comp (measurable_snd.comp hrot))
    have hl : Measurable fun q : PD × ℝ => q.1.1.1.2 := by fun_prop
    have hz : Measurable fun q : PD × ℝ => q.1.1.2 * lit (-1) := by simp only [lit_real]; fun_prop
    have h3 := Renews.bite (ih.comp (((measurable_fst.comp (measurable_fst.comp measurable_fst)).prodMk hz).prodMk hn)) (Renews.pure (μ := μ) hn)
      (c := fun q => decide (0 < left) && isTooClose dm q.1.1.1.2 (setNucleonPosition q.1.1.1.1.1.1 q.1.2
        (rotateTS q.1.1.1.1.1.2 (q.1.1.1.1.2 * Real.cos q.2) (q.1.1.1.1.2 * Real.sin q.2) q.1.1.2).1
        (rotateTS q.1.1.1.1.1.2 (q.1.1.1.1.2 * Real.cos q.2) (q.1.1.1.1.2 * Real.sin q.2) q.1.1.2).2.1
        (rotateTS q.1.1.1.1.1.2 (q.1.1.1.1.2 * Real.cos q.2) (q.1.1.1.1.2 * Real.sin q.2) q.1.1.2).2.2))
      ((measurable_of_countable fun b : Bool => decide (0 < left) && b).comp (isTooClose_meas dm hl hn))
    refine ((renews_phi h).bind h3).congr fun p w => ?_
    rw [placeDef]
    simp only [bindR, cos_real, sin_real]
    split <;> rfl

theorem renews_placeAllDef (dm : ℝ) (ns : List (NucleonData ℝ)) :
    Renews μ fun (p : ((ℝ × TiltSpin ℝ) × List (NucleonData ℝ)) × List (ℝ × ℝ)) (w : Rand E D) => .ok (placeAllDef p.1.1.1 dm p.1.1.2 p.1.2 p.2 ns w) := by
  have := h.prob
  induction ns with
  | nil =>
    refine (Renews.pure (q := fun p : ((ℝ × TiltSpin ℝ) × List (NucleonData ℝ)) × List (ℝ × ℝ) => p.1.2 ++ [])
      ((measurable_snd.comp measurable_fst).append measurable_const)).congr fun p w => ?_
    rw [placeAllDef]
    rintro _ _ _ _ _ h0; cases h0
  | cons n ns ih =>
    refine Renews.listCases (P := fun (y : (ℝ × TiltSpin ℝ) × List (NucleonData ℝ)) rs w => .ok (placeAllDef y.1.1 dm y.1.2 y.2 rs (n :: ns) w)) ?_ ?_
    · refine (Renews.pure (q := fun p : (ℝ × TiltSpin ℝ) × List (NucleonData ℝ) => p.2 ++ (n :: ns)) (measurable_snd.append measurable_const)).congr fun p w => ?_
      rw [placeAllDef]
      rintro _ _ _ _ h0; cases h0
    · have h1 := (renews_placeDef h dm 1000).comp (f := fun p : ((ℝ × TiltSpin ℝ) × List (NucleonData ℝ)) × (ℝ × ℝ) × List (ℝ × ℝ) =>
          (((((p.1.1.1, p.1.1.2), p.2.1.1 * Real.sqrt (((1:ℚ):ℝ) - p.2.1.2 * p.2.1.2)), p.1.2), p.2.1.1 * p.2.1.2), n)) (by fun_prop)
      have h2 := ih.comp (f := fun p : (((ℝ × TiltSpin ℝ) × List (NucleonData ℝ)) × (ℝ × ℝ) × List (ℝ × ℝ)) × NucleonData ℝ =>
          ((p.1.1.1, p.1.1.2 ++ [p.2]), p.1.2.2))
        (((measurable_fst.comp (measurable_fst.comp measurable_fst)).prodMk
          ((measurable_snd.comp (measurable_fst.comp measurable_fst)).append (measurable_snd.cons measurable_const))).prodMk
          (measurable_snd.comp (measurable_snd.comp measurable_fst)))
      refine (h1.bind h2).congr fun p w => ?_
      rw [placeAllDef]
      rfl

theorem renews_sampleDeformed (fuel : ℕ) (R a b2 b4 rmax dm : ℝ) (ns : List (NucleonData ℝ)) :
    Renews μ fun (o : ℝ) (w : Rand E D) => sampleDeformed fuel R a b2 b4 rmax dm o ns w := by
  have := h.prob
  have h3 := (renews_placeAllDef h dm ns).comp (f := fun p : (ℝ × TiltSpin ℝ) × List (ℝ × ℝ) => (((p.1.1, p.1.2), ([] : List (NucleonData ℝ))), sortBy Prod.fst p.2))
    ((((measurable_fst.comp measurable_fst).prodMk (measurable_snd.comp measurable_fst)).prodMk measurable_const).prodMk (sortBy_meas measurable_fst measurable_snd))
  refine ((renews_drawTiltSpin h).bind ((renews_drawDeformed h fuel R a b2 b4 rmax ns.length).bind h3)).congr fun o w => ?_
  unfold sampleDeformed
  simp only [bindR]
  cases drawDeformed fuel R a b2 b4 rmax ns.length (drawTiltSpin (F := ℝ) w).2 <;> rfl

theorem renews_drawEuler : Renews μ fun (_ : Y) (w : Rand E D) => .ok (drawEuler (F := ℝ) w) := by
  have := h.prob
  refine ((renews_phi h).bind ((renews_cosTheta h).bind ((renews_phi h).map
    (f := fun p : ((Y × ℝ) × ℝ) × ℝ => (⟨cos p.1.1.2, sin p.1.1.2, p.1.2, sqrt (lit 1 - p.1.2 * p.1.2), cos p.2, sin p.2⟩ : Euler ℝ)) ?_))).congr fun y w => rfl
  refine measurable_comap_iff.mpr ?_
  show Measurable fun p : ((Y × ℝ) × ℝ) × ℝ => (Real.cos p.1.1.2, Real.sin p.1.1.2, p.1.2, Real.sqrt (((1:ℚ):ℝ) - p.1.2 * p.1.2), Real.cos p.2, Real.sin p.2)
  fun_prop

omit h in
theorem rotateEuler_meas {e : Z → Euler ℝ} (he : Measurable e) (x y z : ℝ) : Measurable fun s => rotateEuler (e s) x y z := by
  have h0 := euler_tuple.comp he
  have h1 : Measurable fun s => (e s).c1 := measurable_fst.comp h0
  have h2 : Measurable fun s => (e s).s1 := (measurable_fst.comp measurable_snd).comp h0
  have h3 : Measurable fun s => (e s).c2 := (measurable_fst.comp (measurable_snd.comp measurable_snd)).comp h0
  have h4 : Measurable fun s => (e s).s2 := (measurable_fst.comp (measurable_snd.comp (measurable_snd.comp measurable_snd))).comp h0
  have h5 : Measurable fun s => (e s).c3 := (measurable_fst.comp (measurable_snd.comp (measurable_snd.comp (measurable_snd.comp measurable_snd)))).comp h0
  have h6 : Measurable fun s => (e s).s3 := (measurable_snd.comp (measurable_snd.comp (measurable_snd.comp (measurable_snd.comp measurable_snd)))).comp h0
  unfold rotateEuler
  fun_prop

omit h in
theorem placeManual_meas (ps : List (ℝ × ℝ × ℝ)) (ns : List (NucleonData ℝ)) {o : Z → ℝ} {e : Z → Euler ℝ} (ho : Measurable o) (he : Measurable e) :
    Measurable fun z => placeManual (o z) (e z) ps ns := by
  induction ns generalizing ps with
  | nil => cases ps <;> exact measurable_const
  | cons n ns ih =>
    cases ps with
    | nil => exact measurable_const
    | cons p ps =>
      obtain ⟨x, y, zz⟩ := p
      have hr := rotateEuler_meas he x y zz
      have hn : Measurable fun z => setNucleonPosition (o z) n (rotateEuler (e z) x y zz).1 (rotateEuler (e z) x y zz).2.1 (rotateEuler (e z) x y zz).2.2 :=
        setPos_meas ho measurable_const (measurable_fst.comp hr) (measurable_fst.comp (measurable_snd.comp hr)) (measurable_snd.comp (measurable_snd.comp hr))
      refine measurable_of_eq (measurable_exBind (ih ps) (g := fun z ns => .ok (setNucleonPosition (o z) n (rotateEuler (e z) x y zz).1
        (rotateEuler (e z) x y zz).2.1 (rotateEuler (e z) x y zz).2.2 :: ns)) (measurable_ok.comp ((hn.comp measurable_fst).cons measurable_snd))) fun z => ?_
      rw [placeManual]
      cases placeManual (o z) (e z) ps ns <;> rfl

theorem renews_sampleManual (configs : List (List (ℝ × ℝ × ℝ))) (ns : List (NucleonData ℝ)) :
    Renews μ fun (o : ℝ) (w : Rand E D) => sampleManual configs o ns w := by
  have := h.prob
  have h3 : Renews μ fun (p : (ℝ × Euler ℝ) × ℕ) (w : Rand E D) => match configs[p.2]? with
      | none => (.error (.throw .h5Exception "selection outside the dataset") : Res (List (NucleonData ℝ) × Rand E D))
      | some ps => exElim (placeManual p.1.1 p.1.2 ps ns) Except.error fun ns => .ok (ns, w) := by
    refine Renews.countable fun k => ?_
    dsimp only
    cases configs[k]? with
    | none => exact Renews.fail _
    | some ps => exact Renews.ofRes (placeManual_meas ps ns measurable_fst measurable_snd)
  refine ((renews_drawEuler h).bind ((renews_index h (if configs.length = 0 then 18446744073709551615 else configs.length - 1)).bind h3)).congr fun o w => ?_
  unfold sampleManual
  simp only [bindR]
  split
  · rename_i h0; rw [h0]
  · rename_i ps h0
    rw [h0]
    dsimp only
    cases placeManual o (drawEuler (F := ℝ) w).1 ps ns <;> rfl

/-- sampling a nucleus: its nucleons -/
theorem renews_sampleNucleons (fuel : ℕ) (nuc : Nucleus ℝ) :
    Renews μ fun (o : ℝ) (w : Rand E D) => (nuc.sampleNucleons fuel o w).map fun t => (t.1.nucleons, t.2) := by
  have := h.prob
  have key : ∀ S : ℝ → Rand E D → Res (List (NucleonData ℝ) × Rand E D), Renews μ S →
      (∀ o w, nuc.sampleNucleons fuel o w = match S o w with | .error e => .error e | .ok (ns, w) => .ok ({ nuc with nucleons := ns, offset := o }, w)) →
      Renews μ fun (o : ℝ) (w : Rand E D) => (nuc.sampleNucleons fuel o w).map fun t => (t.1.nucleons, t.2) := by
    intro S hS he
    refine hS.congr fun o w => ?_
    rw [he]
    cases S o w <;> rfl
  cases hk : nuc.kind with
  | proton =>
    refine key (fun o w => .ok (sampleProton o nuc.nucleons, w)) (Renews.pure ?_) (fun o w => by simp only [Nucleus.sampleNucleons, hk])
    cases nuc.nucleons with
    | nil => exact measurable_const
    | cons n ns => exact (setPos_meas measurable_id measurable_const measurable_const measurable_const measurable_const).cons measurable_const
  | deuteron a b => exact key _ (renews_sampleDeuteron h a b fuel nuc.nucleons) (fun o w => by simp only [Nucleus.sampleNucleons, hk]; cases sampleDeuteron fuel a b o nuc.nucleons w <;> rfl)
  | woodsSaxon R a dm => exact key _ (renews_sampleWS h R a dm nuc.nucleons) (fun o w => by simp only [Nucleus.sampleNucleons, hk])
  | deformed R a b2 b4 rmax dm => exact key _ (renews_sampleDeformed h fuel R a b2 b4 rmax dm nuc.nucleons) (fun o w => by simp only [Nucleus.sampleNucleons, hk]; cases sampleDeformed fuel R a b2 b4 rmax dm o nuc.nucleons w <;> rfl)
  | manual configs rmax => exact key _ (renews_sampleManual h configs nuc.nucleons) (fun o w => by simp only [Nucleus.sampleNucleons, hk]; cases sampleManual configs o nuc.nucleons w <;> rfl)


/-! ### Collisions -/

theorem renews_drawConstituents (nc : NucleonCommon ℝ) (k : ℕ) :
    Renews μ fun (p : ℝ × ℝ) (w : Rand E D) => .ok (drawConstituents nc k p.1 p.2 w) := by
  have := h.prob
  induction k with
  | zero =>
    exact (Renews.pure (q := fun p : ℝ × ℝ => (([] : List (Constituent ℝ)), p.1, p.2)) (by fun_prop)).congr fun y w => rfl
  | succ k ih =>
    have h4 := ih.comp (f := fun p : (((ℝ × ℝ) × ℝ) × ℝ) × ℝ => (p.1.1.1.1 + p.1.1.2, p.1.1.1.2 + p.1.2)) (by fun_prop)
    have h5 := h4.map (f := fun p : ((((ℝ × ℝ) × ℝ) × ℝ) × ℝ) × (List (Constituent ℝ) × ℝ × ℝ) =>
        ((⟨p.1.1.1.2, p.1.1.2, p.1.2⟩ : Constituent ℝ) :: p.2.1, p.2.2.1, p.2.2.2))
      (((constituent_mk (by fun_prop) (by fun_prop) (by fun_prop)).cons (by fun_prop)).prodMk (by fun_prop))
    exact ((renews_normal h _ _).bind ((renews_normal h _ _).bind ((renews_gamma h _ _).bind h5))).congr fun y w => rfl

theorem renews_sampleConstituents (nc : NucleonCommon ℝ) : Renews μ fun (n : NucleonData ℝ) (w : Rand E D) => .ok (nc.sampleConstituents n w) := by
  have := h.prob
  have h1 := (renews_drawConstituents h nc nc.constituentNumber).comp (f := fun _ : NucleonData ℝ => ((lit 0 : ℝ), (lit 0 : ℝ))) measurable_const
  have hsub : Measurable fun q : ((ℝ × ℝ) × (ℝ × ℝ)) × Constituent ℝ =>
      ({ q.2 with x := q.2.x + (q.1.1.1 - q.1.2.1), y := q.2.y + (q.1.1.2 - q.1.2.2) } : Constituent ℝ) :=
    constituent_mk (((constituent_x.comp measurable_snd)).add (by fun_prop)) (((constituent_y.comp measurable_snd)).add (by fun_prop))
      (constituent_fl.comp measurable_snd)
  have hx : Measurable fun p : NucleonData ℝ × (List (Constituent ℝ) × ℝ × ℝ) =>
      ((p.1.x, p.1.y), (p.2.2.1 / ofInt nc.constituentNumber, p.2.2.2 / ofInt nc.constituentNumber)) :=
    ((nucleon_x.comp measurable_fst).prodMk (nucleon_y.comp measurable_fst)).prodMk (Measurable.prodMk (by fun_prop) (by fun_prop))
  have hl := Measurable.listMap (g := fun (q : (ℝ × ℝ) × (ℝ × ℝ)) (c : Constituent ℝ) =>
      ({ c with x := c.x + (q.1.1 - q.2.1), y := c.y + (q.1.2 - q.2.2) } : Constituent ℝ)) hsub hx (measurable_fst.comp measurable_snd)
  have h2 := h1.map (f := fun p : NucleonData ℝ × (List (Constituent ℝ) × ℝ × ℝ) => ({ p.1 with
      constituents := p.2.1.map fun c => { c with x := c.x + (p.1.x - p.2.2.1 / ofInt nc.constituentNumber), y := c.y + (p.1.y - p.2.2.2 / ofInt nc.constituentNumber) }
      constituentsExist := true } : NucleonData ℝ))
    (nucleon_mk (nucleon_x.comp measurable_fst) (nucleon_y.comp measurable_fst) (nucleon_z.comp measurable_fst) (nucleon_part.comp measurable_fst) measurable_const hl)
  refine (Renews.bite (Renews.pure measurable_id) h2 nucleon_exist).congr fun n w => ?_
  unfold NucleonCommon.sampleConstituents
  split <;> rfl

omit h in
theorem overlapInner_meas (v : ℝ) {a : Z → ℝ} {q : Z → Constituent ℝ} {g : Z → List (Constituent ℝ)} (ha : Measurable a) (hq : Measurable q)
    (hg : Measurable g) :
    Measurable fun z => (g z).foldl (fun acc (qB : Constituent ℝ) => acc + Real.exp (-((0.25:ℚ):ℝ) * (((q z).x - qB.x)^2 + ((q z).y - qB.y)^2) / v)) (a z) := by
  have h1 : Measurable fun p : Constituent ℝ × ℝ × Constituent ℝ =>
      p.2.1 + Real.exp (-((0.25:ℚ):ℝ) * ((p.1.x - p.2.2.x)^2 + (p.1.y - p.2.2.y)^2) / v) := by
    have hx : Measurable fun p : Constituent ℝ × ℝ × Constituent ℝ => p.1.x - p.2.2.x :=
      (constituent_x.comp measurable_fst).sub (constituent_x.comp (measurable_snd.comp measurable_snd))
    have hy : Measurable fun p : Constituent ℝ × ℝ × Constituent ℝ => p.1.y - p.2.2.y :=
      (constituent_y.comp measurable_fst).sub (constituent_y.comp (measurable_snd.comp measurable_snd))
    exact (measurable_fst.comp measurable_snd).add (Real.measurable_exp.comp ((((hx.pow_const 2).add (hy.pow_const 2)).const_mul _).div_const _))
  exact Measurable.listFoldl (Y := Constituent ℝ) (α := Constituent ℝ) (β := ℝ)
    (g := fun qA acc qB => acc + Real.exp (-((0.25:ℚ):ℝ) * ((qA.x - qB.x)^2 + (qA.y - qB.y)^2) / v)) h1 hq ha hg

omit h in
theorem overlapSum_meas (v : ℝ) {f g : Z → List (Constituent ℝ)} (hf : Measurable f) (hg : Measurable g) : Measurable fun z => overlapSum v (f z) (g z) := by
  have e : ∀ as bs : List (Constituent ℝ), overlapSum v as bs = as.foldl (fun acc (qA : Constituent ℝ) =>
      bs.foldl (fun acc (qB : Constituent ℝ) => acc + Real.exp (-((0.25:ℚ):ℝ) * ((qA.x - qB.x)^2 + (qA.y - qB.y)^2) / v)) acc) ((0:ℚ):ℝ) := by
    intro as bs
    simp only [overlapSum, sqr_real, exp_real, lit_real]
  simp only [e]
  have h2 : Measurable fun p : List (Constituent ℝ) × ℝ × Constituent ℝ => p.1.foldl (fun acc (qB : Constituent ℝ) =>
      acc + Real.exp (-((0.25:ℚ):ℝ) * ((p.2.2.x - qB.x)^2 + (p.2.2.y - qB.y)^2) / v)) p.2.1 :=
    overlapInner_meas v (measurable_fst.comp measurable_snd) (measurable_snd.comp measurable_snd) measurable_fst
  exact Measurable.listFoldl (Y := List (Constituent ℝ)) (α := Constituent ℝ) (β := ℝ)
    (g := fun bs acc qA => bs.foldl (fun acc (qB : Constituent ℝ) => acc + Real.exp (-((0.25:ℚ):ℝ) * ((qA.x - qB.x)^2 + (qA.y - qB.y)^2) / v)) acc)
    h2 hg measurable_const hf

omit h in
theorem setParticipant_meas {n : Z → NucleonData ℝ} (hn : Measurable n) : Measurable fun z => (n z).setParticipant := by
  have h1 : Measurable fun z => ({ n z with isParticipant := true } : NucleonData ℝ) :=
    nucleon_mk (nucleon_x.comp hn) (nucleon_y.comp hn) (nucleon_z.comp hn) measurable_const (nucleon_exist.comp hn) (nucleon_cs.comp hn)
  unfold NucleonData.setParticipant
  exact Measurable.ite ((nucleon_part.comp hn) (measurableSet_singleton true)) hn h1

/-- two nucleons before and after their constituents are sampled -/
abbrev PQ := ((NucleonData ℝ × NucleonData ℝ) × NucleonData ℝ) × NucleonData ℝ

theorem renews_participate (nc : NucleonCommon ℝ) :
    Renews μ fun (p : NucleonData ℝ × NucleonData ℝ) (w : Rand E D) => .ok (nc.participate p.1 p.2 w) := by
  have := h.prob
  have hA : Measurable fun p : NucleonData ℝ × NucleonData ℝ => p.1.isParticipant := nucleon_part.comp measurable_fst
  have hB : Measurable fun p : NucleonData ℝ × NucleonData ℝ => p.2.isParticipant := nucleon_part.comp measurable_snd
  have hx : Measurable fun p : NucleonData ℝ × NucleonData ℝ => p.1.x - p.2.x := (nucleon_x.comp measurable_fst).sub (nucleon_x.comp measurable_snd)
  have hy : Measurable fun p : NucleonData ℝ × NucleonData ℝ => p.1.y - p.2.y := (nucleon_y.comp measurable_fst).sub (nucleon_y.comp measurable_snd)
  -- (((p, A'), B'), u)
  have ho : Measurable fun q : PQ × ℝ => nc.oneMinusProb (overlapSum nc.constituentWidthSq q.1.1.2.constituents q.1.2.constituents) := by
    have h1 : Measurable fun q : PQ × ℝ => overlapSum nc.constituentWidthSq q.1.1.2.constituents q.1.2.constituents :=
      overlapSum_meas _ (nucleon_cs.comp (by fun_prop)) (nucleon_cs.comp (by fun_prop))
    exact Real.measurable_exp.comp (h1.const_mul _)
  have h4 : Renews μ fun (q : PQ × ℝ) (w : Rand E D) =>
      if lt (nc.oneMinusProb (overlapSum nc.constituentWidthSq q.1.1.2.constituents q.1.2.constituents)) q.2
      then (.ok ((true, q.1.1.2.setParticipant, q.1.2.setParticipant), w) : Res ((Bool × NucleonData ℝ × NucleonData ℝ) × Rand E D))
      else .ok ((false, q.1.1.2, q.1.2), w) := by
    refine Renews.bite (Renews.pure (measurable_const.prodMk ((setParticipant_meas (by fun_prop)).prodMk (setParticipant_meas (by fun_prop)))))
      (Renews.pure (measurable_const.prodMk (by fun_prop))) ?_
    simp only [lt_real]
    exact measurable_decide' (measurableSet_lt ho measurable_snd)
  have h1 := (renews_sampleConstituents h nc).comp (f := fun p : NucleonData ℝ × NucleonData ℝ => p.1) measurable_fst
  have h2 := (renews_sampleConstituents h nc).comp (f := fun q : (NucleonData ℝ × NucleonData ℝ) × NucleonData ℝ => q.1.2) (by fun_prop)
  have h5 := h1.bind (h2.bind ((renews_canonical h).bind h4))
  have hc2 : Measurable fun p : NucleonData ℝ × NucleonData ℝ => lt nc.maxImpactSq (sqr (p.1.x - p.2.x) + sqr (p.1.y - p.2.y)) := by
    simp only [lt_real, sqr_real]
    exact measurable_decide' (measurableSet_lt measurable_const ((hx.pow_const 2).add (hy.pow_const 2)))
  have h6 := Renews.bite (Renews.pure (q := fun p : NucleonData ℝ × NucleonData ℝ => (false, p.1, p.2)) (by fun_prop)) h5 hc2
  have hc1 : Measurable fun p : NucleonData ℝ × NucleonData ℝ => p.1.isParticipant && p.2.isParticipant && !nc.calcNcoll :=
    (measurable_of_countable fun b : Bool × Bool => b.1 && b.2 && !nc.calcNcoll).comp (hA.prodMk hB)
  refine (Renews.bite (Renews.pure (q := fun p : NucleonData ℝ × NucleonData ℝ => (true, p.1, p.2)) (by fun_prop)) h6 hc1).congr fun p w => ?_
  unfold NucleonCommon.participate
  simp only [bindR]
  split
  · rfl
  · split
    · rfl
    · split <;> rfl

/-- nucleon, collisions so far, collision flag -/
abbrev PR := NucleonData ℝ × ℕ × Bool

theorem renews_pairRow (nc : NucleonCommon ℝ) (cn : Bool) :
    Renews μ fun (p : PR × List (NucleonData ℝ)) (w : Rand E D) => .ok (pairRow nc cn p.1.1 p.2 p.1.2.1 p.1.2.2 w) := by
  have := h.prob
  refine Renews.listRec (P := fun (y : PR) Bs w => .ok (pairRow nc cn y.1 Bs y.2.1 y.2.2 w)) ?_ fun n ih => ?_
  · exact (Renews.pure (q := fun y : PR => (y.1, ([] : List (NucleonData ℝ)), y.2.1, y.2.2)) (by fun_prop)).congr fun y w => rfl
  · have h1 := (renews_participate h nc).comp (f := fun p : PR × NucleonData ℝ × (Fin n → NucleonData ℝ) => (p.1.1, p.2.1)) (by fun_prop)
    have hcnt : Measurable fun q : Bool × ℕ => if q.1 && cn then q.2 + 1 else q.2 := measurable_of_countable _
    have hor : Measurable fun q : Bool × Bool => q.1 || q.2 := measurable_of_countable _
    have h2 := ih.comp (f := fun q : (PR × NucleonData ℝ × (Fin n → NucleonData ℝ)) × (Bool × NucleonData ℝ × NucleonData ℝ) =>
        ((q.2.2.1, (if q.2.1 && cn then q.1.1.2.1 + 1 else q.1.1.2.1), (q.2.1 || q.1.1.2.2)), q.1.2.2))
      (Measurable.prodMk (Measurable.prodMk (by fun_prop) (Measurable.prodMk
          (hcnt.comp (Measurable.prodMk (f := fun q : (PR × NucleonData ℝ × (Fin n → NucleonData ℝ)) × (Bool × NucleonData ℝ × NucleonData ℝ) => q.2.1)
            (g := fun q => q.1.1.2.1) (by fun_prop) (by fun_prop)))
          (hor.comp (Measurable.prodMk (f := fun q : (PR × NucleonData ℝ × (Fin n → NucleonData ℝ)) × (Bool × NucleonData ℝ × NucleonData ℝ) => q.2.1)
            (g := fun q => q.1.1.2.2) (by fun_prop) (by fun_prop))))) (by fun_prop))
    have h3 := h2.map (f := fun q : ((PR × NucleonData ℝ × (Fin n → NucleonData ℝ)) × (Bool × NucleonData ℝ × NucleonData ℝ)) ×
        (NucleonData ℝ × List (NucleonData ℝ) × ℕ × Bool) => (q.2.1, q.1.2.2.2 :: q.2.2.1, q.2.2.2.1, q.2.2.2.2))
      (Measurable.prodMk (by fun_prop) (Measurable.prodMk (Measurable.cons (by fun_prop) (by fun_prop)) (by fun_prop)))
    exact (h1.bind h3).congr fun p w => rfl

/-- target nucleons, collisions so far, collision flag -/
abbrev PL := List (NucleonData ℝ) × ℕ × Bool

theorem renews_pairLoop (nc : NucleonCommon ℝ) (cn : Bool) :
    Renews μ fun (p : PL × List (NucleonData ℝ)) (w : Rand E D) => .ok (pairLoop nc cn p.2 p.1.1 p.1.2.1 p.1.2.2 w) := by
  have := h.prob
  refine Renews.listRec (P := fun (y : PL) As w => .ok (pairLoop nc cn As y.1 y.2.1 y.2.2 w)) ?_ fun n ih => ?_
  · exact (Renews.pure (q := fun y : PL => (([] : List (NucleonData ℝ)), y.1, y.2.1, y.2.2)) (by fun_prop)).congr fun y w => rfl
  · have h1 := (renews_pairRow h nc cn).comp (f := fun p : PL × NucleonData ℝ × (Fin n → NucleonData ℝ) => ((p.2.1, p.1.2.1, p.1.2.2), p.1.1)) (by fun_prop)
    have h2 := ih.comp (f := fun q : (PL × NucleonData ℝ × (Fin n → NucleonData ℝ)) × (NucleonData ℝ × List (NucleonData ℝ) × ℕ × Bool) =>
        ((q.2.2.1, q.2.2.2.1, q.2.2.2.2), q.1.2.2)) (by fun_prop)
    have h3 := h2.map (f := fun q : ((PL × NucleonData ℝ × (Fin n → NucleonData ℝ)) × (NucleonData ℝ × List (NucleonData ℝ) × ℕ × Bool)) ×
        (List (NucleonData ℝ) × List (NucleonData ℝ) × ℕ × Bool) => (q.1.2.1 :: q.2.1, q.2.2.1, q.2.2.2.1, q.2.2.2.2))
      (Measurable.prodMk (Measurable.cons (by fun_prop) (by fun_prop)) (by fun_prop))
    exact (h1.bind h3).congr fun p w => rfl

end

end Trento
