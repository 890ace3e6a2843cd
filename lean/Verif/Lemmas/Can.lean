import Verif.Lemmas.Complete

/-! # What a program can do: outcomes of positive probability -/

namespace Trento
open MeasureTheory Set Spec Filter Topology
open scoped ENNReal

section
variable {α β Y W I : Type} [MeasurableSpace W] {μ : I → Measure W}

/-- with positive probability, whatever the state of knowledge, the program completes with a result in `G` -/
def Can (μ : I → Measure W) (P : W → Res (α × W)) (G : Set α) : Prop := ∀ i, (μ i) {w | ∃ t, P w = .ok t ∧ t.1 ∈ G} ≠ 0

theorem Can.mono {P : W → Res (α × W)} {Q : W → Res (β × W)} {G : Set α} {H : Set β} (hP : Can μ P G)
    (h : ∀ w t, P w = .ok t → t.1 ∈ G → ∃ t', Q w = .ok t' ∧ t'.1 ∈ H) : Can μ Q H := by
  intro i hz
  refine hP i (measure_mono_null ?_ hz)
  rintro w ⟨t, h1, h2⟩
  exact h w t h1 h2

theorem Can.total [∀ i, IsProbabilityMeasure (μ i)] (T : W → α × W) : Can μ (fun w => .ok (T w)) univ := by
  intro i
  have : {w | ∃ t, (.ok (T w) : Res (α × W)) = .ok t ∧ t.1 ∈ (univ : Set α)} = univ := by ext w; simp
  rw [this]
  simp

theorem Can.always [∀ i, IsProbabilityMeasure (μ i)] {T : W → α × W} {G : Set α} (h : ∀ w, (T w).1 ∈ G) : Can μ (fun w => .ok (T w)) G :=
  (Can.total T).mono fun w _ _ _ => ⟨_, rfl, h w⟩

variable [MeasurableSpace α] [MeasurableSpace β] [∀ i, IsProbabilityMeasure (μ i)]

theorem Can.bind {P : W → Res (α × W)} {S : α → W → Res (β × W)} (rP : Renews μ fun (_ : Unit) w => P w) (rS : Renews μ S) {G : Set α} {H : Set β}
    (hH : MeasurableSet H) (hP : Can μ P G) (hS : ∀ a ∈ G, Can μ (S a) H) : Can μ (fun w => bindR (P w) S) H := by
  intro i hz
  have hg : Measurable fun t : α × W => ifOk (S t.1 t.2) (fun t' => H.indicator (1 : β → ℝ≥0∞) t'.1) :=
    measurable_ifOk (r := fun t : α × W => S t.1 t.2) (g := fun _ t' => H.indicator (1 : β → ℝ≥0∞) t'.1) rS.meas
      ((measurable_one.indicator hH).comp (measurable_fst.comp measurable_snd))
  have hinv : Inv μ fun t : α × W => ifOk (S t.1 t.2) (fun t' => H.indicator (1 : β → ℝ≥0∞) t'.1) := fun a i j =>
    rS.const a (measurable_one.indicator hH) i j
  have e := rP.law () _ hg hinv i i i
  have hφ : Measurable fun a : α => ∫⁻ w', ifOk (S a w') (fun t' => H.indicator (1 : β → ℝ≥0∞) t'.1) ∂(μ i) :=
    hg.lintegral_prod_right'
  have hl : ∫⁻ w, ifOk (P w) (fun t : α × W => ifOk (S t.1 t.2) (fun t' => H.indicator (1 : β → ℝ≥0∞) t'.1)) ∂(μ i) = 0 := by
    rw [lintegral_eq_zero_iff (measurable_ifOk (r := P) (g := fun _ t => ifOk (S t.1 t.2) (fun t' => H.indicator (1 : β → ℝ≥0∞) t'.1)) rP.meas1 (hg.comp measurable_snd))]
    refine measure_mono_null ?_ hz
    intro w hw
    by_contra hn
    apply hw
    show ifOk (P w) (fun t : α × W => ifOk (S t.1 t.2) (fun t' => H.indicator (1 : β → ℝ≥0∞) t'.1)) = 0
    cases hp : P w with
    | error e => rfl
    | ok t =>
      show ifOk (S t.1 t.2) (fun t' => H.indicator (1 : β → ℝ≥0∞) t'.1) = 0
      cases hs : S t.1 t.2 with
      | error e => rfl
      | ok t' =>
        refine indicator_of_notMem (fun hm => hn ⟨t', ?_, hm⟩) _
        simp only [bindR, hp, hs]
  rw [hl] at e
  have hm2 : Measurable fun w => ifOk (P w) (fun t : α × W => ∫⁻ w', ifOk (S t.1 w') (fun t' => H.indicator (1 : β → ℝ≥0∞) t'.1) ∂(μ i)) :=
    measurable_ifOk (r := P) (g := fun _ t => ∫⁻ w', ifOk (S t.1 w') (fun t' => H.indicator (1 : β → ℝ≥0∞) t'.1) ∂(μ i)) rP.meas1
      (hφ.comp (measurable_fst.comp measurable_snd))
  have e2 := (lintegral_eq_zero_iff hm2).mp e.symm
  refine hP i (measure_mono_null ?_ e2)
  rintro w ⟨t, h1, h2⟩ hw
  have hw' : ifOk (P w) (fun t : α × W => ∫⁻ w', ifOk (S t.1 w') (fun t' => H.indicator (1 : β → ℝ≥0∞) t'.1) ∂(μ i)) = 0 := hw
  rw [h1] at hw'
  simp only [ifOk] at hw'
  have hm3 : Measurable fun w' => ifOk (S t.1 w') (fun t' => H.indicator (1 : β → ℝ≥0∞) t'.1) := hg.comp (measurable_const.prodMk measurable_id)
  have h3 := (lintegral_eq_zero_iff hm3).mp hw'
  refine hS t.1 h2 i (measure_mono_null ?_ h3)
  rintro w' ⟨t', h4, h5⟩ h6
  have h6' : ifOk (S t.1 w') (fun t' => H.indicator (1 : β → ℝ≥0∞) t'.1) = 0 := h6
  rw [h4] at h6'
  simp only [ifOk, indicator_of_mem h5, Pi.one_apply, one_ne_zero] at h6'

end

section
variable {E D : Type} [Rng ℝ E D] [MeasurableSpace E] [MeasurableSpace D] {I : Type} {μ : I → Measure (Rand E D)} (h : FreshSource E D μ)
include h

theorem can_canonical {S : Set ℝ} (hS : MeasurableSet S) (h0 : unif S ≠ 0) : Can μ (fun w : Rand E D => .ok (canonical (F := ℝ) w)) S := by
  have := h.prob
  intro i
  obtain ⟨j, hj⟩ := h.canonical_law i
  have e : (μ i) {w | ∃ t, (.ok (canonical (F := ℝ) w) : Res (ℝ × Rand E D)) = .ok t ∧ t.1 ∈ S} = unif S := by
    have : {w : Rand E D | ∃ t, (.ok (canonical (F := ℝ) w) : Res (ℝ × Rand E D)) = .ok t ∧ t.1 ∈ S} = (fun w => canonical (F := ℝ) w) ⁻¹' (S ×ˢ univ) := by
      ext w
      simp
    rw [this, ← Measure.map_apply h.canonical_meas (hS.prod MeasurableSet.univ), hj, Measure.prod_prod]
    rw [measure_univ, mul_one]
    rfl
  rw [e]
  exact h0

omit h [Rng ℝ E D] [MeasurableSpace E] [MeasurableSpace D] in
theorem unif_Ioo {a b : ℝ} (ha : 0 ≤ a) (hb : b ≤ 1) (hab : a < b) : unif (Ioo a b) ≠ 0 := by
  unfold unif
  rw [Measure.restrict_apply measurableSet_Ioo, inter_eq_left.mpr (show Ioo a b ⊆ Ico 0 1 from fun x hx => ⟨ha.trans hx.1.le, hx.2.trans_le hb⟩)]
  simp [hab]

theorem can_interval {a b : ℝ} (ha : 0 ≤ a) (hb : b ≤ 1) (hab : a < b) : Can μ (fun w : Rand E D => .ok (canonical (F := ℝ) w)) (Ioo a b) :=
  can_canonical h measurableSet_Ioo (unif_Ioo ha hb hab)

/-- polar angles close to zero -/
theorem can_cosTheta {δ : ℝ} (hδ : 0 < δ) : Can μ (fun w : Rand E D => .ok (cosTheta (F := ℝ) w)) {c | |c| ≤ 1 ∧ 1 - c * c < δ} := by
  have hm : 0 < min (δ/4) (1/2) := by positivity
  refine (can_interval h (a := 1 - min (δ/4) (1/2)) (b := 1) (by linarith [min_le_right (δ/4) (1/2)]) le_rfl (by linarith)).mono ?_
  intro w t ht hG
  refine ⟨_, rfl, ?_⟩
  cases ht
  have e : (cosTheta (F := ℝ) w).1 = 2 * (canonical (F := ℝ) w).1 - 1 := by simp only [cosTheta, lit_real]; norm_num
  obtain ⟨h1, h2⟩ := hG
  have h3 := min_le_left (δ/4) (1/2)
  have h4 := min_le_right (δ/4) (1/2)
  simp only [mem_ofPred_eq, e]
  constructor
  · rw [abs_le]; constructor <;> linarith
  · nlinarith

/-! ### Collisions -/

omit h [MeasurableSpace E] [MeasurableSpace D] in
theorem pairRow_sticky (nc : NucleonCommon ℝ) (cn : Bool) (a : NucleonData ℝ) (Bs : List (NucleonData ℝ)) (n : ℕ) (w : Rand E D) :
    (pairRow nc cn a Bs n true w).1.2.2.2 = true := by
  induction Bs generalizing a n w with
  | nil => rfl
  | cons b Bs ih =>
    rw [pairRow]
    simp only [Bool.or_true]
    exact ih _ _ _

omit h [MeasurableSpace E] [MeasurableSpace D] in
theorem pairLoop_sticky (nc : NucleonCommon ℝ) (cn : Bool) (As Bs : List (NucleonData ℝ)) (n : ℕ) (w : Rand E D) :
    (pairLoop nc cn As Bs n true w).1.2.2.2 = true := by
  induction As generalizing Bs n w with
  | nil => rfl
  | cons a As ih =>
    rw [pairLoop]
    simp only [pairRow_sticky]
    exact ih _ _ _

omit h [MeasurableSpace E] [MeasurableSpace D] in
theorem pairLoop_first (nc : NucleonCommon ℝ) (cn : Bool) (a b : NucleonData ℝ) (As Bs : List (NucleonData ℝ)) (n : ℕ) (coll : Bool) (w : Rand E D)
    (hp : (nc.participate a b w).1.1 = true) : (pairLoop nc cn (a :: As) (b :: Bs) n coll w).1.2.2.2 = true := by
  rw [pairLoop]
  rw [pairRow]
  simp only [hp, Bool.true_or, pairRow_sticky]
  exact pairLoop_sticky _ _ _ _ _ _

omit h [Rng ℝ E D] [MeasurableSpace E] [MeasurableSpace D] in
theorem overlapSum_pos (v : ℝ) {as bs : List (Constituent ℝ)} (ha : as ≠ []) (hb : bs ≠ []) : 0 < overlapSum v as bs := by
  have inner : ∀ (q : Constituent ℝ) (bs : List (Constituent ℝ)) (acc : ℝ), acc ≤ bs.foldl (fun acc qB =>
      let distanceSq := sqr (q.x - qB.x) + sqr (q.y - qB.y)
      acc + exp (-(lit 0.25) * distanceSq / v)) acc ∧ (bs ≠ [] → acc < bs.foldl (fun acc qB =>
      let distanceSq := sqr (q.x - qB.x) + sqr (q.y - qB.y)
      acc + exp (-(lit 0.25) * distanceSq / v)) acc) := by
    intro q bs
    induction bs with
    | nil => intro acc; simp
    | cons b bs ih =>
      intro acc
      simp only [List.foldl_cons]
      have h1 : acc < acc + exp (-(lit 0.25) * (sqr (q.x - b.x) + sqr (q.y - b.y)) / v) := by
        rw [exp_real]; linarith [Real.exp_pos (-(lit 0.25) * (sqr (q.x - b.x) + sqr (q.y - b.y)) / v)]
      have h2 := (ih (acc + exp (-(lit 0.25) * (sqr (q.x - b.x) + sqr (q.y - b.y)) / v))).1
      exact ⟨h1.le.trans h2, fun _ => h1.trans_le h2⟩
  have outer : ∀ (as : List (Constituent ℝ)) (acc : ℝ), acc ≤ as.foldl (fun acc qA => bs.foldl (fun acc qB =>
      let distanceSq := sqr (qA.x - qB.x) + sqr (qA.y - qB.y)
      acc + exp (-(lit 0.25) * distanceSq / v)) acc) acc := by
    intro as
    induction as with
    | nil => intro acc; exact le_rfl
    | cons a as ih =>
      intro acc
      simp only [List.foldl_cons]
      exact (inner a bs acc).1.trans (ih _)
  unfold overlapSum
  match as, ha with
  | a :: as, _ =>
    simp only [List.foldl_cons]
    have h0 : (lit 0 : ℝ) = 0 := by simp
    rw [h0]
    exact ((inner a bs 0).2 hb).trans_le (outer as _)

omit h [MeasurableSpace E] [MeasurableSpace D] in
theorem sampleConstituents_nonempty (nc : NucleonCommon ℝ) (hm : nc.constituentNumber ≠ 0) (n : NucleonData ℝ) (hn : n.constituentsExist = false)
    (w : Rand E D) : (nc.sampleConstituents n w).1.constituents ≠ [] := by
  unfold NucleonCommon.sampleConstituents
  simp only [hn, Bool.false_eq_true, if_false]
  obtain ⟨k, hk⟩ := Nat.exists_eq_succ_of_ne_zero hm
  rw [hk]
  simp [drawConstituents]

/-- two nucleons within reach of each other can collide -/
theorem can_participate (nc : NucleonCommon ℝ) (hm : nc.constituentNumber ≠ 0) (hσ : 0 < nc.sigmaPartonic) (hp : 0 < nc.prefactor) (a b : NucleonData ℝ)
    (ha : Fresh a) (hb : Fresh b) (hd : (a.x - b.x)^2 + (a.y - b.y)^2 ≤ nc.maxImpactSq) :
    Can μ (fun w : Rand E D => .ok (nc.participate a b w)) {r | r.1 = true} := by
  have := h.prob
  have hpr : ∀ as bs : List (Constituent ℝ), as ≠ [] → bs ≠ [] → nc.oneMinusProb (overlapSum nc.constituentWidthSq as bs) < 1 := by
    intro as bs has hbs
    unfold NucleonCommon.oneMinusProb
    rw [exp_real, ← Real.exp_zero, Real.exp_lt_exp]
    have h1 := overlapSum_pos nc.constituentWidthSq has hbs
    have h2 : (0:ℝ) < lit 2 * ofInt nc.constituentNumber := by
      have : (0:ℝ) < nc.constituentNumber := by exact_mod_cast Nat.pos_of_ne_zero hm
      simp only [lit_real, ofInt_real]
      push_cast
      linarith
    have h3 : -nc.sigmaPartonic * nc.prefactor / (lit 2 * ofInt nc.constituentNumber) < 0 := div_neg_of_neg_of_pos (by nlinarith [mul_pos hσ hp]) h2
    nlinarith
  -- constituents of a, of b, then the uniform number
  have rA : Renews μ fun (_ : Unit) (w : Rand E D) => .ok (nc.sampleConstituents a w) := (renews_sampleConstituents h nc).comp (measurable_const (a := a))
  have rB : Renews μ fun (_ : NucleonData ℝ) (w : Rand E D) => .ok (nc.sampleConstituents b w) := (renews_sampleConstituents h nc).comp (measurable_const (a := b))
  have rC : Renews μ fun (_ : NucleonData ℝ × NucleonData ℝ) (w : Rand E D) => .ok (canonical (F := ℝ) w) := renews_canonical h
  have r2 := rC.map (f := fun q => (q.1, q.2)) (by fun_prop)
  have hov : Measurable fun q : (NucleonData ℝ × NucleonData ℝ) × ℝ =>
      nc.oneMinusProb (overlapSum nc.constituentWidthSq q.1.1.constituents q.1.2.constituents) := by
    have h1 : Measurable fun q : (NucleonData ℝ × NucleonData ℝ) × ℝ => overlapSum nc.constituentWidthSq q.1.1.constituents q.1.2.constituents :=
      overlapSum_meas _ (nucleon_cs.comp (by fun_prop)) (nucleon_cs.comp (by fun_prop))
    exact Real.measurable_exp.comp (h1.const_mul _)
  have hH : MeasurableSet {q : (NucleonData ℝ × NucleonData ℝ) × ℝ | nc.oneMinusProb (overlapSum nc.constituentWidthSq q.1.1.constituents q.1.2.constituents) < q.2} :=
    measurableSet_lt hov measurable_snd
  have r1 := rB.bind (S := fun q w => bindR (.ok (canonical (F := ℝ) w)) fun u w => .ok ((q, u), w)) r2
  have c2 : ∀ q : NucleonData ℝ × NucleonData ℝ, q.1.constituents ≠ [] ∧ q.2.constituents ≠ [] →
      Can μ (fun w : Rand E D => bindR (.ok (canonical (F := ℝ) w)) fun u w => .ok ((q, u), w))
        {q | nc.oneMinusProb (overlapSum nc.constituentWidthSq q.1.1.constituents q.1.2.constituents) < q.2} := by
    intro q hq
    have h1 := hpr _ _ hq.1 hq.2
    have h0 : 0 ≤ nc.oneMinusProb (overlapSum nc.constituentWidthSq q.1.constituents q.2.constituents) := by
      unfold NucleonCommon.oneMinusProb; rw [exp_real]; exact (Real.exp_pos _).le
    refine (can_interval h h0 le_rfl h1).mono ?_
    intro w t ht hG
    cases ht
    exact ⟨_, rfl, hG.1⟩
  have c1 : ∀ a' : NucleonData ℝ, a'.constituents ≠ [] →
      Can μ (fun w : Rand E D => bindR (.ok (nc.sampleConstituents b w)) fun b' w => bindR (.ok (canonical (F := ℝ) w)) fun u w => .ok (((a', b'), u), w))
        {q | nc.oneMinusProb (overlapSum nc.constituentWidthSq q.1.1.constituents q.1.2.constituents) < q.2} := by
    intro a' ha'
    refine Can.bind (G := {b' | b'.constituents ≠ []}) ((renews_sampleConstituents h nc).comp (measurable_const (a := b)))
      (r2.comp (f := fun b' => (a', b')) (by fun_prop)) hH (Can.always fun w => sampleConstituents_nonempty nc hm b hb.2 w)
      (fun b' hb' => c2 (a', b') ⟨ha', hb'⟩)
  have c0 := Can.bind (G := {a' | a'.constituents ≠ []}) rA r1 hH (Can.always fun w => sampleConstituents_nonempty nc hm a ha.2 w)
    (fun a' ha' => c1 a' ha')
  refine c0.mono ?_
  intro w t ht hG
  refine ⟨_, rfl, ?_⟩
  unfold NucleonCommon.participate
  have hfar : lt nc.maxImpactSq (sqr (a.x - b.x) + sqr (a.y - b.y)) = false := by
    simp only [lt_real, sqr_real, decide_eq_false_iff_not, not_lt]
    exact hd
  simp only [ha.1, Bool.false_and, Bool.false_eq_true, if_false, hfar]
  simp only [bindR, Except.ok.injEq] at ht
  rw [← ht] at hG
  simp only [mem_ofPred_eq] at hG
  simp only [lt_real, hG, decide_true, if_true, mem_ofPred_eq]
end

end Trento
