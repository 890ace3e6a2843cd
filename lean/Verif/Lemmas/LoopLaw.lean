import Verif.Lemmas.Loop
import Verif.Lemmas.MeasModel
import Mathlib.Probability.ConditionalProbability
import Mathlib.MeasureTheory.Measure.Prod

/-!
# The law of a rejection loop without a bound

A draw takes a value and a new state from a state; it may fail to end (`none`).  Its states come from a finite family of laws `β b` (the
distribution objects of the C++ library may hold a saved number or not); after the draw the state is a mixture of them, independent of the value.
-/

namespace Trento
open MeasureTheory Set
open scoped ENNReal

section option
variable {α β Z : Type} [MeasurableSpace α] [MeasurableSpace β] [MeasurableSpace Z]

/-- A set of optional values is measurable if its values are. -/
instance : MeasurableSpace (Option α) := (inferInstance : MeasurableSpace α).map some

theorem measurableSet_option {s : Set (Option α)} : MeasurableSet s ↔ MeasurableSet (some ⁻¹' s) := Iff.rfl

theorem measurable_some : Measurable (some : α → Option α) := fun _ hs => measurableSet_option.1 hs

theorem embedding_some : MeasurableEmbedding (some : α → Option α) := by
  refine ⟨fun a b h => by cases h; rfl, measurable_some, fun s hs => measurableSet_option.2 ?_⟩
  rwa [preimage_image_eq _ fun a b h => by cases h; rfl]

theorem measurableSet_none : MeasurableSet ({none} : Set (Option α)) := by
  rw [measurableSet_option]
  have : (some : α → Option α) ⁻¹' {none} = ∅ := by ext; simp
  rw [this]; exact MeasurableSet.empty

theorem measurable_optElim {o : Z → Option α} {n : Z → β} {g : Z → α → β} (ho : Measurable o) (hn : Measurable n)
    (hg : Measurable fun p : Z × α => g p.1 p.2) : Measurable fun z => (o z).elim (n z) (g z) := by
  have h : Measurable fun p : Z × Option α => p.2.elim (n p.1) (g p.1) := by
    intro s hs
    have e : (fun p : Z × Option α => p.2.elim (n p.1) (g p.1)) ⁻¹' s =
        ((n ⁻¹' s) ×ˢ {none}) ∪ (Prod.map id some) '' ((fun p : Z × α => g p.1 p.2) ⁻¹' s) := by
      ext ⟨z, r⟩
      cases r <;> simp
    rw [e]
    exact ((hn hs).prod measurableSet_none).union ((MeasurableEmbedding.id.prodMap embedding_some).measurableSet_image.mpr (hg hs))
  exact h.comp (measurable_id.prodMk ho)

theorem measurable_optMap {o : Z → Option α} {g : Z → α → β} (ho : Measurable o) (hg : Measurable fun p : Z × α => g p.1 p.2) :
    Measurable fun z => (o z).map (g z) := by
  have := measurable_optElim (n := fun _ => (none : Option β)) (g := fun z a => some (g z a)) ho measurable_const (measurable_some.comp hg)
  convert this using 2 with z
  cases o z <;> rfl

theorem measurable_optBind {o : Z → Option α} {g : Z → α → Option β} (ho : Measurable o) (hg : Measurable fun p : Z × α => g p.1 p.2) :
    Measurable fun z => (o z).bind (g z) := by
  have := measurable_optElim (n := fun _ => (none : Option β)) (g := g) ho measurable_const hg
  convert this using 2 with z
  cases o z <;> rfl

theorem measurable_sumElim {γ : Type} [MeasurableSpace γ] {o : Z → α ⊕ β} {f : Z → α → γ} {g : Z → β → γ} (ho : Measurable o)
    (hf : Measurable fun p : Z × α => f p.1 p.2) (hg : Measurable fun p : Z × β => g p.1 p.2) : Measurable fun z => (o z).elim (f z) (g z) := by
  have h : Measurable fun p : Z × (α ⊕ β) => p.2.elim (f p.1) (g p.1) := by
    intro s hs
    have e : (fun p : Z × (α ⊕ β) => p.2.elim (f p.1) (g p.1)) ⁻¹' s =
        (Prod.map id Sum.inl) '' ((fun p : Z × α => f p.1 p.2) ⁻¹' s) ∪ (Prod.map id Sum.inr) '' ((fun p : Z × β => g p.1 p.2) ⁻¹' s) := by
      ext ⟨z, r⟩
      cases r <;> simp
    rw [e]
    have el : MeasurableEmbedding (Sum.inl : α → α ⊕ β) := ⟨Sum.inl_injective, measurable_inl, fun _ h => h.inl_image⟩
    have er : MeasurableEmbedding (Sum.inr : β → α ⊕ β) := ⟨Sum.inr_injective, measurable_inr, fun _ h => measurableSet_inr_image.2 h⟩
    exact ((MeasurableEmbedding.id.prodMap el).measurableSet_image.mpr (hf hs)).union
      ((MeasurableEmbedding.id.prodMap er).measurableSet_image.mpr (hg hs))
  exact h.comp (measurable_id.prodMk ho)
end option

variable {α γ W Y : Type} [MeasurableSpace α] [MeasurableSpace γ] [MeasurableSpace W] [MeasurableSpace Y]

/-! ### Loops are measurable -/

theorem loopN_meas {step : W → Option (α ⊕ W)} (h : Measurable step) (n : ℕ) : Measurable (loopN step n) := by
  induction n with
  | zero => exact measurable_const
  | succ n ih =>
    have := measurable_optBind (g := fun (_ : W) (r : α ⊕ W) => r.elim some (loopN step n)) h
      (measurable_sumElim (f := fun _ a => some a) (g := fun _ w => loopN step n w) measurable_snd (measurable_some.comp measurable_snd)
        (ih.comp measurable_snd))
    convert this using 2 with w
    rw [loopN]
    rcases step w with _ | (a | w') <;> rfl

theorem loop_meas {step : W → Option (α ⊕ W)} (h : Measurable step) : Measurable (loop step) := by
  classical
  have hs : ∀ t : Set α, MeasurableSet t → MeasurableSet (loop step ⁻¹' (some '' t)) := by
    intro t ht
    have : loop step ⁻¹' (some '' t) = ⋃ n, loopN step n ⁻¹' (some '' t) := by
      ext w
      simp only [mem_preimage, mem_image, mem_iUnion]
      constructor
      · rintro ⟨a, ha, hw⟩
        obtain ⟨n, hn⟩ := loop_eq_some.1 hw.symm
        exact ⟨n, a, ha, hn.symm⟩
      · rintro ⟨n, a, ha, hn⟩
        exact ⟨a, ha, (loop_eq_some.2 ⟨n, hn.symm⟩).symm⟩
    rw [this]
    exact MeasurableSet.iUnion fun n => loopN_meas h n (embedding_some.measurableSet_image.2 ht)
  intro t ht
  have e : loop step ⁻¹' t = loop step ⁻¹' (some '' (some ⁻¹' t)) ∪ (if none ∈ t then (loop step ⁻¹' (some '' univ))ᶜ else ∅) := by
    ext w
    simp only [mem_preimage, mem_union]
    cases hw : loop step w with
    | none =>
      split
      · next hn => simp [hn, hw]
      · next hn => simp [hn]
    | some a =>
      split
      · simp [hw]
      · simp
  rw [e]
  refine (hs _ (measurableSet_option.1 ht)).union ?_
  split
  · exact (hs _ MeasurableSet.univ).compl
  · exact MeasurableSet.empty

/-! ### Draws -/

/-- A draw of a value with law `ν`, from states with the laws `β b`. -/
structure PDraw {B : Type} [Fintype B] (β : B → Measure W) (T : W → Option (α × W)) (ν : Measure α) : Prop where
  meas : Measurable T
  law : ∃ K : B → B → ℝ≥0∞, (∀ b, ∑ b', K b b' = 1) ∧ ∀ b (g : α × W → ℝ≥0∞), Measurable g →
    ∫⁻ w, (T w).elim 0 g ∂β b = ∑ b', K b b' * ∫⁻ w, ∫⁻ a, g (a, w) ∂ν ∂β b'

variable {B : Type} [Fintype B] {β : B → Measure W} [∀ b, IsProbabilityMeasure (β b)]

omit [∀ b, IsProbabilityMeasure (β b)] in
theorem PDraw.map {T : W → Option (α × W)} {ν : Measure α} (h : PDraw β T ν) {f : α → γ} (hf : Measurable f) :
    PDraw β (fun w => (T w).map fun t => (f t.1, t.2)) (ν.map f) := by
  obtain ⟨K, hK, hl⟩ := h.law
  refine ⟨measurable_optMap (g := fun _ t => (f t.1, t.2)) h.meas
    ((hf.comp (measurable_fst.comp measurable_snd)).prodMk (measurable_snd.comp measurable_snd)), K, hK, fun b g hg => ?_⟩
  have := hl b (fun t => g (f t.1, t.2)) (hg.comp ((hf.comp measurable_fst).prodMk measurable_snd))
  refine Eq.trans (lintegral_congr fun w => ?_) (this.trans ?_)
  · cases T w <;> rfl
  · refine Finset.sum_congr rfl fun b' _ => ?_
    congr 1
    refine lintegral_congr fun w => ?_
    exact (lintegral_map (f := fun c => g (c, w)) (hg.comp (measurable_id.prodMk measurable_const)) hf).symm

/-- two draws in turn are independent -/
theorem PDraw.pair {T : W → Option (α × W)} {S : W → Option (γ × W)} {ν : Measure α} {ρ : Measure γ} [SFinite ν] [SFinite ρ] (hT : PDraw β T ν)
    (hS : PDraw β S ρ) : PDraw β (fun w => (T w).bind fun t => (S t.2).map fun s => ((t.1, s.1), s.2)) (ν.prod ρ) := by
  obtain ⟨K, hK, hl⟩ := hT.law
  obtain ⟨L, hL, hl2⟩ := hS.law
  refine ⟨?_, fun b b'' => ∑ b', K b b' * L b' b'', fun b => ?_, fun b g hg => ?_⟩
  · refine measurable_optBind (g := fun _ t => (S t.2).map fun s => ((t.1, s.1), s.2)) hT.meas ?_
    exact measurable_optMap (Z := W × (α × W)) (g := fun p s => ((p.2.1, s.1), s.2)) (hS.meas.comp (measurable_snd.comp measurable_snd)) (by fun_prop)
  · rw [Finset.sum_comm]
    simp only [← Finset.mul_sum, hL, mul_one, hK]
  · have hG : Measurable fun t : α × W => (S t.2).elim 0 fun s => g ((t.1, s.1), s.2) :=
      measurable_optElim (Z := α × W) (n := fun _ => (0:ℝ≥0∞)) (g := fun (t : α × W) (s : γ × W) => g ((t.1, s.1), s.2)) (hS.meas.comp measurable_snd) measurable_const
        (hg.comp (show Measurable fun p : (α × W) × (γ × W) => ((p.1.1, p.2.1), p.2.2) by fun_prop))
    have h1 := hl b _ hG
    refine Eq.trans (lintegral_congr fun w => ?_) (h1.trans ?_)
    · rcases T w with _ | t
      · rfl
      · show ((S t.2).map fun s => ((t.1, s.1), s.2)).elim 0 g = (S t.2).elim 0 fun s => g ((t.1, s.1), s.2)
        cases S t.2 <;> rfl
    · have hsw : ∀ b', ∫⁻ w, ∫⁻ a, (S w).elim 0 (fun s => g ((a, s.1), s.2)) ∂ν ∂β b' =
          ∑ b'', L b' b'' * ∫⁻ w, ∫⁻ p, g (p, w) ∂(ν.prod ρ) ∂β b'' := by
        intro b'
        rw [lintegral_lintegral_swap (f := fun w a => (S w).elim 0 (fun s => g ((a, s.1), s.2)))
          (hG.comp measurable_swap).aemeasurable]
        have h2 : ∀ a, ∫⁻ w, (S w).elim 0 (fun s => g ((a, s.1), s.2)) ∂β b' = ∑ b'', L b' b'' * ∫⁻ w, ∫⁻ c, g ((a, c), w) ∂ρ ∂β b'' :=
          fun a => hl2 b' (fun s => g ((a, s.1), s.2)) (hg.comp (show Measurable fun s : γ × W => ((a, s.1), s.2) by fun_prop))
        simp only [h2]
        have hm : ∀ b'', Measurable fun a => ∫⁻ w, ∫⁻ c, g ((a, c), w) ∂ρ ∂β b'' := by
          intro b''
          have h3 : Measurable fun p : (α × W) × γ => g ((p.1.1, p.2), p.1.2) :=
            hg.comp (show Measurable fun p : (α × W) × γ => ((p.1.1, p.2), p.1.2) by fun_prop)
          have h4 : Measurable fun p : α × W => ∫⁻ c, g ((p.1, c), p.2) ∂ρ := h3.lintegral_prod_right'
          exact h4.lintegral_prod_right'
        rw [lintegral_finsetSum _ fun b'' _ => (hm b'').const_mul _]
        refine Finset.sum_congr rfl fun b'' _ => ?_
        rw [lintegral_const_mul _ (hm b'')]
        congr 1
        have h3 : Measurable fun p : (α × W) × γ => g ((p.1.1, p.2), p.1.2) :=
            hg.comp (show Measurable fun p : (α × W) × γ => ((p.1.1, p.2), p.1.2) by fun_prop)
        have h4 : Measurable fun p : α × W => ∫⁻ c, g ((p.1, c), p.2) ∂ρ := h3.lintegral_prod_right'
        rw [lintegral_lintegral_swap (f := fun a w => ∫⁻ c, g ((a, c), w) ∂ρ) h4.aemeasurable]
        refine lintegral_congr fun w => ?_
        exact (lintegral_prod (fun p => g (p, w)) (hg.comp (measurable_id.prodMk measurable_const)).aemeasurable).symm
      simp only [hsw, Finset.mul_sum, Finset.sum_mul]
      rw [Finset.sum_comm]
      refine Finset.sum_congr rfl fun b'' _ => Finset.sum_congr rfl fun b' _ => ?_
      rw [mul_assoc]

/-! ### Rejection loops -/

open scoped Classical in
/-- one pass of a rejection loop: draw, accept and deliver `f`, or go on -/
noncomputable def stepOf (T : W → Option (α × W)) (acc : Set α) (f : α → γ) (w : W) : Option ((γ × W) ⊕ W) :=
  (T w).map fun t => if t.1 ∈ acc then .inl (f t.1, t.2) else .inr t.2

theorem stepOf_meas {T : W → Option (α × W)} (hT : Measurable T) {acc : Set α} (ha : MeasurableSet acc) {f : α → γ} (hf : Measurable f) :
    Measurable (stepOf T acc f) := by
  classical
  refine measurable_optMap (g := fun _ t => if t.1 ∈ acc then (Sum.inl (f t.1, t.2) : (γ × W) ⊕ W) else .inr t.2) hT ?_
  refine Measurable.ite ((measurable_fst.comp measurable_snd) ha) ?_ ?_
  · exact measurable_inl.comp ((hf.comp (measurable_fst.comp measurable_snd)).prodMk (measurable_snd.comp measurable_snd))
  · exact measurable_inr.comp (measurable_snd.comp measurable_snd)

/-- the weights of the states after at most `n` passes -/
noncomputable def loopWeight (K : B → B → ℝ≥0∞) (q : ℝ≥0∞) [DecidableEq B] : ℕ → B → B → ℝ≥0∞
  | 0, _, _ => 0
  | n+1, b, b'' => ∑ b', K b b' * ((if b' = b'' then 1 else 0) + q * loopWeight K q n b' b'')

omit [∀ b, IsProbabilityMeasure (β b)] in
theorem loopN_law [DecidableEq B] {T : W → Option (α × W)} {ν : Measure α} [IsProbabilityMeasure ν] {K : B → B → ℝ≥0∞} (hT : Measurable T)
    (hl : ∀ b (g : α × W → ℝ≥0∞), Measurable g → ∫⁻ w, (T w).elim 0 g ∂β b = ∑ b', K b b' * ∫⁻ w, ∫⁻ a, g (a, w) ∂ν ∂β b')
    {acc : Set α} (ha : MeasurableSet acc) {f : α → γ} (hf : Measurable f) (n : ℕ) (b : B) (g : γ × W → ℝ≥0∞) (hg : Measurable g) :
    ∫⁻ w, (loopN (stepOf T acc f) n w).elim 0 g ∂β b =
      ∑ b'', loopWeight K (ν accᶜ) n b b'' * ∫⁻ w, ∫⁻ a in acc, g (f a, w) ∂ν ∂β b'' := by
  classical
  induction n generalizing b with
  | zero => simp [loopN, loopWeight]
  | succ n ih =>
    have hgm : Measurable fun t : α × W => g (f t.1, t.2) := hg.comp ((hf.comp measurable_fst).prodMk measurable_snd)
    have hlm : Measurable fun w => (loopN (stepOf T acc f) n w).elim 0 g :=
      measurable_optElim (n := fun _ => (0:ℝ≥0∞)) (g := fun _ t => g t) (loopN_meas (stepOf_meas hT ha hf) n) measurable_const (hg.comp measurable_snd)
    have hG : Measurable fun t : α × W => acc.indicator (fun _ => g (f t.1, t.2)) t.1 +
        accᶜ.indicator (fun _ => (loopN (stepOf T acc f) n t.2).elim 0 g) t.1 := by
      refine Measurable.add ?_ ?_
      · exact Measurable.indicator (s := Prod.fst ⁻¹' acc) hgm (measurable_fst ha)
      · exact Measurable.indicator (s := Prod.fst ⁻¹' accᶜ) (hlm.comp measurable_snd) (measurable_fst ha.compl)
    have h1 := hl b _ hG
    refine Eq.trans (lintegral_congr fun w => ?_) (h1.trans ?_)
    · rw [loopN, stepOf]
      rcases T w with _ | t
      · rfl
      · by_cases hm : t.1 ∈ acc <;> simp [hm]
    · have hsplit : ∀ b', ∫⁻ w, ∫⁻ a, acc.indicator (fun _ => g (f a, w)) a + accᶜ.indicator (fun _ => (loopN (stepOf T acc f) n w).elim 0 g) a ∂ν ∂β b' =
          (∫⁻ w, ∫⁻ a in acc, g (f a, w) ∂ν ∂β b') + ν accᶜ * ∫⁻ w, (loopN (stepOf T acc f) n w).elim 0 g ∂β b' := by
        intro b'
        have hin : ∀ w, ∫⁻ a, acc.indicator (fun _ => g (f a, w)) a + accᶜ.indicator (fun _ => (loopN (stepOf T acc f) n w).elim 0 g) a ∂ν =
            (∫⁻ a in acc, g (f a, w) ∂ν) + ν accᶜ * (loopN (stepOf T acc f) n w).elim 0 g := by
          intro w
          have e1 : (fun a => acc.indicator (fun _ => g (f a, w)) a) = acc.indicator (fun a => g (f a, w)) := by
            funext a; by_cases h : a ∈ acc <;> simp [h]
          rw [lintegral_add_right _ (measurable_const.indicator ha.compl), e1, lintegral_indicator ha, lintegral_indicator_const ha.compl, mul_comm]
        simp only [hin]
        rw [lintegral_add_right _ (hlm.const_mul _), lintegral_const_mul _ hlm]
      simp only [hsplit, ih]
      simp only [loopWeight, Finset.sum_mul, Finset.mul_sum, mul_add]
      rw [Finset.sum_comm' (s := Finset.univ) (t := fun _ => Finset.univ) (t' := Finset.univ) (s' := fun _ => Finset.univ) (by simp)]
      refine Finset.sum_congr rfl fun b' _ => ?_
      have : ∑ x, (K b b' * (if b' = x then 1 else 0) + K b b' * (ν accᶜ * loopWeight K (ν accᶜ) n b' x)) *
          ∫⁻ w, ∫⁻ a in acc, g (f a, w) ∂ν ∂β x =
          K b b' * ∫⁻ w, ∫⁻ a in acc, g (f a, w) ∂ν ∂β b' +
          ∑ x, K b b' * (ν accᶜ * (loopWeight K (ν accᶜ) n b' x * ∫⁻ w, ∫⁻ a in acc, g (f a, w) ∂ν ∂β x)) := by
        simp only [add_mul, Finset.sum_add_distrib]
        congr 1
        · simp
        · refine Finset.sum_congr rfl fun x _ => ?_
          ring
      rw [this]

theorem loopWeight_mono [DecidableEq B] (K : B → B → ℝ≥0∞) (q : ℝ≥0∞) (b b'' : B) : Monotone fun n => loopWeight K q n b b'' := by
  refine monotone_nat_of_le_succ fun n => ?_
  induction n generalizing b b'' with
  | zero => simp [loopWeight]
  | succ n ih =>
    rw [loopWeight, loopWeight]
    refine Finset.sum_le_sum fun b' _ => ?_
    gcongr
    exact ih b' b''

theorem loopWeight_sum [DecidableEq B] {K : B → B → ℝ≥0∞} (hK : ∀ b, ∑ b', K b b' = 1) (q : ℝ≥0∞) (n : ℕ) (b : B) :
    ∑ b'', loopWeight K q n b b'' = ∑ i ∈ Finset.range n, q ^ i := by
  induction n generalizing b with
  | zero => simp [loopWeight]
  | succ n ih =>
    simp only [loopWeight]
    rw [Finset.sum_comm]
    simp only [← Finset.mul_sum, Finset.sum_add_distrib, ih]
    simp only [Finset.sum_ite_eq, Finset.mem_univ, if_true]
    rw [← Finset.sum_mul, hK, one_mul, Finset.sum_range_succ']
    simp only [pow_succ, ← Finset.sum_mul, pow_zero]
    ring

omit [∀ b, IsProbabilityMeasure (β b)] in
/-- **A rejection loop** draws from the law of the accepted values. -/
theorem PDraw.rejection {T : W → Option (α × W)} {ν : Measure α} [IsProbabilityMeasure ν] (h : PDraw β T ν) {acc : Set α} (ha : MeasurableSet acc)
    (hpos : ν acc ≠ 0) {f : α → γ} (hf : Measurable f) : PDraw β (loop (stepOf T acc f)) ((ProbabilityTheory.cond ν acc).map f) := by
  classical
  obtain ⟨K, hK, hl⟩ := h.law
  have hp1 : ν acc ≠ ⊤ := measure_ne_top _ _
  have hq : ν accᶜ = 1 - ν acc := prob_compl_eq_one_sub ha
  have hp : 1 - ν accᶜ = ν acc := by
    rw [hq]; exact ENNReal.sub_sub_cancel ENNReal.one_ne_top prob_le_one
  set S : B → B → ℝ≥0∞ := fun b b'' => ⨆ n, loopWeight K (ν accᶜ) n b b'' with hS
  have hsum : ∀ b, ∑ b'', S b b'' = (ν acc)⁻¹ := by
    intro b
    rw [hS, ENNReal.finsetSum_iSup_of_monotone fun b'' => loopWeight_mono K _ b b'']
    simp only [loopWeight_sum hK]
    rw [← ENNReal.tsum_eq_iSup_nat, ENNReal.tsum_geometric, hp]
  refine ⟨loop_meas (stepOf_meas h.meas ha hf), fun b b'' => ν acc * S b b'', fun b => ?_, fun b g hg => ?_⟩
  · rw [← Finset.mul_sum, hsum, ENNReal.mul_inv_cancel hpos hp1]
  · have hlm : ∀ n, Measurable fun w => (loopN (stepOf T acc f) n w).elim 0 g := fun n =>
      measurable_optElim (n := fun _ => (0:ℝ≥0∞)) (g := fun _ t => g t) (loopN_meas (stepOf_meas h.meas ha hf) n) measurable_const (hg.comp measurable_snd)
    have hmono : Monotone fun n w => (loopN (stepOf T acc f) n w).elim 0 g := by
      refine monotone_nat_of_le_succ fun n w => ?_
      show (loopN (stepOf T acc f) n w).elim 0 g ≤ (loopN (stepOf T acc f) (n+1) w).elim 0 g
      cases hw : loopN (stepOf T acc f) n w with
      | none => exact zero_le
      | some t => rw [loopN_succ hw]
    have hsup : ∀ w, (loop (stepOf T acc f) w).elim 0 g = ⨆ n, (loopN (stepOf T acc f) n w).elim 0 g := by
      intro w
      cases hw : loop (stepOf T acc f) w with
      | none =>
        have : ∀ n, loopN (stepOf T acc f) n w = none := by
          intro n
          cases hn : loopN (stepOf T acc f) n w with
          | none => rfl
          | some t => rw [loop_eq_some.2 ⟨n, hn⟩] at hw; cases hw
        simp [this]
      | some t =>
        obtain ⟨n, hn⟩ := loop_eq_some.1 hw
        apply le_antisymm
        · exact le_trans (by rw [hn]) (le_iSup (fun n => (loopN (stepOf T acc f) n w).elim 0 g) n)
        · refine iSup_le fun m => ?_
          cases hm : loopN (stepOf T acc f) m w with
          | none => exact zero_le
          | some t' =>
            have := loop_eq_some.2 ⟨m, hm⟩
            rw [hw] at this
            cases this
            exact le_rfl
    simp only [hsup]
    rw [lintegral_iSup hlm hmono]
    simp only [loopN_law h.meas hl ha hf _ b g hg]
    rw [← ENNReal.finsetSum_iSup_of_monotone fun b'' => (fun i j hij => by
      gcongr
      exact loopWeight_mono K _ b b'' hij)]
    refine Finset.sum_congr rfl fun b'' _ => ?_
    rw [← ENNReal.iSup_mul, mul_comm (ν acc) (S b b''), mul_assoc]
    congr 1
    have hin : ∀ w, ∫⁻ c, g (c, w) ∂((ProbabilityTheory.cond ν acc).map f) = (ν acc)⁻¹ * ∫⁻ a in acc, g (f a, w) ∂ν := by
      intro w
      rw [lintegral_map (f := fun c => g (c, w)) (hg.comp (measurable_id.prodMk measurable_const)) hf, ProbabilityTheory.cond, lintegral_smul_measure]
      rfl
    simp only [hin]
    have hm2 : Measurable fun w => ∫⁻ a in acc, g (f a, w) ∂ν := by
      have : Measurable fun p : W × α => g (f p.2, p.1) := hg.comp ((hf.comp measurable_snd).prodMk measurable_fst)
      exact this.lintegral_prod_right'
    rw [lintegral_const_mul _ hm2, ← mul_assoc, ENNReal.mul_inv_cancel hpos hp1, one_mul]

/-! ### More state, and total functions -/

/-- a draw that leaves part of the state alone -/
theorem PDraw.lift {C V : Type} [Fintype C] [DecidableEq C] [MeasurableSpace V] {T : W → Option (α × W)} {ν : Measure α} [SFinite ν] (h : PDraw β T ν)
    (ρ : C → Measure Y) [∀ c, IsProbabilityMeasure (ρ c)] {i : W × Y → V} {o : V → W × Y} (hi : Measurable i) (ho : Measurable o) (hoi : ∀ p, o (i p) = p) :
    PDraw (fun b : B × C => ((β b.1).prod (ρ b.2)).map i) (fun v => (T (o v).1).map fun t => (t.1, i (t.2, (o v).2))) ν := by
  obtain ⟨K, hK, hl⟩ := h.law
  have hm : Measurable fun v => (T (o v).1).map fun t => (t.1, i (t.2, (o v).2)) :=
    measurable_optMap (g := fun v t => (t.1, i (t.2, (o v).2))) (h.meas.comp (measurable_fst.comp ho))
      ((measurable_fst.comp measurable_snd).prodMk (hi.comp ((measurable_snd.comp measurable_snd).prodMk (measurable_snd.comp (ho.comp measurable_fst)))))
  refine ⟨hm, fun b b' => if b.2 = b'.2 then K b.1 b'.1 else 0, fun b => ?_, fun b g hg => ?_⟩
  · rw [Fintype.sum_prod_type]
    simp [hK]
  · have hgm : Measurable fun v => ((T (o v).1).map fun t => (t.1, i (t.2, (o v).2))).elim 0 g :=
      measurable_optElim (n := fun _ => (0:ℝ≥0∞)) (g := fun _ t => g t) hm measurable_const (hg.comp measurable_snd)
    rw [lintegral_map hgm hi]
    have e : ∀ p : W × Y, ((T (o (i p)).1).map fun t => (t.1, i (t.2, (o (i p)).2))).elim 0 g = (T p.1).elim 0 fun t => g (t.1, i (t.2, p.2)) := by
      intro p
      rw [hoi]
      cases T p.1 <;> rfl
    simp only [e]
    have hm2 : Measurable fun p : W × Y => (T p.1).elim 0 fun t => g (t.1, i (t.2, p.2)) :=
      measurable_optElim (n := fun _ => (0:ℝ≥0∞)) (g := fun (p : W × Y) (t : α × W) => g (t.1, i (t.2, p.2))) (h.meas.comp measurable_fst) measurable_const
        (hg.comp ((measurable_fst.comp measurable_snd).prodMk (hi.comp ((measurable_snd.comp measurable_snd).prodMk (measurable_snd.comp measurable_fst)))))
    rw [lintegral_prod_symm _ hm2.aemeasurable]
    have h2 : ∀ y, ∫⁻ w, (T w).elim 0 (fun t => g (t.1, i (t.2, y))) ∂β b.1 = ∑ b', K b.1 b' * ∫⁻ w, ∫⁻ a, g (a, i (w, y)) ∂ν ∂β b' :=
      fun y => hl b.1 _ (hg.comp (measurable_fst.prodMk (hi.comp (measurable_snd.prodMk measurable_const))))
    simp only [h2]
    have hm3 : Measurable fun p : W × Y => ∫⁻ a, g (a, i p) ∂ν := by
      have : Measurable fun p : (W × Y) × α => g (p.2, i p.1) := hg.comp (measurable_snd.prodMk (hi.comp measurable_fst))
      exact this.lintegral_prod_right'
    have hm4 : ∀ b', Measurable fun y => ∫⁻ w, ∫⁻ a, g (a, i (w, y)) ∂ν ∂β b' := fun b' =>
      Measurable.lintegral_prod_left' hm3
    rw [lintegral_finsetSum _ fun b' _ => (hm4 b').const_mul _, Fintype.sum_prod_type]
    refine Finset.sum_congr rfl fun b' _ => ?_
    rw [lintegral_const_mul _ (hm4 b')]
    simp only [ite_mul, zero_mul, Finset.sum_ite_eq, Finset.mem_univ, if_true]
    congr 1
    rw [lintegral_map (by
      have : Measurable fun p : V × α => g (p.2, p.1) := hg.comp measurable_swap
      exact this.lintegral_prod_right') hi, lintegral_prod_symm _ hm3.aemeasurable]

omit [∀ b, IsProbabilityMeasure (β b)] in
/-- a mixture of the laws of the state -/
noncomputable def mixture (β : B → Measure W) (c : B → ℝ≥0∞) : Measure W := ∑ b, c b • β b

omit [∀ b, IsProbabilityMeasure (β b)] in
theorem lintegral_mixture (c : B → ℝ≥0∞) (g : W → ℝ≥0∞) : ∫⁻ w, g w ∂mixture β c = ∑ b, c b * ∫⁻ w, g w ∂β b := by
  unfold mixture
  rw [lintegral_finsetSum_measure]
  refine Finset.sum_congr rfl fun b _ => ?_
  rw [lintegral_smul_measure]
  rfl

theorem mixture_prob {c : B → ℝ≥0∞} (hc : ∑ b, c b = 1) : IsProbabilityMeasure (mixture β c) := by
  constructor
  have := lintegral_mixture (β := β) c (fun _ => 1)
  simp at this
  rw [this, hc]

/-- A draw with any value in place of the one that does not come (almost never). -/
theorem PDraw.total {T : W → Option (α × W)} {ν : Measure α} [IsProbabilityMeasure ν] (h : PDraw β T ν) {dflt : W → α × W} (hd : Measurable dflt) :
    (Measurable fun w => (T w).getD (dflt w)) ∧ ∃ K : B → B → ℝ≥0∞, (∀ b, ∑ b', K b b' = 1) ∧
      ∀ c : B → ℝ≥0∞, ∑ b, c b = 1 → (∑ b', ∑ b, c b * K b b' = 1) ∧
        (mixture β c).map (fun w => (T w).getD (dflt w)) = ν.prod (mixture β fun b' => ∑ b, c b * K b b') := by
  obtain ⟨K, hK, hl⟩ := h.law
  have hm : Measurable fun w => (T w).getD (dflt w) := by
    have := measurable_optElim (n := dflt) (g := fun _ t => t) h.meas hd measurable_snd
    convert this using 2 with w
    cases T w <;> rfl
  refine ⟨hm, K, hK, fun c hc => ?_⟩
  have hc' : ∑ b', ∑ b, c b * K b b' = 1 := by
    rw [Finset.sum_comm]
    simp only [← Finset.mul_sum, hK, mul_one, hc]
  refine ⟨hc', ?_⟩
  have p1 := mixture_prob (β := β) hc
  have p2 := mixture_prob (β := β) hc'
  -- the draw comes almost surely
  have hsome : ∀ᵐ w ∂mixture β c, T w ≠ none := by
    have h1 : ∫⁻ w, (T w).elim 0 (fun _ => 1) ∂mixture β c = 1 := by
      rw [lintegral_mixture]
      have : ∀ b, ∫⁻ w, (T w).elim 0 (fun _ => (1:ℝ≥0∞)) ∂β b = 1 := by
        intro b
        rw [hl b (fun _ => 1) measurable_const]
        simp [hK]
      simp [this, hc]
    have hms : MeasurableSet {w | T w ≠ none} := (h.meas measurableSet_none).compl
    have h2 : mixture β c {w | T w ≠ none} = 1 := by
      rw [← lintegral_indicator_one hms]
      refine Eq.trans (lintegral_congr fun w => ?_) h1
      by_cases hw : T w = none
      · simp [hw]
      · obtain ⟨t, ht⟩ := Option.ne_none_iff_exists'.1 hw
        simp [ht]
    rw [← prob_compl_eq_zero_iff hms] at h2
    exact h2
  refine Measure.ext_of_lintegral _ fun g hg => ?_
  rw [lintegral_map hg hm]
  have h3 : ∫⁻ w, g ((T w).getD (dflt w)) ∂mixture β c = ∫⁻ w, (T w).elim 0 g ∂mixture β c := by
    refine lintegral_congr_ae (hsome.mono fun w hw => ?_)
    obtain ⟨t, ht⟩ := Option.ne_none_iff_exists'.1 hw
    simp [ht]
  rw [h3, lintegral_mixture, lintegral_prod_symm _ hg.aemeasurable, lintegral_mixture]
  simp only [hl _ g hg, Finset.mul_sum, Finset.sum_mul]
  rw [Finset.sum_comm]
  refine Finset.sum_congr rfl fun b' _ => Finset.sum_congr rfl fun b _ => ?_
  rw [mul_assoc]

end Trento
