import Verif.Lemmas.Retry
import Mathlib.MeasureTheory.Constructions.Pi

/-! # Repeating a program that renews the source: independent results -/

namespace Trento
open MeasureTheory Set Spec
open scoped ENNReal

variable {α W I : Type} [MeasurableSpace α] [MeasurableSpace W]

/-- run a program `k` times and collect the results -/
def iter (P : W → Res (α × W)) : ℕ → W → Res (List α × W)
  | 0, w => .ok ([], w)
  | k+1, w => bindR (P w) fun a w => bindR (iter P k w) fun l w => .ok (a :: l, w)

/-- the product of `F m`, `F (m+1)`, … of the elements of a list -/
noncomputable def prodFrom (F : ℕ → α → ℝ≥0∞) : ℕ → List α → ℝ≥0∞
  | _, [] => 1
  | m, a :: l => F m a * prodFrom F (m+1) l

theorem prodFrom_meas {F : ℕ → α → ℝ≥0∞} (hF : ∀ m, Measurable (F m)) (m : ℕ) : Measurable (prodFrom F m) := by
  have hFj : Measurable fun p : ℕ × α => F p.1 p.2 := measurable_from_prod_countable_right hF
  have h := measurable_list_rec (Y := ℕ) (α := α) (f := fun m l => prodFrom F m l) measurable_const (fun n ih => by
    have h1 := ih (Z := ℕ × α × (Fin n → α)) (y := fun p => p.1 + 1) (v := fun p => p.2.2) (by fun_prop) (by fun_prop)
    exact (hFj.comp (measurable_fst.prodMk (measurable_fst.comp measurable_snd))).mul h1)
  exact h.comp (measurable_const.prodMk measurable_id)

variable {μ : I → Measure W} [∀ i, IsProbabilityMeasure (μ i)]

theorem Renews.iter {P : W → Res (α × W)} (hP : Renews μ fun (_ : Unit) w => P w) (k : ℕ) : Renews μ fun (_ : Unit) w => iter P k w := by
  induction k with
  | zero => exact Renews.pure (q := fun _ : Unit => ([] : List α)) measurable_const
  | succ k ih =>
    have h1 := (ih.comp (measurable_const (a := ()) : Measurable fun _ : Unit × α => ())).map (f := fun p : (Unit × α) × List α => p.1.2 :: p.2)
      (Measurable.cons (by fun_prop) (by fun_prop))
    exact (hP.bind h1).congr fun y w => rfl

/-- **Product formula.** -/
theorem iter_prod {P : W → Res (α × W)} (hP : Renews μ fun (_ : Unit) w => P w) {F : ℕ → α → ℝ≥0∞} (hF : ∀ m, Measurable (F m)) (k m : ℕ) (i j : I) :
    ∫⁻ w, ifOk (iter P k w) (fun t => prodFrom F m t.1) ∂(μ i) = ∏ l ∈ Finset.range k, ∫⁻ w, ifOk (P w) (fun t => F (m+l) t.1) ∂(μ j) := by
  induction k generalizing m i with
  | zero => simp [Trento.iter, ifOk, prodFrom]
  | succ k ih =>
    let H : W → ℝ≥0∞ := fun w => ifOk (Trento.iter P k w) (fun t => prodFrom F (m+1) t.1)
    have hH : Measurable H := ifOk_meas1 (hP.iter k) ((prodFrom_meas hF (m+1)).comp measurable_fst)
    let g : α × W → ℝ≥0∞ := fun p => F m p.1 * H p.2
    have hg : Measurable g := ((hF m).comp measurable_fst).mul (hH.comp measurable_snd)
    set C := ∏ l ∈ Finset.range k, ∫⁻ w, ifOk (P w) (fun t => F (m+1+l) t.1) ∂(μ j) with hC
    have hint : ∀ a i', ∫⁻ w, g (a, w) ∂(μ i') = F m a * C := by
      intro a i'
      show ∫⁻ w, F m a * H w ∂(μ i') = _
      rw [lintegral_const_mul _ hH]
      congr 1
      exact ih (m+1) i'
    have e1 : ∫⁻ w, ifOk (Trento.iter P (k+1) w) (fun t => prodFrom F m t.1) ∂(μ i) = ∫⁻ w, ifOk (P w) g ∂(μ i) := by
      refine lintegral_congr fun w => ?_
      rw [Trento.iter, ifOk_bindR]
      congr 1
      funext t
      rw [ifOk_bindR]
      simp only [g, H]
      cases Trento.iter P k t.2 <;> simp [ifOk, prodFrom]
    rw [e1, hP.law () g hg (fun a i' j' => by rw [hint, hint]) i j j]
    simp only [hint]
    have hm : Measurable fun w => ifOk (P w) fun t => F m t.1 := ifOk_meas1 hP ((hF m).comp measurable_fst)
    have e2 : ∫⁻ w, ifOk (P w) (fun t => F m t.1 * C) ∂(μ j) = (∫⁻ w, ifOk (P w) (fun t => F m t.1) ∂(μ j)) * C := by
      rw [← lintegral_mul_const _ hm]
      refine lintegral_congr fun w => ?_
      cases P w <;> simp [ifOk]
    rw [e2, Finset.prod_range_succ', mul_comm, Nat.add_zero, hC]
    congr 1
    refine Finset.prod_congr rfl fun l _ => ?_
    rw [Nat.add_right_comm m 1 l]
    rfl

omit [MeasurableSpace α] [MeasurableSpace W] in
theorem iter_length {P : W → Res (α × W)} {k : ℕ} {w : W} {t : List α × W} (h : iter P k w = .ok t) : t.1.length = k := by
  induction k generalizing w t with
  | zero => cases h; rfl
  | succ k ih =>
    rw [iter] at h
    cases h1 : P w with
    | error e => rw [h1] at h; cases h
    | ok a =>
      rw [h1] at h
      simp only [bindR] at h
      cases h2 : iter P k a.2 with
      | error e => rw [h2] at h; cases h
      | ok l =>
        rw [h2] at h
        simp only [Except.ok.injEq] at h
        rw [← h]
        simp [ih h2]

/-! ### The law of the results of the runs that succeed -/

/-- the law of the result, restricted to success -/
noncomputable def okLaw (ν : Measure W) (r : W → Res α) : Measure α := (ν.map r).comap Except.ok

theorem okLaw_apply {ν : Measure W} {r : W → Res α} (hr : Measurable r) {s : Set α} (hs : MeasurableSet s) : okLaw ν r s = ν {w | ∃ a, r w = .ok a ∧ a ∈ s} := by
  unfold okLaw
  rw [embedding_ok.comap_apply, Measure.map_apply hr (embedding_ok.measurableSet_image.mpr hs)]
  congr 1
  ext w
  simp only [mem_preimage, mem_image, mem_ofPred_eq]
  exact ⟨fun ⟨a, ha, e⟩ => ⟨a, e.symm, ha⟩, fun ⟨a, e, ha⟩ => ⟨a, ha, e.symm⟩⟩

theorem lintegral_okLaw {ν : Measure W} {r : W → Res α} (hr : Measurable r) {f : α → ℝ≥0∞} (hf : Measurable f) : ∫⁻ a, f a ∂(okLaw ν r) = ∫⁻ w, ifOk (r w) f ∂ν := by
  have hF : Measurable fun x : Res α => ifOk x f := measurable_ifOk (g := fun _ => f) measurable_id (hf.comp measurable_snd)
  have e1 : ∫⁻ a, f a ∂(okLaw ν r) = ∫⁻ x, ifOk x f ∂((okLaw ν r).map Except.ok) := by
    rw [lintegral_map hF measurable_ok]
    rfl
  rw [e1, okLaw, embedding_ok.map_comap, ← lintegral_map hF hr, ← lintegral_indicator embedding_ok.measurableSet_range]
  refine lintegral_congr fun x => ?_
  cases x with
  | error e => simp [indicator, ifOk]
  | ok a => simp [indicator]

instance okLaw_finite {ν : Measure W} [IsFiniteMeasure ν] {r : W → Res α} : IsFiniteMeasure (okLaw ν r) := by
  unfold okLaw
  exact ⟨by rw [embedding_ok.comap_apply]; exact measure_lt_top _ _⟩

theorem prodFrom_indicator {k : ℕ} (S : ℕ → Set α) (m : ℕ) (v : Fin k → α) :
    prodFrom (fun l => (S l).indicator 1) m (List.ofFn v) = ({v : Fin k → α | ∀ l : Fin k, v l ∈ S (m + l)} : Set (Fin k → α)).indicator 1 v := by
  induction k generalizing m with
  | zero => simp [prodFrom, indicator]
  | succ k ih =>
    rw [List.ofFn_succ, prodFrom, ih]
    have hiff : v ∈ {v : Fin (k+1) → α | ∀ l : Fin (k+1), v l ∈ S (m + l)} ↔ v 0 ∈ S m ∧ ∀ l : Fin k, v l.succ ∈ S (m + 1 + l) := by
      rw [mem_ofPred_eq, Fin.forall_fin_succ]
      refine and_congr (by simp) (forall_congr' fun l => ?_)
      rw [Fin.val_succ, Nat.add_assoc m 1, Nat.add_comm 1]
    have hset : {v : Fin (k+1) → α | ∀ l : Fin (k+1), v l ∈ S (m + l)}.indicator (1 : (Fin (k+1) → α) → ℝ≥0∞) v =
        (S m).indicator 1 (v 0) * {v : Fin k → α | ∀ l : Fin k, v l ∈ S (m + 1 + l)}.indicator 1 (fun l => v l.succ) := by
      by_cases h0 : v 0 ∈ S m
      · by_cases h1 : ∀ l : Fin k, v l.succ ∈ S (m + 1 + l)
        · rw [indicator_of_mem (hiff.mpr ⟨h0, h1⟩), indicator_of_mem h0, indicator_of_mem (by exact h1)]; simp
        · rw [indicator_of_notMem (fun h => h1 (hiff.mp h).2), indicator_of_notMem (a := fun l : Fin k => v l.succ) (by exact h1)]; simp
      · rw [indicator_of_notMem (fun h => h0 (hiff.mp h).1), indicator_of_notMem h0]; simp
    rw [hset]

/-- **Independence.** The law of `k` results is a product measure. -/
theorem iter_law {P : W → Res (α × W)} (hP : Renews μ fun (_ : Unit) w => P w) (k : ℕ) (i j : I) :
    (okLaw (μ i) fun w => (iter P k w).map Prod.fst).comap (List.ofFn : (Fin k → α) → List α) =
      Measure.pi fun _ : Fin k => okLaw (μ j) fun w => (P w).map Prod.fst := by
  have hmap : ∀ {β : Type} [MeasurableSpace β] {r : W → Res (β × W)}, Measurable r → Measurable fun w => (r w).map Prod.fst := by
    intro β _ r hr
    refine measurable_of_eq (measurable_exBind (r := r) (g := fun _ a => .ok a.1) hr (measurable_ok.comp (by fun_prop))) fun w => ?_
    cases r w <;> rfl
  have h1 : Measurable fun w => (P w).map Prod.fst := hmap hP.meas1
  have hk : Measurable fun w => (Trento.iter P k w).map Prod.fst := hmap (hP.iter k).meas1
  symm
  refine Measure.pi_eq fun s hs => ?_
  have hS : MeasurableSet (Set.pi univ s) := MeasurableSet.univ_pi hs
  rw [(embedding_ofFn k).comap_apply]
  let S : ℕ → Set α := fun l => if h : l < k then s ⟨l, h⟩ else univ
  have hSm : ∀ l, MeasurableSet (S l) := by
    intro l
    simp only [S]
    split
    · exact hs _
    · exact MeasurableSet.univ
  have hF : ∀ l, Measurable ((S l).indicator (1 : α → ℝ≥0∞)) := fun l => measurable_one.indicator (hSm l)
  have e := iter_prod hP (F := fun l => (S l).indicator 1) hF k 0 i j
  simp only [Nat.zero_add] at e
  have e3 : ∀ l : Fin k, ∫⁻ w, ifOk (P w) (fun t => (S l).indicator 1 t.1) ∂(μ j) = okLaw (μ j) (fun w => (P w).map Prod.fst) (s l) := by
    intro l
    rw [← lintegral_indicator_one (hs l), lintegral_okLaw h1 (measurable_one.indicator (hs l))]
    refine lintegral_congr fun w => ?_
    simp only [S, l.2, dif_pos]
    cases P w <;> rfl
  rw [Finset.prod_range] at e
  simp only [e3] at e
  rw [← e, ← lintegral_indicator_one ((embedding_ofFn k).measurableSet_image.mpr hS),
    lintegral_okLaw hk (measurable_one.indicator ((embedding_ofFn k).measurableSet_image.mpr hS))]
  refine lintegral_congr fun w => ?_
  cases h : Trento.iter P k w with
  | error e => rfl
  | ok t =>
    obtain ⟨l, w'⟩ := t
    have hl := iter_length h
    simp only at hl
    obtain ⟨v, rfl⟩ : ∃ v : Fin k → α, List.ofFn v = l := by
      subst hl
      exact ⟨l.get, List.ofFn_get l⟩
    simp only [Except.map, ifOk]
    rw [prodFrom_indicator S 0 v]
    have hmem : List.ofFn v ∈ List.ofFn '' Set.pi univ s ↔ v ∈ {v : Fin k → α | ∀ i : Fin k, v i ∈ S (0 + i)} := by
      rw [List.ofFn_injective.mem_set_image]
      simp [S]
    by_cases hm : List.ofFn v ∈ List.ofFn '' Set.pi univ s
    · rw [indicator_of_mem hm, indicator_of_mem (hmem.mp hm)]; rfl
    · rw [indicator_of_notMem hm, indicator_of_notMem (fun h => hm (hmem.mpr h))]

end Trento
