import Verif.Lemmas.Placement

/-!
# Rejection loops with an ideal source

A trial draws a proposal; the loop repeats trials until one is accepted.
-/

namespace Trento
open MeasureTheory Set Real Spec
open scoped ENNReal Classical

variable {E D : Type} [Rng ℝ E D] [MeasurableSpace E] {μ : Measure E}

/-- A draw: the value has the law `ν` and is independent of the engine after it, which has the law `μ` again. -/
structure IsDraw {α : Type} [MeasurableSpace α] (μ : Measure E) (T : E → α × E) (ν : Measure α) : Prop where
  prob : IsProbabilityMeasure ν
  meas : Measurable T
  law : ∀ g : α × E → ℝ≥0∞, Measurable g → ∫⁻ e, g (T e) ∂μ = ∫⁻ a, ∫⁻ e, g (a, e) ∂μ ∂ν

/-- the uniform law on `[0, 1)` -/
noncomputable def unif : Measure ℝ := volume.restrict (Ico (0:ℝ) 1)

instance : IsProbabilityMeasure unif := ⟨by simp [unif]⟩

theorem Spec.IdealSource.isDraw_can (h : IdealSource E D μ) : IsDraw μ (can E D) unif :=
  ⟨inferInstance, h.can_meas, fun _ hg => h.can_lintegral hg⟩

section
variable {α β : Type} [MeasurableSpace α] [MeasurableSpace β]

/-- two draws in a row -/
def pairDraw (T : E → α × E) (S : E → β × E) (e : E) : (α × β) × E := (((T e).1, (S (T e).2).1), (S (T e).2).2)

theorem IsDraw.pair [SFinite μ] {T : E → α × E} {S : E → β × E} {ν : Measure α} {ρ : Measure β} (hT : IsDraw μ T ν) (hS : IsDraw μ S ρ) :
    IsDraw μ (pairDraw T S) (ν.prod ρ) := by
  have := hT.prob
  have := hS.prob
  have h2 : Measurable fun e => S (T e).2 := hS.meas.comp (measurable_snd.comp hT.meas)
  refine ⟨inferInstance, ((measurable_fst.comp hT.meas).prodMk (measurable_fst.comp h2)).prodMk (measurable_snd.comp h2), ?_⟩
  intro g hg
  have hc : Measurable fun t : α × E => S t.2 := hS.meas.comp measurable_snd
  have hm : Measurable fun t : α × E => g ((t.1, (S t.2).1), (S t.2).2) :=
    hg.comp ((measurable_fst.prodMk (measurable_fst.comp hc)).prodMk (measurable_snd.comp hc))
  have e1 := hT.law _ hm
  have e2 : ∫⁻ e, g (pairDraw T S e) ∂μ = ∫⁻ a, ∫⁻ e, g ((a, (S e).1), (S e).2) ∂μ ∂ν := e1
  rw [e2, lintegral_prod]
  · apply lintegral_congr
    intro a
    have hm2 : Measurable fun t : β × E => g ((a, t.1), t.2) :=
      hg.comp ((measurable_const.prodMk measurable_fst).prodMk measurable_snd)
    exact hS.law _ hm2
  · exact (hg.lintegral_prod_right').aemeasurable

/-- the rejection loop -/
noncomputable def rejLoop (T : E → α × E) (acc : Set α) : ℕ → E → Option (α × E)
  | 0, _ => none
  | n+1, e => if (T e).1 ∈ acc then some (T e) else rejLoop T acc n (T e).2

theorem rejLoop_meas {T : E → α × E} {ν : Measure α} (hT : IsDraw μ T ν) {acc : Set α} (ha : MeasurableSet acc) {Y : Type} [MeasurableSpace Y]
    {c : Y → ℝ≥0∞} (hc : Measurable c) {k : Y → α × E → ℝ≥0∞} (hk : Measurable fun t : Y × (α × E) => k t.1 t.2) (n : ℕ) {e : Y → E}
    (he : Measurable e) : Measurable fun y => (rejLoop T acc n (e y)).elim (c y) (k y) := by
  induction n generalizing e with
  | zero => simpa [rejLoop] using hc
  | succ n ih =>
    have hTe : Measurable fun y => T (e y) := hT.meas.comp he
    have e1 : ∀ y, (rejLoop T acc (n+1) (e y)).elim (c y) (k y) = if (T (e y)).1 ∈ acc then k y (T (e y)) else
        (rejLoop T acc n (T (e y)).2).elim (c y) (k y) := by
      intro y
      rw [rejLoop]
      split <;> rfl
    simp only [e1]
    exact Measurable.ite (ha.preimage (measurable_fst.comp hTe)) (hk.comp (measurable_id.prodMk hTe)) (ih (measurable_snd.comp hTe))

theorem rejLoop_step {T : E → α × E} {ν : Measure α} (hT : IsDraw μ T ν) {acc : Set α} (ha : MeasurableSet acc) {c : ℝ≥0∞}
    {k : α × E → ℝ≥0∞} (hk : Measurable k) (n : ℕ) :
    ∫⁻ e, (rejLoop T acc (n+1) e).elim c k ∂μ =
      ∫⁻ a, (if a ∈ acc then ∫⁻ e, k (a, e) ∂μ else ∫⁻ e, (rejLoop T acc n e).elim c k ∂μ) ∂ν := by
  have hm : Measurable fun t : α × E => if t.1 ∈ acc then k t else (rejLoop T acc n t.2).elim c k := by
    refine Measurable.ite (ha.preimage measurable_fst) hk ?_
    exact rejLoop_meas hT ha (measurable_const) (k := fun _ => k) (hk.comp measurable_snd) n measurable_snd
  have e1 : ∀ e, (rejLoop T acc (n+1) e).elim c k =
      (fun t : α × E => if t.1 ∈ acc then k t else (rejLoop T acc n t.2).elim c k) (T e) := by
    intro e
    rw [rejLoop]
    dsimp only
    split <;> rfl
  simp only [e1]
  rw [hT.law _ hm]
  apply lintegral_congr
  intro a
  by_cases h : a ∈ acc
  · simp only [h, if_true]
  · simp only [h, if_false]

theorem rejLoop_congr {T : E → α × E} {ν : Measure α} (hT : IsDraw μ T ν) {acc : Set α} (ha : MeasurableSet acc) {c : ℝ≥0∞}
    {k1 k2 : α × E → ℝ≥0∞} (h1 : Measurable k1) (h2 : Measurable k2) (hk : ∀ a, ∫⁻ e, k1 (a, e) ∂μ = ∫⁻ e, k2 (a, e) ∂μ) (n : ℕ) :
    ∫⁻ e, (rejLoop T acc n e).elim c k1 ∂μ = ∫⁻ e, (rejLoop T acc n e).elim c k2 ∂μ := by
  induction n with
  | zero => simp [rejLoop]
  | succ n ih => rw [rejLoop_step hT ha h1, rejLoop_step hT ha h2]; simp only [ih, hk]

/-- The probability that `n` trials are all rejected. -/
theorem rejLoop_fail [IsProbabilityMeasure μ] {T : E → α × E} {ν : Measure α} (hT : IsDraw μ T ν) {acc : Set α} (ha : MeasurableSet acc) (n : ℕ) :
    μ {e | rejLoop T acc n e = none} = ν accᶜ ^ n := by
  have hind : ∀ n, ∫⁻ e, (rejLoop T acc n e).elim 1 (fun _ => 0) ∂μ = ν accᶜ ^ n := by
    intro n
    induction n with
    | zero => simp [rejLoop]
    | succ n ih =>
      rw [rejLoop_step hT ha measurable_const, ih]
      have : ∀ a, (if a ∈ acc then ∫⁻ _, (0:ℝ≥0∞) ∂μ else ν accᶜ ^ n) = accᶜ.indicator (fun _ => ν accᶜ ^ n) a := by
        intro a
        by_cases h : a ∈ acc <;> simp [h]
      simp only [this]
      rw [lintegral_indicator_const ha.compl, pow_succ]
  rw [← hind n]
  have hm := rejLoop_meas hT ha (Y := E) (c := fun _ => 1) measurable_const (k := fun _ _ => 0) measurable_const n measurable_id
  have hs : MeasurableSet {e | rejLoop T acc n e = none} := by
    have : {e | rejLoop T acc n e = none} = (fun e => (rejLoop T acc n e).elim (1:ℝ≥0∞) (fun _ => 0)) ⁻¹' {1} := by
      ext e
      cases h : rejLoop T acc n e <;> simp [h]
    rw [this]
    exact hm (measurableSet_singleton 1)
  rw [← lintegral_indicator_one hs]
  apply lintegral_congr
  intro e
  cases h : rejLoop T acc n e <;> simp [h, indicator]

end

/-- a functional of a list and an engine that is measurable along measurable families -/
def MeasK {Y α : Type} [MeasurableSpace Y] [MeasurableSpace α] [Zero α] (K : Y → List α → E → ℝ≥0∞) : Prop :=
  ∀ (Z : Type) [MeasurableSpace Z] (g : Z → Y) (l : Z → List α) (e : Z → E), Measurable g → MeasL l → Measurable e →
    Measurable fun z => K (g z) (l z) (e z)

section
variable {α : Type} [MeasurableSpace α] [Zero α]

theorem MeasK.cons {K : Unit → List α → E → ℝ≥0∞} (hK : MeasK K) : MeasK fun (a : α) l e => K () (a :: l) e :=
  fun Z _ g l e hg hl he => hK Z (fun _ => ()) (fun z => g z :: l z) e measurable_const (hl.cons hg) he

theorem MeasK.consY {Y : Type} [MeasurableSpace Y] {K : Y → List α → E → ℝ≥0∞} (hK : MeasK K) :
    MeasK fun (t : Y × α) l e => K t.1 (t.2 :: l) e :=
  fun Z _ g l e hg hl he => hK Z (fun z => (g z).1) (fun z => (g z).2 :: l z) e (measurable_fst.comp hg) (hl.cons (measurable_snd.comp hg)) he

theorem MeasK.fix {Y : Type} [MeasurableSpace Y] {K : Y → List α → E → ℝ≥0∞} (hK : MeasK K) (y : Y) : MeasK fun (_ : Unit) l e => K y l e :=
  fun Z _ _ l e _ hl he => hK Z (fun _ => y) l e measurable_const hl he

/-- `k` accepted proposals in a row -/
noncomputable def rejMany (L : E → Option (α × E)) : ℕ → E → Option (List α × E)
  | 0, e => some ([], e)
  | k+1, e => (L e).elim none fun t => (rejMany L k t.2).elim none fun s => some (t.1 :: s.1, s.2)

/-- its value -/
noncomputable def manyVal (L : E → Option (α × E)) (c : ℝ≥0∞) (K : List α → E → ℝ≥0∞) (k : ℕ) (e : E) : ℝ≥0∞ :=
  (rejMany L k e).elim c fun s => K s.1 s.2

omit [MeasurableSpace E] [MeasurableSpace α] [Zero α] in
theorem manyVal_succ (L : E → Option (α × E)) (c : ℝ≥0∞) (K : List α → E → ℝ≥0∞) (k : ℕ) (e : E) :
    manyVal L c K (k+1) e = (L e).elim c fun t => manyVal L c (fun l => K (t.1 :: l)) k t.2 := by
  unfold manyVal
  rw [rejMany]
  cases L e with
  | none => rfl
  | some t =>
    simp only [Option.elim]
    cases rejMany L k t.2 <;> rfl

/-- A loop whose values are measurable and whose engine after it is fresh. -/
structure IsLoop (μ : Measure E) (L : E → Option (α × E)) : Prop where
  meas : ∀ {Y : Type} [MeasurableSpace Y] {c : ℝ≥0∞} {k : Y → α × E → ℝ≥0∞}, (Measurable fun t : Y × (α × E) => k t.1 t.2) →
    ∀ {e : Y → E}, Measurable e → Measurable fun y => (L (e y)).elim c (k y)
  congr : ∀ {c : ℝ≥0∞} {k1 k2 : α × E → ℝ≥0∞}, Measurable k1 → Measurable k2 → (∀ a, ∫⁻ e, k1 (a, e) ∂μ = ∫⁻ e, k2 (a, e) ∂μ) →
    ∫⁻ e, (L e).elim c k1 ∂μ = ∫⁻ e, (L e).elim c k2 ∂μ

theorem manyVal_meas {L : E → Option (α × E)} (hL : IsLoop μ L) {c : ℝ≥0∞} (k : ℕ) {Y : Type} [MeasurableSpace Y]
    {K : Y → List α → E → ℝ≥0∞} (hK : MeasK K) {e : Y → E} (he : Measurable e) : Measurable fun y => manyVal L c (K y) k (e y) := by
  induction k generalizing Y with
  | zero => exact hK Y id (fun _ => []) e measurable_id (MeasL.const _) he
  | succ k ih =>
    simp only [manyVal_succ]
    refine hL.meas (k := fun y t => manyVal L c (fun l => K y (t.1 :: l)) k t.2) ?_ he
    have := ih (Y := Y × (α × E)) (K := fun t l e => K t.1 (t.2.1 :: l) e)
      (fun Z _ g l e hg hl he => hK Z (fun z => (g z).1) (fun z => (g z).2.1 :: l z) e (measurable_fst.comp hg)
        (hl.cons (measurable_fst.comp (measurable_snd.comp hg))) he) (e := fun t => t.2.2) (measurable_snd.comp measurable_snd)
    exact this

theorem manyVal_congr {L : E → Option (α × E)} (hL : IsLoop μ L) {c : ℝ≥0∞} (k : ℕ) {K1 K2 : List α → E → ℝ≥0∞}
    (h1 : MeasK fun _ : Unit => K1) (h2 : MeasK fun _ : Unit => K2) (hK : ∀ l, ∫⁻ e, K1 l e ∂μ = ∫⁻ e, K2 l e ∂μ) :
    ∫⁻ e, manyVal L c K1 k e ∂μ = ∫⁻ e, manyVal L c K2 k e ∂μ := by
  induction k generalizing K1 K2 with
  | zero => exact hK []
  | succ k ih =>
    simp only [manyVal_succ]
    have hm : ∀ {K : List α → E → ℝ≥0∞}, (MeasK fun _ : Unit => K) →
        Measurable fun t : α × E => manyVal L c (fun l => K (t.1 :: l)) k t.2 := by
      intro K hK
      exact manyVal_meas hL k (Y := α × E) (K := fun t l e => K (t.1 :: l) e)
        (fun Z _ g l e hg hl he => hK Z (fun _ => ()) (fun z => (g z).1 :: l z) e measurable_const
          (hl.cons (measurable_fst.comp hg)) he) measurable_snd
    refine hL.congr (hm h1) (hm h2) ?_
    intro a
    exact ih (fun Z _ g l e hg hl he => h1 Z g (fun z => a :: l z) e hg (hl.cons measurable_const) he)
      (fun Z _ g l e hg hl he => h2 Z g (fun z => a :: l z) e hg (hl.cons measurable_const) he) (fun l => hK (a :: l))

end
end Trento
