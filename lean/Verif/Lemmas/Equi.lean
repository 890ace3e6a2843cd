import Verif.Lemmas.RenewModel
import Verif.Lemmas.Retry

/-!
# Programs whose results are transformed in law

`Equi μ P σ τ`: the program with the transformed parameter `σ y` has the law of the results with the parameter `y`, transformed by `τ`.
-/

namespace Trento
open MeasureTheory Set Spec
open scoped ENNReal

variable {α β γ Y Z W I : Type} [MeasurableSpace α] [MeasurableSpace β] [MeasurableSpace γ] [MeasurableSpace Y] [MeasurableSpace Z] [MeasurableSpace W]
variable {μ : I → Measure W}

structure Equi (μ : I → Measure W) (P : Y → W → Res (α × W)) (σ : Y → Y) (τ : α → α) : Prop where
  ren : Renews μ P
  meas : Measurable τ
  law : ∀ (y : Y) (g : α → ℝ≥0∞), Measurable g → ∀ i,
    ∫⁻ w, ifOk (P (σ y) w) (fun t => g t.1) ∂(μ i) = ∫⁻ w, ifOk (P y w) (fun t => g (τ t.1)) ∂(μ i)

theorem Equi.congr {P Q : Y → W → Res (α × W)} {σ : Y → Y} {τ : α → α} (hP : Equi μ P σ τ) (h : ∀ y w, Q y w = P y w) : Equi μ Q σ τ := by
  have : Q = P := funext fun y => funext fun w => h y w
  rwa [this]

theorem Equi.comp {P : Y → W → Res (α × W)} {σ : Y → Y} {τ : α → α} (hP : Equi μ P σ τ) {f : Z → Y} (hf : Measurable f) {ρ : Z → Z}
    (h : ∀ z, f (ρ z) = σ (f z)) : Equi μ (fun z w => P (f z) w) ρ τ :=
  ⟨hP.ren.comp hf, hP.meas, fun z => by simp only [h z]; exact hP.law (f z)⟩

/-- a program whose parameter is not transformed, with untransformed result -/
theorem Equi.fixed {P : Y → W → Res (α × W)} (hP : Renews μ P) {σ : Y → Y} (h : ∀ y w, P (σ y) w = P y w) : Equi μ P σ id :=
  ⟨hP, measurable_id, fun y g _ i => by simp only [h, id]⟩

theorem Equi.fail (e : Err) {σ : Y → Y} {τ : α → α} (hτ : Measurable τ) : Equi μ (fun (_ : Y) (_ : W) => (.error e : Res (α × W))) σ τ :=
  ⟨Renews.fail e, hτ, fun y g _ i => by simp [ifOk]⟩

theorem Equi.ite {P Q : Y → W → Res (α × W)} {σ : Y → Y} {τ : α → α} (hP : Equi μ P σ τ) (hQ : Equi μ Q σ τ) {c : Y → Prop} [DecidablePred c]
    (hc : MeasurableSet {y | c y}) (hs : ∀ y, c (σ y) ↔ c y) : Equi μ (fun y w => if c y then P y w else Q y w) σ τ := by
  refine ⟨hP.ren.ite hQ.ren hc, hP.meas, fun y g hg i => ?_⟩
  by_cases h : c y
  · simpa only [h, hs, if_true] using hP.law y g hg i
  · simpa only [h, hs, if_false] using hQ.law y g hg i

theorem Equi.bite {P Q : Y → W → Res (α × W)} {σ : Y → Y} {τ : α → α} (hP : Equi μ P σ τ) (hQ : Equi μ Q σ τ) {c : Y → Bool}
    (hc : Measurable c) (hs : ∀ y, c (σ y) = c y) : Equi μ (fun y w => if c y then P y w else Q y w) σ τ :=
  hP.ite hQ (hc (measurableSet_singleton true)) fun y => by rw [hs]

variable [∀ i, IsProbabilityMeasure (μ i)]

theorem Equi.bind {P : Y → W → Res (α × W)} {S : Y × α → W → Res (β × W)} {σ : Y → Y} {τ : α → α} {ρ : β → β} (hP : Equi μ P σ τ)
    (hS : Equi μ S (fun p => (σ p.1, τ p.2)) ρ) : Equi μ (fun y w => bindR (P y w) fun a w => S (y, a) w) σ ρ := by
  refine ⟨hP.ren.bind hS.ren, hS.meas, fun y g hg i => ?_⟩
  have key : ∀ (y : Y) (g : β → ℝ≥0∞), Measurable g →
      ∫⁻ w, ifOk (bindR (P y w) fun a w => S (y, a) w) (fun t => g t.1) ∂(μ i) =
        ∫⁻ w, ifOk (P y w) (fun t => ∫⁻ w', ifOk (S (y, t.1) w') (fun t' => g t'.1) ∂(μ i)) ∂(μ i) := by
    intro y g hg
    simp only [ifOk_bindR]
    have hh : Measurable fun t : α × W => ifOk (S (y, t.1) t.2) fun t' => g t'.1 :=
      measurable_ifOk (Z := α × W) (α := β × W) (g := fun (_ : α × W) (t' : β × W) => g t'.1) (hS.ren.meas.comp ((measurable_const.prodMk measurable_fst).prodMk measurable_snd))
        (hg.comp (measurable_fst.comp measurable_snd))
    exact hP.ren.law y _ hh (fun a i j => hS.ren.const (y, a) hg i j) i i i
  rw [key (σ y) g hg, key y (fun b => g (ρ b)) (hg.comp hS.meas)]
  have hm : Measurable fun a : α => ∫⁻ w', ifOk (S (σ y, a) w') (fun t' => g t'.1) ∂(μ i) := by
    have hh : Measurable fun t : α × W => ifOk (S (σ y, t.1) t.2) fun t' => g t'.1 :=
      measurable_ifOk (Z := α × W) (α := β × W) (g := fun (_ : α × W) (t' : β × W) => g t'.1) (hS.ren.meas.comp ((measurable_const.prodMk measurable_fst).prodMk measurable_snd))
        (hg.comp (measurable_fst.comp measurable_snd))
    exact hh.lintegral_prod_right'
  rw [hP.law y _ hm i]
  refine lintegral_congr fun w => ?_
  congr 1
  funext t
  exact hS.law (y, t.1) g hg i

theorem Equi.ofRes {q : Y → Res α} (hq : Measurable q) {σ : Y → Y} {τ : α → α} (hτ : Measurable τ) (h : ∀ y, q (σ y) = (q y).map τ) :
    Equi μ (fun y w => exElim (q y) Except.error fun a => .ok (a, w)) σ τ := by
  refine ⟨Renews.ofRes hq, hτ, fun y g hg i => ?_⟩
  rw [h]
  cases q y <;> rfl

theorem Equi.pure {q : Y → α} (hq : Measurable q) {σ : Y → Y} {τ : α → α} (hτ : Measurable τ) (h : ∀ y, q (σ y) = τ (q y)) :
    Equi μ (fun y w => .ok (q y, w)) σ τ :=
  Equi.ofRes (q := fun y => .ok (q y)) (measurable_ok.comp hq) hτ fun y => by rw [h]; rfl

/-- relabelling the result -/
theorem Equi.map {P : Y → W → Res (α × W)} {σ : Y → Y} {τ : α → α} {ρ : β → β} (hP : Equi μ P σ τ) {f : Y × α → β} (hf : Measurable f) (hρ : Measurable ρ)
    (h : ∀ y a, f (σ y, τ a) = ρ (f (y, a))) : Equi μ (fun y w => bindR (P y w) fun a w => .ok (f (y, a), w)) σ ρ :=
  hP.bind (Equi.pure hf hρ fun p => h p.1 p.2)

omit [∀ i, IsProbabilityMeasure (μ i)] in
theorem Equi.list {P : Y × List γ → W → Res (α × W)} {σ : Y → Y} {s : γ → γ} {τ : α → α}
    (h : ∀ n, Equi μ (fun (p : Y × (Fin n → γ)) w => P (p.1, List.ofFn p.2) w) (fun p => (σ p.1, fun i => s (p.2 i))) τ) :
    Equi μ P (fun p => (σ p.1, p.2.map s)) τ := by
  refine ⟨Renews.list fun n => (h n).ren, (h 0).meas, ?_⟩
  rintro ⟨y, l⟩ g hg i
  have := (h l.length).law (y, l.get) g hg i
  have e : List.ofFn (fun i => s (l.get i)) = l.map s := by
    apply List.ext_getElem <;> simp
  simpa only [List.ofFn_get, e] using this

omit [∀ i, IsProbabilityMeasure (μ i)] in
/-- recursion over a list -/
theorem Equi.listRec {P : Y → List γ → W → Res (α × W)} {σ : Y → Y} {s : γ → γ} {τ : α → α} (h0 : Equi μ (fun y w => P y [] w) σ τ)
    (hs : ∀ n, Equi μ (fun (p : Y × (Fin n → γ)) w => P p.1 (List.ofFn p.2) w) (fun p => (σ p.1, fun i => s (p.2 i))) τ →
      Equi μ (fun (p : Y × γ × (Fin n → γ)) w => P p.1 (p.2.1 :: List.ofFn p.2.2) w) (fun p => (σ p.1, s p.2.1, fun i => s (p.2.2 i))) τ) :
    Equi μ (fun (p : Y × List γ) w => P p.1 p.2 w) (fun p => (σ p.1, p.2.map s)) τ := by
  refine Equi.list (P := fun (p : Y × List γ) w => P p.1 p.2 w) fun n => ?_
  induction n with
  | zero =>
    refine (h0.comp (measurable_fst (α := Y) (β := Fin 0 → γ)) (ρ := fun p => (σ p.1, fun i => s (p.2 i))) fun z => rfl).congr fun p w => ?_
    simp
  | succ n ih =>
    have h2 : Measurable fun p : Y × (Fin (n+1) → γ) => (p.1, p.2 0, fun i : Fin n => p.2 i.succ) :=
      measurable_fst.prodMk (((measurable_pi_apply 0).comp measurable_snd).prodMk
        (measurable_pi_iff.2 fun i => (measurable_pi_apply i.succ).comp measurable_snd))
    refine ((hs n ih).comp h2 (ρ := fun p => (σ p.1, fun i => s (p.2 i))) fun z => rfl).congr fun p w => ?_
    simp [List.ofFn_succ]

omit [∀ i, IsProbabilityMeasure (μ i)] in
theorem Equi.listCases {P : Y → List γ → W → Res (α × W)} {σ : Y → Y} {s : γ → γ} {τ : α → α} (h0 : Equi μ (fun y w => P y [] w) σ τ)
    (hs : Equi μ (fun (p : Y × γ × List γ) w => P p.1 (p.2.1 :: p.2.2) w) (fun p => (σ p.1, s p.2.1, p.2.2.map s)) τ) :
    Equi μ (fun (p : Y × List γ) w => P p.1 p.2 w) (fun p => (σ p.1, p.2.map s)) τ := by
  refine Equi.listRec h0 fun n _ => ?_
  exact hs.comp (measurable_fst.prodMk ((measurable_fst.comp measurable_snd).prodMk ((measurable_ofFn n).comp (measurable_snd.comp measurable_snd))))
    fun z => by simp only [Function.comp, List.map_ofFn]; rfl

omit [∀ i, IsProbabilityMeasure (μ i)] in
/-- a parameter with countably many values -/
theorem Equi.countable {N : Type} [MeasurableSpace N] [Countable N] [MeasurableSingletonClass N] {P : Y × N → W → Res (α × W)} {σ : Y → Y} {τ : α → α}
    (hτ : Measurable τ) (h : ∀ n, Equi μ (fun y w => P (y, n) w) σ τ) : Equi μ P (fun p => (σ p.1, p.2)) τ :=
  ⟨Renews.countable fun n => (h n).ren, hτ, fun p => (h p.2).law p.1⟩

/-- a draw with an invariant law -/
theorem Equi.draw {T : W → α × W} (hT : Measurable T) {ν : Measure α} [SFinite ν] (hl : ∀ i, ∃ j, (μ i).map T = ν.prod (μ j)) {σ : Y → Y} {τ : α → α}
    (hτ : Measurable τ) (hν : ∀ g : α → ℝ≥0∞, Measurable g → ∫⁻ a, g (τ a) ∂ν = ∫⁻ a, g a ∂ν) : Equi μ (fun (_ : Y) w => .ok (T w)) σ τ := by
  refine ⟨Renews.draw hT hl, hτ, fun y g hg i => ?_⟩
  obtain ⟨j, hj⟩ := hl i
  have key : ∀ g : α → ℝ≥0∞, Measurable g → ∫⁻ w, g (T w).1 ∂(μ i) = ∫⁻ a, g a ∂ν := by
    intro g hg
    have := lintegral_map (μ := μ i) (f := fun p : α × W => g p.1) (hg.comp measurable_fst) hT
    rw [← this, hj, lintegral_prod (f := fun p : α × W => g p.1) (hg.comp measurable_fst).aemeasurable]
    simp
  show ∫⁻ w, g (T w).1 ∂(μ i) = ∫⁻ w, g (τ (T w).1) ∂(μ i)
  rw [key g hg, key (fun a => g (τ a)) (hg.comp hτ), hν g hg]

theorem Equi.retry {P : W → Res ((α × Bool) × W)} {τ : α → α} (hP : Equi μ (fun (_ : Unit) w => P w) id fun p => (τ p.1, p.2)) (hτ : Measurable τ) (n : ℕ) :
    Equi μ (fun (_ : Unit) w => retry P n w) id τ := by
  induction n with
  | zero => exact Equi.fail _ hτ
  | succ n ih =>
    have h1 := Equi.bite (Equi.pure (q := fun p : Unit × (α × Bool) => p.2.1) (μ := μ) (σ := fun p => (p.1, (τ p.2.1, p.2.2))) (by fun_prop) hτ fun y => rfl)
      (ih.comp (f := fun _ : Unit × (α × Bool) => ()) measurable_const fun z => rfl) (c := fun p : Unit × (α × Bool) => p.2.2) (by fun_prop) fun y => rfl
    exact (hP.bind h1).congr fun y w => rfl

end Trento
