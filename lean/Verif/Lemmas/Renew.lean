import Verif.Lemmas.MeasModel
import Verif.Props.Isotropy

/-!
# Programs that draw from an ideal source and leave it as good as new

`I` indexes the states of knowledge about the source (the C++ distribution objects may keep a value for the next draw).  A program renews the source
if what follows it sees fresh random numbers, independent of its result.
-/

namespace Trento
open MeasureTheory Set Spec
open scoped ENNReal

theorem measurable_of_eq {α β : Type} [MeasurableSpace α] [MeasurableSpace β] {f g : α → β} (hf : Measurable f) (h : ∀ a, f a = g a) : Measurable g := by
  rwa [← funext h]

variable {α β γ Y Z W I : Type} [MeasurableSpace α] [MeasurableSpace β] [MeasurableSpace γ] [MeasurableSpace Y] [MeasurableSpace Z] [MeasurableSpace W]

/-- the integral does not depend on the state of knowledge -/
def Inv (μ : I → Measure W) (g : α × W → ℝ≥0∞) : Prop := ∀ a i j, ∫⁻ w, g (a, w) ∂(μ i) = ∫⁻ w, g (a, w) ∂(μ j)

/-- a family of programs that renew the source, measurable in the parameter -/
structure Renews (μ : I → Measure W) (P : Y → W → Res (α × W)) : Prop where
  meas : Measurable fun p : Y × W => P p.1 p.2
  law : ∀ (y : Y) (g : α × W → ℝ≥0∞), Measurable g → Inv μ g → ∀ i j k,
    ∫⁻ w, ifOk (P y w) g ∂(μ i) = ∫⁻ w, ifOk (P y w) (fun t => ∫⁻ w', g (t.1, w') ∂(μ k)) ∂(μ j)

/-- sequencing -/
def bindR (r : Res (α × W)) (S : α → W → Res (β × W)) : Res (β × W) := match r with
  | .error e => .error e
  | .ok t => S t.1 t.2

omit [MeasurableSpace α] [MeasurableSpace β] [MeasurableSpace W] in
theorem ifOk_bindR (r : Res (α × W)) (S : α → W → Res (β × W)) (g : β × W → ℝ≥0∞) :
    ifOk (bindR r S) g = ifOk r fun t => ifOk (S t.1 t.2) g := by
  cases r <;> rfl

theorem measurable_ifOk {r : Z → Res α} {g : Z → α → ℝ≥0∞} (hr : Measurable r) (hg : Measurable fun p : Z × α => g p.1 p.2) :
    Measurable fun z => ifOk (r z) (g z) := by
  have := measurable_exElim (f := fun _ _ => (0:ℝ≥0∞)) hr measurable_const hg
  refine measurable_of_eq this ?_
  intro z
  cases r z <;> rfl

variable {μ : I → Measure W} [∀ i, IsProbabilityMeasure (μ i)]

theorem Renews.bind {P : Y → W → Res (α × W)} {S : Y × α → W → Res (β × W)} (hP : Renews μ P) (hS : Renews μ S) :
    Renews μ fun y w => bindR (P y w) fun a w => S (y, a) w := by
  constructor
  · have h := measurable_exBind (Z := Y × W) (r := fun p => P p.1 p.2) (g := fun p t => S (p.1, t.1) t.2) hP.meas
      (hS.meas.comp (((measurable_fst.comp measurable_fst).prodMk (measurable_fst.comp measurable_snd)).prodMk (measurable_snd.comp measurable_snd)))
    refine measurable_of_eq h ?_
    intro p
    show exElim (P p.1 p.2) _ _ = bindR (P p.1 p.2) _
    cases P p.1 p.2 <;> rfl
  · intro y g hg hinv i j k
    have step : ∀ (g : β × W → ℝ≥0∞), Measurable g → Inv μ g → ∀ i j k,
        ∫⁻ w, ifOk (bindR (P y w) fun a w => S (y, a) w) g ∂(μ i) =
          ∫⁻ w, ifOk (P y w) (fun t => ∫⁻ w', ifOk (S (y, t.1) w') (fun t' => ∫⁻ w'', g (t'.1, w'') ∂(μ k)) ∂(μ k)) ∂(μ j) := by
      intro g hg hinv i j k
      simp only [ifOk_bindR]
      have hh : Measurable fun t : α × W => ifOk (S (y, t.1) t.2) g :=
        measurable_ifOk (Z := α × W) (g := fun _ => g) (hS.meas.comp ((measurable_const.prodMk measurable_fst).prodMk measurable_snd)) (hg.comp measurable_snd)
      have hhi : Inv μ fun t : α × W => ifOk (S (y, t.1) t.2) g := by
        intro a i j
        exact (hS.law (y, a) g hg hinv i i i).trans (hS.law (y, a) g hg hinv j i i).symm
      rw [hP.law y _ hh hhi i j k]
      refine lintegral_congr fun w => ?_
      congr 1
      funext t
      exact hS.law (y, t.1) g hg hinv k k k
    rw [step g hg hinv i j k]
    have hg' : Measurable fun t : β × W => ∫⁻ w'', g (t.1, w'') ∂(μ k) := (hg.lintegral_prod_right').comp measurable_fst
    rw [step (fun t => ∫⁻ w'', g (t.1, w'') ∂(μ k)) hg' (fun a i j => by simp) j j k]
    refine lintegral_congr fun w => ?_
    simp

omit [∀ i, IsProbabilityMeasure (μ i)] in
theorem Renews.comp {P : Y → W → Res (α × W)} (hP : Renews μ P) {f : Z → Y} (hf : Measurable f) : Renews μ fun z w => P (f z) w :=
  ⟨hP.meas.comp ((hf.comp measurable_fst).prodMk measurable_snd), fun z => hP.law (f z)⟩

omit [∀ i, IsProbabilityMeasure (μ i)] in
theorem Renews.congr {P Q : Y → W → Res (α × W)} (hP : Renews μ P) (h : ∀ y w, Q y w = P y w) : Renews μ Q := by
  have : Q = P := funext fun y => funext fun w => h y w
  rwa [this]

theorem Renews.ofRes {q : Y → Res α} (hq : Measurable q) : Renews μ fun y w => exElim (q y) Except.error fun a => .ok (a, w) := by
  constructor
  · exact measurable_exBind (Z := Y × W) (r := fun p => q p.1) (g := fun p a => .ok (a, p.2)) (hq.comp measurable_fst)
      (measurable_ok.comp (measurable_snd.prodMk (measurable_snd.comp measurable_fst)))
  · intro y g hg hinv i j k
    cases q y with
    | error e => simp [exElim, ifOk]
    | ok a => simp [exElim, ifOk, hinv a i k]

theorem Renews.pure {q : Y → α} (hq : Measurable q) : Renews μ fun y w => .ok (q y, w) :=
  Renews.ofRes (q := fun y => .ok (q y)) (measurable_ok.comp hq)

omit [∀ i, IsProbabilityMeasure (μ i)] in
theorem Renews.fail (e : Err) : Renews μ fun (_ : Y) (_ : W) => (.error e : Res (α × W)) :=
  ⟨measurable_const, fun y g hg hinv i j k => by simp [ifOk]⟩

omit [∀ i, IsProbabilityMeasure (μ i)] in
theorem Renews.ite {P Q : Y → W → Res (α × W)} (hP : Renews μ P) (hQ : Renews μ Q) {c : Y → Prop} [DecidablePred c] (hc : MeasurableSet {y | c y}) :
    Renews μ fun y w => if c y then P y w else Q y w := by
  constructor
  · exact Measurable.ite (measurable_fst hc) hP.meas hQ.meas
  · intro y
    by_cases h : c y
    · simpa only [h, if_true] using hP.law y
    · simpa only [h, if_false] using hQ.law y

omit [∀ i, IsProbabilityMeasure (μ i)] in
theorem Renews.bite {P Q : Y → W → Res (α × W)} (hP : Renews μ P) (hQ : Renews μ Q) {c : Y → Bool} (hc : Measurable c) :
    Renews μ fun y w => if c y then P y w else Q y w :=
  hP.ite hQ (hc (measurableSet_singleton true))

/-- relabelling the result -/
theorem Renews.map {P : Y → W → Res (α × W)} (hP : Renews μ P) {f : Y × α → β} (hf : Measurable f) :
    Renews μ fun y w => bindR (P y w) fun a w => .ok (f (y, a), w) :=
  hP.bind (Renews.pure hf)

omit [∀ i, IsProbabilityMeasure (μ i)] in
theorem Renews.list {P : Y × List γ → W → Res (α × W)} (h : ∀ n, Renews μ fun (p : Y × (Fin n → γ)) w => P (p.1, List.ofFn p.2) w) : Renews μ P := by
  constructor
  · have h1 : Measurable fun p : (Y × W) × List γ => P (p.1.1, p.2) p.1.2 := by
      refine measurable_list_param fun n => ?_
      exact (h n).meas.comp (((measurable_fst.comp measurable_fst).prodMk measurable_snd).prodMk (measurable_snd.comp measurable_fst))
    exact h1.comp (((measurable_fst.comp measurable_fst).prodMk measurable_snd).prodMk (measurable_snd.comp measurable_fst))
  · rintro ⟨y, l⟩
    have := (h l.length).law (y, l.get)
    simpa only [List.ofFn_get] using this

omit [∀ i, IsProbabilityMeasure (μ i)] in
/-- recursion over a list -/
theorem Renews.listRec {P : Y → List γ → W → Res (α × W)} (h0 : Renews μ fun y w => P y [] w)
    (hs : ∀ n, Renews μ (fun (p : Y × (Fin n → γ)) w => P p.1 (List.ofFn p.2) w) →
      Renews μ fun (p : Y × γ × (Fin n → γ)) w => P p.1 (p.2.1 :: List.ofFn p.2.2) w) :
    Renews μ fun (p : Y × List γ) w => P p.1 p.2 w := by
  refine Renews.list (P := fun (p : Y × List γ) w => P p.1 p.2 w) fun n => ?_
  induction n with
  | zero =>
    refine (h0.comp (measurable_fst (α := Y) (β := Fin 0 → γ))).congr fun p w => ?_
    simp
  | succ n ih =>
    have h2 : Measurable fun p : Y × (Fin (n+1) → γ) => (p.1, p.2 0, fun i : Fin n => p.2 i.succ) :=
      measurable_fst.prodMk (((measurable_pi_apply 0).comp measurable_snd).prodMk
        (measurable_pi_iff.2 fun i => (measurable_pi_apply i.succ).comp measurable_snd))
    refine ((hs n ih).comp h2).congr fun p w => ?_
    simp [List.ofFn_succ]

omit [∀ i, IsProbabilityMeasure (μ i)] in
theorem Renews.listCases {P : Y → List γ → W → Res (α × W)} (h0 : Renews μ fun y w => P y [] w)
    (hs : Renews μ fun (p : Y × γ × List γ) w => P p.1 (p.2.1 :: p.2.2) w) :
    Renews μ fun (p : Y × List γ) w => P p.1 p.2 w := by
  refine Renews.listRec h0 fun n _ => ?_
  exact hs.comp (measurable_fst.prodMk ((measurable_fst.comp measurable_snd).prodMk ((measurable_ofFn n).comp (measurable_snd.comp measurable_snd))))

omit [∀ i, IsProbabilityMeasure (μ i)] in
/-- a parameter with countably many values -/
theorem Renews.countable {N : Type} [MeasurableSpace N] [Countable N] [MeasurableSingletonClass N] {P : Y × N → W → Res (α × W)}
    (h : ∀ n, Renews μ fun y w => P (y, n) w) : Renews μ P := by
  constructor
  · have h1 : Measurable fun p : N × (Y × W) => P (p.2.1, p.1) p.2.2 := measurable_from_prod_countable_right fun n => (h n).meas
    exact h1.comp ((measurable_snd.comp measurable_fst).prodMk ((measurable_fst.comp measurable_fst).prodMk measurable_snd))
  · rintro ⟨y, n⟩
    exact (h n).law y

/-- a draw from the source -/
theorem Renews.draw {T : W → α × W} (hT : Measurable T) {ν : Measure α} [SFinite ν]
    (hl : ∀ i, ∃ j, (μ i).map T = ν.prod (μ j)) : Renews μ fun (_ : Y) w => .ok (T w) := by
  constructor
  · exact measurable_ok.comp (hT.comp measurable_snd)
  · intro y g hg hinv i j k
    have key : ∀ (g : α × W → ℝ≥0∞), Measurable g → Inv μ g → ∀ i k, ∫⁻ w, g (T w) ∂(μ i) = ∫⁻ a, ∫⁻ w, g (a, w) ∂(μ k) ∂ν := by
      intro g hg hinv i k
      obtain ⟨j, hj⟩ := hl i
      rw [← lintegral_map hg hT, hj, lintegral_prod _ hg.aemeasurable]
      exact lintegral_congr fun a => hinv a j k
    show ∫⁻ w, g (T w) ∂(μ i) = ∫⁻ w, (fun t : α × W => ∫⁻ w', g (t.1, w') ∂(μ k)) (T w) ∂(μ j)
    have hg' : Measurable fun t : α × W => ∫⁻ w'', g (t.1, w'') ∂(μ k) := (hg.lintegral_prod_right').comp measurable_fst
    rw [key g hg hinv i k, key _ hg' (fun a i j => by simp) j k]
    simp

end Trento
