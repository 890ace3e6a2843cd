import Verif.Lemmas.Equi
import Verif.Lemmas.Attempt
import Mathlib.MeasureTheory.Measure.Haar.Unique
import Mathlib.MeasureTheory.Function.Floor

/-! # Half a turn about the axis of the impact parameter -/

namespace Trento
open MeasureTheory Set Spec Real
open scoped ENNReal

/-- A constituent turned by half a turn about the x axis (only its transverse position is used). -/
noncomputable def Spec.turnC (q : Constituent ℝ) : Constituent ℝ := { q with y := -q.y }

/-- A nucleon turned by half a turn about the x axis, with its constituents (which it has only if `constituentsExist`). -/
noncomputable def Spec.turn (n : NucleonData ℝ) : NucleonData ℝ :=
  { n with y := -n.y, z := -n.z, constituents := if n.constituentsExist then n.constituents.map turnC else n.constituents }

/-- Normal random numbers with mean 0 have a symmetric law. -/
def Spec.SymmetricNormal {E D : Type} [Rng ℝ E D] [MeasurableSpace E] [MeasurableSpace D] {I : Type} (μ : I → Measure (Rand E D)) : Prop :=
  ∀ (s : ℝ) (i : I), (μ i).map (fun w => -(drawNormal (F := ℝ) 0 s w).1) = (μ i).map fun w => (drawNormal (F := ℝ) 0 s w).1

/-! ### Angles -/

/-- the angle in `[0, 2π)` -/
noncomputable def red (φ : ℝ) : ℝ := φ - ⌊φ / (2*π)⌋ * (2*π)

theorem red_meas : Measurable red := by
  unfold red
  exact measurable_id.sub (((measurable_from_top (f := fun z : ℤ => (z : ℝ))).comp (show Measurable fun φ : ℝ => ⌊φ / (2*π)⌋ from Int.measurable_floor.comp (measurable_id.div_const _))).mul_const _)

theorem cos_red (φ : ℝ) : Real.cos (red φ) = Real.cos φ := Real.cos_sub_int_mul_two_pi φ _
theorem sin_red (φ : ℝ) : Real.sin (red φ) = Real.sin φ := Real.sin_sub_int_mul_two_pi φ _

theorem red_periodic : Function.Periodic red (2*π) := by
  intro φ
  unfold red
  rw [add_div, div_self two_pi_pos.ne', Int.floor_add_one]
  push_cast
  ring

theorem red_unit {u : ℝ} (hu : u ∈ Ico (0:ℝ) 1) : red (2*π*u) = 2*π*u := by
  unfold red
  rw [mul_div_cancel_left₀ u two_pi_pos.ne', Int.floor_eq_zero_iff.2 hu]
  simp

theorem circ_neg (k : ℝ → ℝ≥0∞) : circ (fun γ => k (-γ)) = circ k := by
  unfold circ
  have := (Measure.measurePreserving_neg (volume : Measure ℝ)).setLIntegral_comp_preimage_emb (MeasurableEquiv.neg ℝ).measurableEmbedding k (Ioo (-π) π)
  rw [← this]
  congr 2
  ext x
  simp only [mem_Ioo, mem_preimage]
  constructor
  · rintro ⟨a, b⟩; constructor <;> linarith
  · rintro ⟨a, b⟩; constructor <;> linarith

/-- a uniform angle, mirrored (`s = -1`) or not (`s = 1`) and shifted, is uniform -/
theorem lintegral_angle {s : ℝ} (hs : s = 1 ∨ s = -1) (c : ℝ) {g : ℝ → ℝ≥0∞} :
    ∫⁻ u in Ico (0:ℝ) 1, g (red (s * (2*π*u) + c)) = ∫⁻ u in Ico (0:ℝ) 1, g (2*π*u) := by
  have hp : Function.Periodic (fun φ => g (red φ)) (2*π) := fun φ => by simp only [red_periodic φ]
  have hp2 : Function.Periodic (fun φ => g (red (s * φ + c))) (2*π) := by
    intro φ
    rcases hs with rfl | rfl
    · simp only [one_mul]
      rw [add_right_comm, red_periodic]
    · have : red ((-1) * φ + c) = red ((-1) * (φ + 2*π) + c) := by
        rw [← red_periodic ((-1) * (φ + 2*π) + c)]
        congr 1; ring
      simp only [this]
  have e1 : ∫⁻ u in Ico (0:ℝ) 1, g (2*π*u) = ∫⁻ u in Ico (0:ℝ) 1, g (red (2*π*u)) :=
    setLIntegral_congr_fun measurableSet_Ico fun u hu => by simp only [red_unit hu]
  rw [e1, lintegral_phiU hp, lintegral_phiU hp2]
  congr 1
  rcases hs with rfl | rfl
  · simp only [one_mul]; exact circ_shift hp c
  · have h1 := circ_shift hp c
    have h2 := circ_neg fun φ => g (red (φ + c))
    simp only [neg_one_mul]
    exact h2.trans h1

variable {E D : Type} [Rng ℝ E D] [MeasurableSpace E] [MeasurableSpace D] {I : Type} {μ : I → Measure (Rand E D)}
variable {Y Z : Type} [MeasurableSpace Y] [MeasurableSpace Z]

/-! ### Measurability -/

theorem turnC_meas : Measurable turnC := constituent_mk constituent_x constituent_y.neg constituent_fl

theorem mapTurnC_meas : Measurable fun l : List (Constituent ℝ) => l.map turnC :=
  Measurable.listMap (Y := Unit) (g := fun _ q => turnC q) (turnC_meas.comp measurable_snd) (y := fun _ => ()) measurable_const measurable_id

theorem turn_meas : Measurable turn := by
  unfold turn
  exact nucleon_mk nucleon_x nucleon_y.neg nucleon_z.neg nucleon_part nucleon_exist
    (Measurable.ite (nucleon_exist (measurableSet_singleton true)) (mapTurnC_meas.comp nucleon_cs) nucleon_cs)

theorem mapTurn_meas : Measurable fun l : List (NucleonData ℝ) => l.map turn :=
  Measurable.listMap (Y := Unit) (g := fun _ q => turn q) (turn_meas.comp measurable_snd) (y := fun _ => ()) measurable_const measurable_id

/-! ### Draws -/

section
variable (h : FreshSource E D μ)
include h

theorem equi_canonical {σ : Y → Y} : Equi μ (fun (_ : Y) (w : Rand E D) => .ok (canonical (F := ℝ) w)) σ id := Equi.fixed (renews_canonical h) fun _ _ => rfl

theorem lintegral_canonical (i : I) {g : ℝ → ℝ≥0∞} (hg : Measurable g) :
    ∫⁻ w, g (canonical (F := ℝ) w).1 ∂(μ i) = ∫⁻ u in Ico (0:ℝ) 1, g u := by
  have := h.prob
  obtain ⟨j, hj⟩ := h.canonical_law i
  have e := lintegral_map (μ := μ i) (f := fun p : ℝ × Rand E D => g p.1) (hg.comp measurable_fst) h.canonical_meas
  rw [← e, hj, lintegral_prod (f := fun p : ℝ × Rand E D => g p.1) (hg.comp measurable_fst).aemeasurable]
  simp

theorem equi_cosTheta {σ : Y → Y} : Equi μ (fun (_ : Y) (w : Rand E D) => .ok (cosTheta (F := ℝ) w)) σ fun c => -c := by
  refine ⟨renews_cosTheta h, measurable_neg, fun y g hg i => ?_⟩
  have e : ∀ w : Rand E D, (cosTheta (F := ℝ) w).1 = 2 * (canonical (F := ℝ) w).1 - 1 := fun w => by simp [cosTheta]
  show ∫⁻ w, g (cosTheta (F := ℝ) w).1 ∂(μ i) = ∫⁻ w, g (-(cosTheta (F := ℝ) w).1) ∂(μ i)
  simp only [e]
  rw [lintegral_canonical h i (g := fun u => g (2 * u - 1)) (hg.comp (by fun_prop)), lintegral_canonical h i (g := fun u => g (-(2 * u - 1))) (hg.comp (by fun_prop)),
    lintegral_cosU g, lintegral_cosU fun c => g (-c)]
  congr 1
  have := (Measure.measurePreserving_neg (volume : Measure ℝ)).setLIntegral_comp_preimage_emb (MeasurableEquiv.neg ℝ).measurableEmbedding g (Ioo (-1) 1)
  rw [← this]
  congr 2
  ext x
  simp only [mem_Ioo, mem_preimage]
  constructor
  · rintro ⟨a, b⟩; constructor <;> linarith
  · rintro ⟨a, b⟩; constructor <;> linarith

theorem equi_phi {s : ℝ} (hs : s = 1 ∨ s = -1) (c : ℝ) {σ : Y → Y} : Equi μ (fun (_ : Y) (w : Rand E D) => .ok (phi (F := ℝ) w)) σ fun φ => red (s * φ + c) := by
  refine ⟨renews_phi h, red_meas.comp (by fun_prop), fun y g hg i => ?_⟩
  have e : ∀ w : Rand E D, (phi (F := ℝ) w).1 = 2 * π * (canonical (F := ℝ) w).1 := fun w => by simp [phi]
  show ∫⁻ w, g (phi (F := ℝ) w).1 ∂(μ i) = ∫⁻ w, g (red (s * (phi (F := ℝ) w).1 + c)) ∂(μ i)
  simp only [e]
  rw [lintegral_canonical h i (g := fun u => g (2 * π * u)) (hg.comp (by fun_prop)),
    lintegral_canonical h i (g := fun u => g (red (s * (2 * π * u) + c))) (hg.comp (red_meas.comp (by fun_prop))), lintegral_angle hs c]

theorem equi_normal (hn : SymmetricNormal μ) (s : ℝ) {σ : Y → Y} : Equi μ (fun (_ : Y) (w : Rand E D) => .ok (drawNormal (F := ℝ) (lit 0) s w)) σ fun x => -x := by
  refine ⟨renews_normal h _ s, measurable_neg, fun y g hg i => ?_⟩
  have h0 : (lit 0 : ℝ) = 0 := by simp
  show ∫⁻ w, g (drawNormal (F := ℝ) (lit 0) s w).1 ∂(μ i) = ∫⁻ w, g (-(drawNormal (F := ℝ) (lit 0) s w).1) ∂(μ i)
  rw [h0]
  have hm : Measurable fun w : Rand E D => (drawNormal (F := ℝ) 0 s w).1 := measurable_fst.comp (h.normal_meas 0 s)
  rw [← lintegral_map hg hm, ← hn s i, lintegral_map hg (show Measurable fun w : Rand E D => -(drawNormal (F := ℝ) 0 s w).1 from hm.neg)]

/-! ### Nuclei -/

omit h in
omit [MeasurableSpace E] [MeasurableSpace D] in
theorem spherical_turn (r c φ : ℝ) : spherical r (-c) (red (-1 * φ + 0)) = ((spherical r c φ).1, -(spherical r c φ).2.1, -(spherical r c φ).2.2) := by
  have e : -c * -c = c * c := by ring
  simp only [spherical, e, cos_real, sin_real, cos_red, sin_red, neg_one_mul, add_zero, Real.cos_neg, Real.sin_neg, mul_neg]

omit h in
theorem turn_setPos (o : ℝ) (n : NucleonData ℝ) (x y z : ℝ) : turn (setNucleonPosition o n x y z) = setNucleonPosition o n x (-y) (-z) := by
  simp [turn, setNucleonPosition, NucleonData.setPosition]

omit h in
theorem setPos_turn (o : ℝ) (n : NucleonData ℝ) (x y z : ℝ) (hn : n.constituentsExist = false) :
    setNucleonPosition o (turn n) x y z = setNucleonPosition o n x y z := by
  simp [turn, setNucleonPosition, NucleonData.setPosition, hn]

theorem equi_sampleDeuteron (a b : ℝ) (fuel : ℕ) (n1 n2 : NucleonData ℝ) :
    Equi μ (fun (o : ℝ) (w : Rand E D) => sampleDeuteron fuel a b o [n1, n2] w) id fun l => l.map turn := by
  have := h.prob
  have hf : Measurable fun p : ((ℝ × ℝ) × ℝ) × ℝ => spherical p.1.1.2 p.1.2 p.2 :=
    spherical_meas (measurable_snd.comp (measurable_fst.comp measurable_fst)) (measurable_snd.comp measurable_fst) measurable_snd
  have ho : Measurable fun p : ((ℝ × ℝ) × ℝ) × ℝ => p.1.1.1 := measurable_fst.comp (measurable_fst.comp measurable_fst)
  have hfx := measurable_fst.comp hf
  have hfy := measurable_fst.comp (measurable_snd.comp hf)
  have hfz := measurable_snd.comp (measurable_snd.comp hf)
  have hm := Measurable.cons (setPos_meas ho (measurable_const (a := n1)) hfx hfy hfz)
    (Measurable.cons (setPos_meas ho (measurable_const (a := n2)) hfx.neg hfy.neg hfz.neg) (measurable_const (a := ([] : List (NucleonData ℝ)))))
  have h1 := Equi.fixed (renews_deuteronLoop h a b fuel) (σ := (id : ℝ → ℝ)) fun _ _ => rfl
  refine (h1.bind ((equi_cosTheta h).bind ((equi_phi h (s := -1) (Or.inr rfl) 0).map hm mapTurn_meas ?_))).congr fun o w => ?_
  · rintro ⟨⟨o, r⟩, c⟩ φ
    simp only [Pi.neg_apply, Function.comp, id, spherical_turn, List.map_cons, List.map_nil, turn_setPos, neg_neg]
  · unfold sampleDeuteron
    cases deuteronLoop a b fuel w <;> rfl

omit h in
theorem isTooClose_turn (dm : ℝ) (l : List (NucleonData ℝ)) (n : NucleonData ℝ) : isTooClose dm (l.map turn) (turn n) = isTooClose dm l n := by
  unfold isTooClose
  split
  · rfl
  · rw [List.any_map]
    congr 1
    funext n2
    simp only [Function.comp, turn, lt_real]
    congr 2
    ring

/-- parameters of a placement in a spherical nucleus: offset, radius, nucleons placed, nucleon -/
abbrev PW := ((ℝ × ℝ) × List (NucleonData ℝ)) × NucleonData ℝ

/-- all but the (old) nucleon turned -/
noncomputable def turnPW (p : PW) : PW := ((p.1.1, p.1.2.map turn), p.2)

omit h in
theorem setPos_old {o x y z : ℝ} {n n' : NucleonData ℝ} (hn : n.constituents = n'.constituents) : setNucleonPosition o n x y z = setNucleonPosition o n' x y z := by
  simp [setNucleonPosition, NucleonData.setPosition, hn]

omit h [MeasurableSpace E] [MeasurableSpace D] in
theorem placeWS_old (o dm r : ℝ) (placed : List (NucleonData ℝ)) (left : ℕ) {n n' : NucleonData ℝ} (hn : n.constituents = n'.constituents) (w : Rand E D) :
    placeWS o dm r placed (left+1) n w = placeWS o dm r placed (left+1) n' w := by
  rw [placeWS, placeWS]
  simp only [setPos_old hn]

theorem equi_placeWS (dm : ℝ) (left : ℕ) : Equi μ (fun (p : PW) (w : Rand E D) => .ok (placeWS p.1.1.1 dm p.1.1.2 p.1.2 (left+1) p.2 w)) turnPW turn := by
  have := h.prob
  induction left with
  | zero =>
    have hn : Measurable fun q : (PW × ℝ) × ℝ =>
        setNucleonPosition q.1.1.1.1.1 q.1.1.2 (spherical q.1.1.1.1.2 q.1.2 q.2).1 (spherical q.1.1.1.1.2 q.1.2 q.2).2.1 (spherical q.1.1.1.1.2 q.1.2 q.2).2.2 := by
      have hs : Measurable fun q : (PW × ℝ) × ℝ => spherical q.1.1.1.1.2 q.1.2 q.2 := spherical_meas (by fun_prop) (by fun_prop) (by fun_prop)
      exact setPos_meas (by fun_prop) (by fun_prop) (measurable_fst.comp hs) (measurable_fst.comp (measurable_snd.comp hs)) (measurable_snd.comp (measurable_snd.comp hs))
    refine ((equi_cosTheta h).bind ((equi_phi h (s := -1) (Or.inr rfl) 0).map hn turn_meas ?_)).congr fun p w => ?_
    · rintro ⟨p, c⟩ φ
      simp only [turnPW, spherical_turn, turn_setPos]
    · rw [placeWS]
      simp only [bindR]
      rfl
  | succ left ih =>
    have hn : Measurable fun q : (PW × ℝ) × ℝ =>
        setNucleonPosition q.1.1.1.1.1 q.1.1.2 (spherical q.1.1.1.1.2 q.1.2 q.2).1 (spherical q.1.1.1.1.2 q.1.2 q.2).2.1 (spherical q.1.1.1.1.2 q.1.2 q.2).2.2 := by
      have hs : Measurable fun q : (PW × ℝ) × ℝ => spherical q.1.1.1.1.2 q.1.2 q.2 := spherical_meas (by fun_prop) (by fun_prop) (by fun_prop)
      exact setPos_meas (by fun_prop) (by fun_prop) (measurable_fst.comp hs) (measurable_fst.comp (measurable_snd.comp hs)) (measurable_snd.comp (measurable_snd.comp hs))
    have hl : Measurable fun q : (PW × ℝ) × ℝ => q.1.1.1.2 := by fun_prop
    have hkey : ∀ q : (PW × ℝ) × ℝ, setNucleonPosition (turnPW q.1.1).1.1.1 (turnPW q.1.1).2 (spherical (turnPW q.1.1).1.1.2 (-q.1.2) (red (-1 * q.2 + 0))).1
          (spherical (turnPW q.1.1).1.1.2 (-q.1.2) (red (-1 * q.2 + 0))).2.1 (spherical (turnPW q.1.1).1.1.2 (-q.1.2) (red (-1 * q.2 + 0))).2.2 =
        turn (setNucleonPosition q.1.1.1.1.1 q.1.1.2 (spherical q.1.1.1.1.2 q.1.2 q.2).1 (spherical q.1.1.1.1.2 q.1.2 q.2).2.1 (spherical q.1.1.1.1.2 q.1.2 q.2).2.2) := by
      intro q
      simp only [turnPW, spherical_turn, turn_setPos]
    -- retry with the untouched nucleon
    have hr := ih.comp (f := fun q : (PW × ℝ) × ℝ => q.1.1) (ρ := fun q => ((turnPW q.1.1, -q.1.2), red (-1 * q.2 + 0))) (by fun_prop) fun q => rfl
    have h3 := Equi.bite hr (Equi.pure (μ := μ) (σ := fun q : (PW × ℝ) × ℝ => ((turnPW q.1.1, -q.1.2), red (-1 * q.2 + 0))) hn turn_meas hkey)
      (c := fun q => isTooClose dm q.1.1.1.2
        (setNucleonPosition q.1.1.1.1.1 q.1.1.2 (spherical q.1.1.1.1.2 q.1.2 q.2).1 (spherical q.1.1.1.1.2 q.1.2 q.2).2.1 (spherical q.1.1.1.1.2 q.1.2 q.2).2.2))
      (isTooClose_meas dm hl hn) (fun q => by
        show isTooClose dm (turnPW q.1.1).1.2 _ = _
        rw [hkey q]
        exact isTooClose_turn _ _ _)
    refine ((equi_cosTheta h).bind ((equi_phi h (s := -1) (Or.inr rfl) 0).bind h3)).congr fun p w => ?_
    rw [placeWS]
    simp only [bindR, Nat.succ_pos', decide_true, Bool.true_and]
    split
    · rename_i hc
      refine congrArg _ (placeWS_old _ _ _ _ left (by simp [setNucleonPosition, NucleonData.setPosition]) _)
    · rfl


omit h in
theorem length_meas {γ : Type} [MeasurableSpace γ] (k : ℕ) {l : Z → List γ} (hl : Measurable l) : MeasurableSet {z | (l z).length = k} := by
  have := measurable_list_rec (Y := Unit) (α := γ) (f := fun _ l => l.length) (by simp) (fun n ih => by
    have h1 := ih (Z := Unit × γ × (Fin n → γ)) (y := fun p => p.1) (v := fun p => p.2.2) measurable_fst (measurable_snd.comp measurable_snd)
    simp only [List.length_cons]
    exact (measurable_of_countable fun m : ℕ => m + 1).comp h1)
  exact ((this.comp ((measurable_const (a := ())).prodMk hl)) : Measurable fun z => (l z).length) (measurableSet_singleton k)

omit h in
theorem turn_append (l : List (NucleonData ℝ)) (n : NucleonData ℝ) : l.map turn ++ [turn n] = (l ++ [n]).map turn := by simp

/-- offset, nucleons placed -/
abbrev PA := ℝ × List (NucleonData ℝ)

theorem equi_placeAllWS (dm : ℝ) (ns : List (NucleonData ℝ)) :
    Equi μ (fun (p : PA × List ℝ) (w : Rand E D) => if p.2.length = ns.length then .ok (placeAllWS p.1.1 dm p.1.2 p.2 ns w) else .error .fuel)
      (fun p => ((p.1.1, p.1.2.map turn), p.2.map id)) fun l => l.map turn := by
  have := h.prob
  induction ns with
  | nil =>
    refine ((Equi.pure (σ := fun p : PA × List ℝ => ((p.1.1, p.1.2.map turn), p.2.map id)) (q := fun p : PA × List ℝ => p.1.2)
      (measurable_snd.comp measurable_fst) mapTurn_meas fun p => rfl).ite (Equi.fail .fuel mapTurn_meas)
      (c := fun p => p.2.length = 0) (length_meas 0 measurable_snd) fun p => by simp).congr fun p w => ?_
    split
    · rename_i h0
      rw [placeAllWS]
      · simp at h0 ⊢; simp [h0]
      · rintro _ _ _ _ _ h0; cases h0
    · rename_i h0; simp at h0 ⊢; simp [h0]
  | cons n ns ih =>
    refine Equi.listCases (σ := fun y : PA => (y.1, y.2.map turn)) (s := (id : ℝ → ℝ))
      (P := fun (y : PA) rs w => if rs.length = (n :: ns).length then .ok (placeAllWS y.1 dm y.2 rs (n :: ns) w) else .error .fuel) ?_ ?_
    · refine (Equi.fail .fuel mapTurn_meas).congr fun y w => ?_
      simp
    · have h1 := (equi_placeWS h dm 999).comp (f := fun p : PA × ℝ × List ℝ => (((p.1.1, p.2.1), p.1.2), n))
        (ρ := fun p : PA × ℝ × List ℝ => ((p.1.1, p.1.2.map turn), id p.2.1, p.2.2.map id)) (by fun_prop) fun p => by simp [turnPW]
      have h2 := ih.comp (f := fun p : (PA × ℝ × List ℝ) × NucleonData ℝ => ((p.1.1.1, p.1.1.2 ++ [p.2]), p.1.2.2))
        (ρ := fun p => (((p.1.1.1, p.1.1.2.map turn), id p.1.2.1, p.1.2.2.map id), turn p.2))
        (((measurable_fst.comp (measurable_fst.comp measurable_fst)).prodMk
          ((measurable_snd.comp (measurable_fst.comp measurable_fst)).append (measurable_snd.cons measurable_const))).prodMk
          (measurable_snd.comp (measurable_snd.comp measurable_fst))) fun p => by simp
      refine (h1.bind h2).congr fun p w => ?_
      simp only [bindR, List.length_cons, Nat.add_right_cancel_iff]
      rw [placeAllWS]

theorem equi_sampleWS (R a dm : ℝ) (ns : List (NucleonData ℝ)) : Equi μ (fun (o : ℝ) (w : Rand E D) => .ok (sampleWS R a dm o ns w)) id fun l => l.map turn := by
  have := h.prob
  have h1 := Equi.fixed (renews_drawRadii h R a ns.length) (σ := (id : ℝ → ℝ)) fun _ _ => rfl
  have h2 := (equi_placeAllWS h dm ns).comp (f := fun p : ℝ × List ℝ => ((p.1, ([] : List (NucleonData ℝ))), sortBy id p.2)) (ρ := fun p => (id p.1, id p.2))
    ((measurable_fst.prodMk measurable_const).prodMk (sortBy_meas measurable_id measurable_snd)) fun p => by simp
  refine (h1.bind h2).congr fun o w => ?_
  simp only [bindR]
  rw [if_pos (by rw [(sortBy_perm (F := ℝ) id _).length_eq, drawRadii_length])]
  rfl

/-! ### Deformed nuclei -/

/-- the tilt and spin of the turned nucleus -/
noncomputable def turnTS (t : TiltSpin ℝ) : TiltSpin ℝ := ⟨-t.cosA, t.sinA, -t.cosB, t.sinB⟩

omit h in
theorem tilt_mk {a b c d : Z → ℝ} (ha : Measurable a) (hb : Measurable b) (hc : Measurable c) (hd : Measurable d) :
    Measurable fun z => (⟨a z, b z, c z, d z⟩ : TiltSpin ℝ) :=
  measurable_comap_iff.mpr (ha.prodMk (hb.prodMk (hc.prodMk hd)))

omit h in
theorem turnTS_meas : Measurable turnTS :=
  tilt_mk (measurable_fst.comp tilt_tuple).neg ((measurable_fst.comp measurable_snd).comp tilt_tuple)
    ((measurable_fst.comp (measurable_snd.comp measurable_snd)).comp tilt_tuple).neg ((measurable_snd.comp (measurable_snd.comp measurable_snd)).comp tilt_tuple)

theorem equi_drawTiltSpin {σ : Y → Y} : Equi μ (fun (_ : Y) (w : Rand E D) => .ok (drawTiltSpin (F := ℝ) w)) σ turnTS := by
  have := h.prob
  refine ((equi_cosTheta h).bind ((equi_phi h (s := -1) (Or.inr rfl) π).map
    (f := fun p : (Y × ℝ) × ℝ => (⟨p.1.2, sqrt (lit 1 - p.1.2 * p.1.2), cos p.2, sin p.2⟩ : TiltSpin ℝ)) ?_ turnTS_meas ?_)).congr fun y w => rfl
  · refine measurable_comap_iff.mpr ?_
    show Measurable fun p : (Y × ℝ) × ℝ => (p.1.2, Real.sqrt (((1:ℚ):ℝ) - p.1.2 * p.1.2), Real.cos p.2, Real.sin p.2)
    fun_prop
  · rintro ⟨y, c⟩ φ
    have e : -c * -c = c * c := by ring
    simp only [turnTS, cos_real, sin_real, cos_red, sin_red, e, neg_one_mul, Real.cos_add_pi, Real.sin_add_pi, Real.cos_neg, Real.sin_neg, neg_neg]

omit h in
theorem rotateTS_turn (t : TiltSpin ℝ) (r φ z : ℝ) :
    rotateTS (turnTS t) (r * Real.cos (red (1 * φ + π))) (r * Real.sin (red (1 * φ + π))) z =
      ((rotateTS t (r * Real.cos φ) (r * Real.sin φ) z).1, -(rotateTS t (r * Real.cos φ) (r * Real.sin φ) z).2.1,
        -(rotateTS t (r * Real.cos φ) (r * Real.sin φ) z).2.2) := by
  simp only [cos_red, sin_red, one_mul, Real.cos_add_pi, Real.sin_add_pi, rotateTS, turnTS, Prod.mk.injEq]
  refine ⟨by ring, by ring, by ring⟩

/-- parameters turned but for the old nucleon -/
noncomputable def turnPD (p : PD) : PD := ((((((p.1.1.1.1.1, turnTS p.1.1.1.1.2), p.1.1.1.2), p.1.1.2.map turn), p.1.2), p.2))

omit h [MeasurableSpace E] [MeasurableSpace D] in
theorem placeDef_old (o dm : ℝ) (t : TiltSpin ℝ) (r : ℝ) (placed : List (NucleonData ℝ)) (left : ℕ) (z : ℝ) {n n' : NucleonData ℝ}
    (hn : n.constituents = n'.constituents) (w : Rand E D) : placeDef o dm t r placed (left+1) z n w = placeDef o dm t r placed (left+1) z n' w := by
  rw [placeDef, placeDef]
  simp only [setPos_old hn]

/-- the new position of a nucleon -/
noncomputable def newDef (q : PD × ℝ) : NucleonData ℝ := setNucleonPosition q.1.1.1.1.1.1 q.1.2
        (rotateTS q.1.1.1.1.1.2 (q.1.1.1.1.2 * Real.cos q.2) (q.1.1.1.1.2 * Real.sin q.2) q.1.1.2).1
        (rotateTS q.1.1.1.1.1.2 (q.1.1.1.1.2 * Real.cos q.2) (q.1.1.1.1.2 * Real.sin q.2) q.1.1.2).2.1
        (rotateTS q.1.1.1.1.1.2 (q.1.1.1.1.2 * Real.cos q.2) (q.1.1.1.1.2 * Real.sin q.2) q.1.1.2).2.2

omit h in
theorem newDef_meas : Measurable newDef := by
  have hrot : Measurable fun q : PD × ℝ => rotateTS q.1.1.1.1.1.2 (q.1.1.1.1.2 * Real.cos q.2) (q.1.1.1.1.2 * Real.sin q.2) q.1.1.2 :=
    rotateTS_meas (by fun_prop) (by fun_prop) (by fun_prop) (by fun_prop)
  exact setPos_meas (by fun_prop) (by fun_prop) (measurable_fst.comp hrot) (measurable_fst.comp (measurable_snd.comp hrot))
    (measurable_snd.comp (measurable_snd.comp hrot))

omit h in
theorem newDef_turn (q : PD × ℝ) : newDef (turnPD q.1, red (1 * q.2 + π)) = turn (newDef q) := by
  simp only [newDef, turnPD, rotateTS_turn, turn_setPos]

theorem equi_placeDef (dm : ℝ) (left : ℕ) : Equi μ (fun (p : PD) (w : Rand E D) =>
    .ok (placeDef p.1.1.1.1.1 dm p.1.1.1.1.2 p.1.1.1.2 p.1.1.2 (left+1) p.1.2 p.2 w)) turnPD turn := by
  have := h.prob
  induction left with
  | zero =>
    refine ((equi_phi h (s := 1) (Or.inl rfl) π).map newDef_meas turn_meas ?_).congr fun p w => ?_
    · intro p φ
      exact newDef_turn (p, φ)
    · rw [placeDef]
      simp only [bindR, cos_real, sin_real]
      rfl
  | succ left ih =>
    have hl : Measurable fun q : PD × ℝ => q.1.1.1.2 := by fun_prop
    have hr := ih.comp (f := fun q : PD × ℝ => ((q.1.1.1, q.1.1.2 * lit (-1)), q.1.2)) (ρ := fun q => (turnPD q.1, red (1 * q.2 + π)))
      (by simp only [lit_real]; fun_prop) fun q => rfl
    have h3 := Equi.bite hr (Equi.pure (μ := μ) (σ := fun q : PD × ℝ => (turnPD q.1, red (1 * q.2 + π))) newDef_meas turn_meas newDef_turn)
      (c := fun q => isTooClose dm q.1.1.1.2 (newDef q)) (isTooClose_meas dm hl newDef_meas) (fun q => by
        rw [newDef_turn]
        exact isTooClose_turn _ _ _)
    refine ((equi_phi h (s := 1) (Or.inl rfl) π).bind h3).congr fun p w => ?_
    rw [placeDef]
    simp only [bindR, cos_real, sin_real, Nat.succ_pos', decide_true, Bool.true_and]
    show Except.ok (if isTooClose dm p.1.1.2 (newDef (p, (phi (F := ℝ) w).1)) = true then _ else _) = _
    split
    · refine congrArg _ (placeDef_old _ _ _ _ _ left _ (by simp [setNucleonPosition, NucleonData.setPosition]) _)
    · rfl

/-- offset, orientation, nucleons placed -/
abbrev PE := (ℝ × TiltSpin ℝ) × List (NucleonData ℝ)

theorem equi_placeAllDef (dm : ℝ) (ns : List (NucleonData ℝ)) :
    Equi μ (fun (p : PE × List (ℝ × ℝ)) (w : Rand E D) => if p.2.length = ns.length then .ok (placeAllDef p.1.1.1 dm p.1.1.2 p.1.2 p.2 ns w) else .error .fuel)
      (fun p => (((p.1.1.1, turnTS p.1.1.2), p.1.2.map turn), p.2.map id)) fun l => l.map turn := by
  have := h.prob
  induction ns with
  | nil =>
    refine ((Equi.pure (σ := fun p : PE × List (ℝ × ℝ) => (((p.1.1.1, turnTS p.1.1.2), p.1.2.map turn), p.2.map id)) (q := fun p : PE × List (ℝ × ℝ) => p.1.2)
      (measurable_snd.comp measurable_fst) mapTurn_meas fun p => rfl).ite (Equi.fail .fuel mapTurn_meas)
      (c := fun p => p.2.length = 0) (length_meas 0 measurable_snd) fun p => by simp).congr fun p w => ?_
    split
    · rename_i h0
      rw [placeAllDef]
      · simp at h0 ⊢; simp [h0]
      · rintro _ _ _ _ _ h0; cases h0
    · rename_i h0; simp at h0 ⊢; simp [h0]
  | cons n ns ih =>
    refine Equi.listCases (σ := fun y : PE => ((y.1.1, turnTS y.1.2), y.2.map turn)) (s := (id : ℝ × ℝ → ℝ × ℝ))
      (P := fun (y : PE) rs w => if rs.length = (n :: ns).length then .ok (placeAllDef y.1.1 dm y.1.2 y.2 rs (n :: ns) w) else .error .fuel) ?_ ?_
    · refine (Equi.fail .fuel mapTurn_meas).congr fun y w => ?_
      simp
    · have h1 := (equi_placeDef h dm 999).comp (f := fun p : PE × (ℝ × ℝ) × List (ℝ × ℝ) =>
          (((((p.1.1.1, p.1.1.2), p.2.1.1 * Real.sqrt (((1:ℚ):ℝ) - p.2.1.2 * p.2.1.2)), p.1.2), p.2.1.1 * p.2.1.2), n))
        (ρ := fun p => (((p.1.1.1, turnTS p.1.1.2), p.1.2.map turn), id p.2.1, p.2.2.map id)) (by fun_prop) fun p => by simp [turnPD]
      have h2 := ih.comp (f := fun p : (PE × (ℝ × ℝ) × List (ℝ × ℝ)) × NucleonData ℝ => ((p.1.1.1, p.1.1.2 ++ [p.2]), p.1.2.2))
        (ρ := fun p => ((((p.1.1.1.1, turnTS p.1.1.1.2), p.1.1.2.map turn), id p.1.2.1, p.1.2.2.map id), turn p.2))
        (((measurable_fst.comp (measurable_fst.comp measurable_fst)).prodMk
          ((measurable_snd.comp (measurable_fst.comp measurable_fst)).append (measurable_snd.cons measurable_const))).prodMk
          (measurable_snd.comp (measurable_snd.comp measurable_fst))) fun p => by simp
      refine (h1.bind h2).congr fun p w => ?_
      simp only [bindR, List.length_cons, Nat.add_right_cancel_iff]
      rw [placeAllDef]
      rfl

theorem equi_sampleDeformed (fuel : ℕ) (R a b2 b4 rmax dm : ℝ) (ns : List (NucleonData ℝ)) :
    Equi μ (fun (o : ℝ) (w : Rand E D) => sampleDeformed fuel R a b2 b4 rmax dm o ns w) id fun l => l.map turn := by
  have := h.prob
  have h2 := Equi.fixed (renews_drawDeformed h fuel R a b2 b4 rmax ns.length) (σ := fun p : ℝ × TiltSpin ℝ => (id p.1, turnTS p.2)) fun _ _ => rfl
  have h3 := (equi_placeAllDef h dm ns).comp (f := fun p : (ℝ × TiltSpin ℝ) × List (ℝ × ℝ) => (((p.1.1, p.1.2), ([] : List (NucleonData ℝ))), sortBy Prod.fst p.2))
    (ρ := fun p => ((id p.1.1, turnTS p.1.2), id p.2))
    ((((measurable_fst.comp measurable_fst).prodMk (measurable_snd.comp measurable_fst)).prodMk measurable_const).prodMk (sortBy_meas measurable_fst measurable_snd))
    fun p => by simp
  refine ((equi_drawTiltSpin h).bind (h2.bind h3)).congr fun o w => ?_
  unfold sampleDeformed
  simp only [bindR]
  cases hd : drawDeformed fuel R a b2 b4 rmax ns.length (drawTiltSpin (F := ℝ) w).2 with
  | error e => rfl
  | ok t =>
    dsimp only
    rw [if_pos (by rw [sortBy_length, drawDeformed_length hd])]

/-! ### Nuclei from files -/

/-- the Euler angles of the turned nucleus -/
noncomputable def turnEuler (e : Euler ℝ) : Euler ℝ := ⟨-e.c1, -e.s1, -e.c2, e.s2, -e.c3, e.s3⟩

theorem equi_drawEuler {σ : Y → Y} : Equi μ (fun (_ : Y) (w : Rand E D) => .ok (drawEuler (F := ℝ) w)) σ turnEuler := by
  have := h.prob
  refine ((equi_phi h (s := 1) (Or.inl rfl) π).bind ((equi_cosTheta h).bind ((equi_phi h (s := -1) (Or.inr rfl) π).map
    (f := fun p : ((Y × ℝ) × ℝ) × ℝ => (⟨cos p.1.1.2, sin p.1.1.2, p.1.2, sqrt (lit 1 - p.1.2 * p.1.2), cos p.2, sin p.2⟩ : Euler ℝ)) ?_ ?_ ?_))).congr fun y w => rfl
  · refine measurable_comap_iff.mpr ?_
    show Measurable fun p : ((Y × ℝ) × ℝ) × ℝ => (Real.cos p.1.1.2, Real.sin p.1.1.2, p.1.2, Real.sqrt (((1:ℚ):ℝ) - p.1.2 * p.1.2), Real.cos p.2, Real.sin p.2)
    fun_prop
  · refine measurable_comap_iff.mpr ?_
    have : Measurable fun t : ℝ × ℝ × ℝ × ℝ × ℝ × ℝ => (-t.1, -t.2.1, -t.2.2.1, t.2.2.2.1, -t.2.2.2.2.1, t.2.2.2.2.2) := by fun_prop
    exact this.comp euler_tuple
  · rintro ⟨⟨y, a⟩, c⟩ φ
    have e : -c * -c = c * c := by ring
    simp only [turnEuler, cos_real, sin_real, cos_red, sin_red, e, one_mul, neg_one_mul, Real.cos_add_pi, Real.sin_add_pi, Real.cos_neg, Real.sin_neg, neg_neg]

omit h in
theorem rotateEuler_turn (e : Euler ℝ) (x y z : ℝ) :
    rotateEuler (turnEuler e) x y z = ((rotateEuler e x y z).1, -(rotateEuler e x y z).2.1, -(rotateEuler e x y z).2.2) := by
  simp only [rotateEuler, turnEuler, Prod.mk.injEq]
  refine ⟨by ring, by ring, by ring⟩

omit h in
theorem placeManual_turn (o : ℝ) (e : Euler ℝ) (ps : List (ℝ × ℝ × ℝ)) (ns : List (NucleonData ℝ)) :
    placeManual o (turnEuler e) ps ns = (placeManual o e ps ns).map fun l => l.map turn := by
  induction ns generalizing ps with
  | nil => cases ps <;> rfl
  | cons n ns ih =>
    cases ps with
    | nil => rfl
    | cons p ps =>
      obtain ⟨x, y, z⟩ := p
      rw [placeManual, placeManual, ih ps]
      cases placeManual o e ps ns with
      | error e => rfl
      | ok l => simp only [Except.map, rotateEuler_turn, List.map_cons, turn_setPos]

theorem equi_sampleManual (configs : List (List (ℝ × ℝ × ℝ))) (ns : List (NucleonData ℝ)) :
    Equi μ (fun (o : ℝ) (w : Rand E D) => sampleManual configs o ns w) id fun l => l.map turn := by
  have := h.prob
  have h3 : Equi μ (fun (p : (ℝ × Euler ℝ) × ℕ) (w : Rand E D) => match configs[p.2]? with
      | none => (.error (.throw .h5Exception "selection outside the dataset") : Res (List (NucleonData ℝ) × Rand E D))
      | some ps => exElim (placeManual p.1.1 p.1.2 ps ns) Except.error fun ns => .ok (ns, w)) (fun p => ((id p.1.1, turnEuler p.1.2), id p.2)) fun l => l.map turn := by
    refine Equi.countable (N := ℕ) (σ := fun p : ℝ × Euler ℝ => (id p.1, turnEuler p.2)) mapTurn_meas fun k => ?_
    dsimp only
    cases configs[k]? with
    | none => exact Equi.fail _ mapTurn_meas
    | some ps => exact Equi.ofRes (placeManual_meas ps ns measurable_fst measurable_snd) mapTurn_meas fun p => placeManual_turn _ _ _ _
  have h2 := Equi.fixed (renews_index h (if configs.length = 0 then 18446744073709551615 else configs.length - 1))
    (σ := fun p : ℝ × Euler ℝ => (id p.1, turnEuler p.2)) fun _ _ => rfl
  refine ((equi_drawEuler h).bind (h2.bind h3)).congr fun o w => ?_
  unfold sampleManual
  simp only [bindR]
  split
  · rename_i h0; rw [h0]
  · rename_i ps h0
    rw [h0]
    dsimp only
    cases placeManual o (drawEuler (F := ℝ) w).1 ps ns <;> rfl

/-- sampling a nucleus: its nucleons -/
theorem equi_sampleNucleons (fuel : ℕ) (nuc : Nucleus ℝ) (hh : NucleusHistory E D nuc) :
    Equi μ (fun (o : ℝ) (w : Rand E D) => (nuc.sampleNucleons fuel o w).map fun t => (t.1.nucleons, t.2)) id fun l => l.map turn := by
  have := h.prob
  have hw := hh.wf
  unfold Nucleus.WF at hw
  have key : ∀ S : ℝ → Rand E D → Res (List (NucleonData ℝ) × Rand E D), Equi μ S id (fun l => l.map turn) →
      (∀ o w, nuc.sampleNucleons fuel o w = match S o w with | .error e => .error e | .ok (ns, w) => .ok ({ nuc with nucleons := ns, offset := o }, w)) →
      Equi μ (fun (o : ℝ) (w : Rand E D) => (nuc.sampleNucleons fuel o w).map fun t => (t.1.nucleons, t.2)) id fun l => l.map turn := by
    intro S hS he
    refine hS.congr fun o w => ?_
    rw [he]
    cases S o w <;> rfl
  cases hk : nuc.kind with
  | proton =>
    rw [hk] at hw
    dsimp only at hw
    match hn : nuc.nucleons, hw with
    | [n], _ =>
      refine key (fun o w => .ok (sampleProton o [n], w)) (Equi.pure ?_ mapTurn_meas ?_) (fun o w => by simp only [Nucleus.sampleNucleons, hk, hn])
      · exact (setPos_meas measurable_id measurable_const measurable_const measurable_const measurable_const).cons measurable_const
      · intro o
        simp [sampleProton, turn_setPos]
  | deuteron a b =>
    rw [hk] at hw
    dsimp only at hw
    match hn : nuc.nucleons, hw with
    | [n1, n2], _ =>
      exact key _ (equi_sampleDeuteron h a b fuel n1 n2) (fun o w => by simp only [Nucleus.sampleNucleons, hk, hn]; cases sampleDeuteron fuel a b o [n1, n2] w <;> rfl)
  | woodsSaxon R a dm => exact key _ (equi_sampleWS h R a dm nuc.nucleons) (fun o w => by simp only [Nucleus.sampleNucleons, hk])
  | deformed R a b2 b4 rmax dm => exact key _ (equi_sampleDeformed h fuel R a b2 b4 rmax dm nuc.nucleons) (fun o w => by simp only [Nucleus.sampleNucleons, hk]; cases sampleDeformed fuel R a b2 b4 rmax dm o nuc.nucleons w <;> rfl)
  | manual configs rmax => exact key _ (equi_sampleManual h configs nuc.nucleons) (fun o w => by simp only [Nucleus.sampleNucleons, hk]; cases sampleManual configs o nuc.nucleons w <;> rfl)

end

end Trento
