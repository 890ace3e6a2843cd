import Verif.Lemmas.Ideal
import Mathlib.Data.List.GetD

/-!
# Placement of the nucleons as a function of positions only

`placeP`, `placeAllP`: the loops of the spherical nucleus written for positions relative to the centre; they agree with the model
(`placeWS_P`, `placeAllWS_P`) and their law is invariant under rotations.
-/

namespace Trento
open MeasureTheory Set Real Spec
open scoped ENNReal Classical

local notation "SO3" => Matrix.specialOrthogonalGroup (Fin 3) ℝ
/-- positions -/
abbrev P3 := Fin 3 → ℝ

variable {E D : Type} [Rng ℝ E D] [MeasurableSpace E] {μ : Measure E}

/-- a list of measurable functions, of fixed length -/
structure MeasL {Y α : Type} [MeasurableSpace Y] [MeasurableSpace α] [Zero α] (L : Y → List α) : Prop where
  len : ∃ n, ∀ y, (L y).length = n
  coord : ∀ i, Measurable fun y => (L y).getD i 0

section MeasL
variable {Y α : Type} [MeasurableSpace Y] [MeasurableSpace α] [Zero α]

theorem MeasL.const (l : List α) : MeasL fun _ : Y => l := ⟨⟨_, fun _ => rfl⟩, fun _ => measurable_const⟩

theorem MeasL.cons {a : Y → α} {L : Y → List α} (ha : Measurable a) (h : MeasL L) : MeasL fun y => a y :: L y := by
  obtain ⟨n, hn⟩ := h.len
  refine ⟨⟨n+1, fun y => by simp [hn]⟩, fun i => ?_⟩
  cases i with
  | zero => simpa using ha
  | succ i => simpa using h.coord i

theorem MeasL.tail {L : Y → List α} (h : MeasL L) : MeasL fun y => (L y).tail := by
  obtain ⟨n, hn⟩ := h.len
  refine ⟨⟨n-1, fun y => by simp [hn]⟩, fun i => ?_⟩
  have := h.coord (i+1)
  have e : ∀ y, (L y).tail.getD i 0 = (L y).getD (i+1) 0 := by
    intro y
    cases L y <;> simp
  simpa only [e] using this

theorem MeasL.snoc {a : Y → α} {L : Y → List α} (ha : Measurable a) (h : MeasL L) : MeasL fun y => L y ++ [a y] := by
  obtain ⟨n, hn⟩ := h.len
  refine ⟨⟨n+1, fun y => by simp [hn]⟩, fun i => ?_⟩
  rcases lt_trichotomy i n with hi | hi | hi
  · have e : ∀ y, (L y ++ [a y]).getD i 0 = (L y).getD i 0 := by
      intro y; rw [List.getD_append]; rw [hn]; exact hi
    simpa only [e] using h.coord i
  · have e : ∀ y, (L y ++ [a y]).getD i 0 = a y := by
      intro y; rw [List.getD_append_right _ _ _ _ (by rw [hn, hi]), hn, hi]; simp
    simpa only [e] using ha
  · have e : ∀ y, (L y ++ [a y]).getD i 0 = 0 := by
      intro y; apply List.getD_eq_default; simp [hn]; omega
    simpa only [e] using measurable_const

theorem MeasL.comp {Z : Type} [MeasurableSpace Z] {L : Y → List α} (h : MeasL L) {g : Z → Y} (hg : Measurable g) :
    MeasL fun z => L (g z) := by
  obtain ⟨n, hn⟩ := h.len
  exact ⟨⟨n, fun z => hn _⟩, fun i => (h.coord i).comp hg⟩

theorem MeasL.ite {c : Y → Prop} {L L' : Y → List α} (hc : MeasurableSet {y | c y}) (h : MeasL L) (h' : MeasL L')
    (hl : ∀ y, (L y).length = (L' y).length) : MeasL fun y => if c y then L y else L' y := by
  obtain ⟨n, hn⟩ := h.len
  refine ⟨⟨n, fun y => by split <;> simp [← hl, hn]⟩, fun i => ?_⟩
  have e : ∀ y, (if c y then L y else L' y).getD i 0 = if c y then (L y).getD i 0 else (L' y).getD i 0 := by
    intro y; split <;> rfl
  simp only [e]
  exact Measurable.ite hc (h.coord i) (h'.coord i)

theorem MeasL.exists {L : Y → List α} (h : MeasL L) {S : Set (Y × α)} (hS : MeasurableSet S) :
    MeasurableSet {y | ∃ q ∈ L y, (y, q) ∈ S} := by
  obtain ⟨n, hn⟩ := h.len
  have e : {y | ∃ q ∈ L y, (y, q) ∈ S} = ⋃ i ∈ Finset.range n, (fun y => (y, (L y).getD i 0)) ⁻¹' S := by
    ext y
    simp only [mem_ofPred_eq, mem_iUnion, Finset.mem_range, mem_preimage, exists_prop]
    constructor
    · rintro ⟨q, hq, hs⟩
      obtain ⟨i, hi, rfl⟩ := List.mem_iff_getElem.1 hq
      exact ⟨i, hn y ▸ hi, by rw [List.getD_eq_getElem _ _ hi]; exact hs⟩
    · rintro ⟨i, hi, hs⟩
      rw [← hn y] at hi
      rw [List.getD_eq_getElem _ _ hi] at hs
      exact ⟨_, List.getElem_mem hi, hs⟩
  rw [e]
  exact Finset.measurableSet_biUnion _ fun i _ => hS.preimage (measurable_id.prodMk (h.coord i))

/-- the sorting of a list of measurable functions -/
theorem MeasL.insertBy {key : α → ℝ} (hk : Measurable key) {a : Y → α} {L : Y → List α} (ha : Measurable a) (h : MeasL L) :
    MeasL fun y => Trento.insertBy key (a y) (L y) := by
  obtain ⟨n, hn⟩ := h.len
  induction n generalizing L with
  | zero =>
    have e : ∀ y, L y = [] := fun y => List.eq_nil_of_length_eq_zero (hn y)
    simp only [e, Trento.insertBy]
    exact (MeasL.const []).cons ha
  | succ n ih =>
    have e : ∀ y, L y = (L y).getD 0 0 :: (L y).tail := by
      intro y
      have := hn y
      cases hL : L y with
      | nil => rw [hL] at this; simp at this
      | cons x xs => simp
    have e2 : ∀ y, Trento.insertBy key (a y) (L y) = if key ((L y).getD 0 0) < key (a y) then
        (L y).getD 0 0 :: Trento.insertBy key (a y) (L y).tail else a y :: (L y).getD 0 0 :: (L y).tail := by
      intro y
      conv_lhs => rw [e y]
      rw [Trento.insertBy]
      simp only [lt_real, decide_eq_true_eq]
    have hi := ih h.tail (fun y => by simp [hn])
    simp only [e2]
    refine MeasL.ite ?_ (hi.cons (h.coord 0)) ((h.tail.cons (h.coord 0)).cons ha) ?_
    · exact measurableSet_lt (hk.comp (h.coord 0)) (hk.comp ha)
    · intro y
      have := (insertBy_perm (F := ℝ) key (a y) (L y).tail).length_eq
      simp [this]

theorem MeasL.sortBy {key : α → ℝ} (hk : Measurable key) {L : Y → List α} (h : MeasL L) :
    MeasL fun y => Trento.sortBy key (L y) := by
  obtain ⟨n, hn⟩ := h.len
  induction n generalizing L with
  | zero =>
    have e : ∀ y, L y = [] := fun y => List.eq_nil_of_length_eq_zero (hn y)
    simp only [e, Trento.sortBy]
    exact MeasL.const []
  | succ n ih =>
    have e : ∀ y, L y = (L y).getD 0 0 :: (L y).tail := by
      intro y
      have := hn y
      cases hL : L y with
      | nil => rw [hL] at this; simp at this
      | cons x xs => simp
    have e2 : ∀ y, Trento.sortBy key (L y) = Trento.insertBy key ((L y).getD 0 0) (Trento.sortBy key (L y).tail) := by
      intro y
      conv_lhs => rw [e y]
      rw [Trento.sortBy]
    simp only [e2]
    exact MeasL.insertBy hk (h.coord 0) (ih h.tail (fun y => by simp [hn]))

end MeasL

/-- the closeness test on positions -/
def closeP (dm : ℝ) (P : List P3) (v : P3) : Prop :=
  ¬ dm < 1e-10 ∧ ∃ q ∈ P, (v 0 - q 0) * (v 0 - q 0) + (v 1 - q 1) * (v 1 - q 1) + (v 2 - q 2) * (v 2 - q 2) < dm

theorem isTooClose_P (b dm : ℝ) (placed : List (NucleonData ℝ)) (n : NucleonData ℝ) :
    isTooClose dm placed n = decide (closeP dm (placed.map (relPos b)) (relPos b n)) := by
  rw [Bool.eq_iff_iff, decide_eq_true_eq]
  unfold isTooClose closeP
  have h10 : (((1e-10 : ℚ)) : ℝ) = 1e-10 := by norm_num
  by_cases h : dm < 1e-10
  · simp only [lt_real, lit_real, h10, h, decide_true, if_true]
    simp
  · simp only [lt_real, lit_real, h10, h, decide_false]
    simp [relPos]

theorem closeP_rot {Q : Matrix (Fin 3) (Fin 3) ℝ} (hQ : Q ∈ SO3) (dm : ℝ) (P : List P3) (v : P3) :
    closeP dm (P.map Q.mulVec) (Q.mulVec v) ↔ closeP dm P v := by
  unfold closeP
  refine and_congr_right fun _ => ?_
  have key : ∀ q : P3, (Q.mulVec v 0 - Q.mulVec q 0) * (Q.mulVec v 0 - Q.mulVec q 0) + (Q.mulVec v 1 - Q.mulVec q 1) * (Q.mulVec v 1 - Q.mulVec q 1)
      + (Q.mulVec v 2 - Q.mulVec q 2) * (Q.mulVec v 2 - Q.mulVec q 2) =
      (v 0 - q 0) * (v 0 - q 0) + (v 1 - q 1) * (v 1 - q 1) + (v 2 - q 2) * (v 2 - q 2) := by
    intro q
    have := rotation_preserves_distance hQ v q
    simp only [Fin.sum_univ_three] at this
    linarith
  simp [key]

theorem closeP_meas {Y : Type} [MeasurableSpace Y] (dm : ℝ) {P : Y → List P3} (hP : MeasL P) {v : Y → P3} (hv : Measurable v) :
    MeasurableSet {y | closeP dm (P y) (v y)} := by
  unfold closeP
  by_cases h : dm < 1e-10
  · simp [h]
  simp only [h, not_false_eq_true, true_and]
  have hS : MeasurableSet {t : Y × P3 | (v t.1 0 - t.2 0) * (v t.1 0 - t.2 0) + (v t.1 1 - t.2 1) * (v t.1 1 - t.2 1)
      + (v t.1 2 - t.2 2) * (v t.1 2 - t.2 2) < dm} := by
    have hvi : ∀ i, Measurable fun t : Y × P3 => v t.1 i := fun i => (measurable_pi_apply i).comp (hv.comp measurable_fst)
    have hqi : ∀ i, Measurable fun t : Y × P3 => t.2 i := fun i => (measurable_pi_apply i).comp measurable_snd
    have h0 := (hvi 0).sub (hqi 0); have h1 := (hvi 1).sub (hqi 1); have h2 := (hvi 2).sub (hqi 2)
    exact measurableSet_lt (((h0.mul h0).add (h1.mul h1)).add (h2.mul h2)) measurable_const
  exact hP.exists hS

/-- the point at distance `r` in the direction of two canonical numbers -/
noncomputable def dirP (r : ℝ) (u : ℝ × ℝ) : P3 := vec (spherical r (2 * u.1 - 1) (2 * π * u.2))

theorem dirP_eq (r : ℝ) (u : ℝ × ℝ) : dirP r u = r • vec (dir (2 * u.1 - 1) (2 * π * u.2)) := by
  ext i
  fin_cases i <;> simp [dirP, vec, spherical, dir, pow_two] <;> ring

theorem vec_act (Q : Matrix (Fin 3) (Fin 3) ℝ) (p : V3) : vec (act Q p) = Q.mulVec (vec p) := by
  ext i
  fin_cases i <;> simp [vec, act, Matrix.mulVec, dotProduct, Fin.sum_univ_three]

theorem vec_meas : Measurable (vec : V3 → P3) := by
  refine measurable_pi_iff.2 fun i => ?_
  fin_cases i <;> simp [vec] <;> fun_prop

theorem dirP_meas {Y : Type} [MeasurableSpace Y] {r : Y → ℝ} {u : Y → ℝ × ℝ} (hr : Measurable r) (hu : Measurable u) :
    Measurable fun y => dirP (r y) (u y) := by
  have : Measurable fun y => spherical (r y) (2 * (u y).1 - 1) (2 * π * (u y).2) := by
    have h1 := measurable_fst.comp hu
    have h2 := measurable_snd.comp hu
    simp only [spherical, sqrt_real, lit_real, cos_real, sin_real]
    fun_prop
  exact vec_meas.comp this

/-- the placement of one nucleon, on positions -/
noncomputable def placeP (E D : Type) [Rng ℝ E D] (dm r : ℝ) (P : List P3) : ℕ → P3 → E → P3 × E
  | 0, v, e => (v, e)
  | left+1, _, e =>
    if 0 < left ∧ closeP dm P (dirP r (draw2 E D e).1) then placeP E D dm r P left (dirP r (draw2 E D e).1) (draw2 E D e).2
    else (dirP r (draw2 E D e).1, (draw2 E D e).2)

omit [MeasurableSpace E] in
theorem placeWS_P (b dm r : ℝ) (placed : List (NucleonData ℝ)) (left : ℕ) (n : NucleonData ℝ) (w : Rand E D) :
    relPos b (placeWS b dm r placed left n w).1 = (placeP E D dm r (placed.map (relPos b)) left (relPos b n) w.eng).1 ∧
    (placeWS b dm r placed left n w).2 = ⟨(placeP E D dm r (placed.map (relPos b)) left (relPos b n) w.eng).2, w.dist⟩ := by
  induction left generalizing n w with
  | zero => exact ⟨rfl, rfl⟩
  | succ left ih =>
    have hn : ∀ p : V3, relPos b (setNucleonPosition b n p.1 p.2.1 p.2.2) = vec p := relPos_set b n
    have e1 : (cosTheta (F := ℝ) w).1 = 2 * (draw2 E D w.eng).1.1 - 1 := by
      simp [cosTheta, canonical, draw2, can]
    have e2 : (phi (F := ℝ) (cosTheta (F := ℝ) w).2).1 = 2 * π * (draw2 E D w.eng).1.2 := by
      simp [phi, cosTheta, canonical, draw2, can]
    have e3 : (phi (F := ℝ) (cosTheta (F := ℝ) w).2).2 = ⟨(draw2 E D w.eng).2, w.dist⟩ := rfl
    have hd : dirP r (draw2 E D w.eng).1 = vec (spherical r (cosTheta (F := ℝ) w).1 (phi (F := ℝ) (cosTheta (F := ℝ) w).2).1) := by
      rw [e1, e2]; rfl
    rw [placeWS, placeP]
    simp only [isTooClose_P b, hn, ← hd, e3, Bool.and_eq_true, decide_eq_true_eq]
    by_cases hc : 0 < left ∧ closeP dm (placed.map (relPos b)) (dirP r (draw2 E D w.eng).1)
    · simp only [if_pos hc]
      have := ih (setNucleonPosition b n (spherical r (cosTheta (F := ℝ) w).1 (phi (F := ℝ) (cosTheta (F := ℝ) w).2).1).1
        (spherical r (cosTheta (F := ℝ) w).1 (phi (F := ℝ) (cosTheta (F := ℝ) w).2).1).2.1
        (spherical r (cosTheta (F := ℝ) w).1 (phi (F := ℝ) (cosTheta (F := ℝ) w).2).1).2.2) ⟨(draw2 E D w.eng).2, w.dist⟩
      rw [hn, ← hd] at this
      exact this
    · simp only [if_neg hc]
      exact ⟨by rw [hn, hd], trivial⟩

theorem placeP_meas (h : IdealSource E D μ) (dm : ℝ) {Y : Type} [MeasurableSpace Y] {r : Y → ℝ} {P : Y → List P3} {v : Y → P3} {e : Y → E}
    (hr : Measurable r) (hP : MeasL P) (left : ℕ) (hv : Measurable v) (he : Measurable e) :
    Measurable fun y => placeP E D dm (r y) (P y) left (v y) (e y) := by
  induction left generalizing v e with
  | zero => exact hv.prodMk he
  | succ left ih =>
    have h2 := h.draw2_meas.comp he
    have hd : Measurable fun y => dirP (r y) (draw2 E D (e y)).1 := dirP_meas hr (measurable_fst.comp h2)
    have he2 : Measurable fun y => (draw2 E D (e y)).2 := measurable_snd.comp h2
    simp only [placeP]
    refine Measurable.ite ?_ (ih hd he2) (hd.prodMk he2)
    by_cases h0 : 0 < left
    · simpa [h0] using closeP_meas dm hP hd
    · simp [h0]

/-- The law of the position of one nucleon follows a rotation of the nucleons placed before. -/
theorem placeP_rot (h : IdealSource E D μ) (dm r : ℝ) (P : List P3) {Q : Matrix (Fin 3) (Fin 3) ℝ} (hQ : Q ∈ SO3)
    {k1 k2 : P3 × E → ℝ≥0∞} (h1 : Measurable k1) (h2 : Measurable k2) (hk : ∀ v, ∫⁻ e, k1 (Q.mulVec v, e) ∂μ = ∫⁻ e, k2 (v, e) ∂μ)
    (left : ℕ) (v v' : P3) :
    ∫⁻ e, k1 (placeP E D dm r (P.map Q.mulVec) (left+1) v e) ∂μ = ∫⁻ e, k2 (placeP E D dm r P (left+1) v' e) ∂μ := by
  have hp := h.prob
  -- one attempt
  have step : ∀ (P : List P3) (k : P3 × E → ℝ≥0∞), Measurable k → ∀ (left : ℕ) (v0 : P3), ∀ I : ℝ≥0∞,
      (∀ v, 0 < left → ∫⁻ e, k (placeP E D dm r P left v e) ∂μ = I) →
      ∫⁻ e, k (placeP E D dm r P (left+1) v0 e) ∂μ =
        sphereConst * sphereInt fun n => if 0 < left ∧ closeP dm P (r • vec n) then I else ∫⁻ e, k (r • vec n, e) ∂μ := by
    intro P k hkm left v0 I hI
    set g : V3 × E → ℝ≥0∞ := fun t => if 0 < left ∧ closeP dm P (r • vec t.1) then k (placeP E D dm r P left (r • vec t.1) t.2)
      else k (r • vec t.1, t.2) with hg
    have hv : Measurable fun t : V3 × E => r • vec t.1 := (vec_meas.comp measurable_fst).const_smul r
    have hgm : Measurable g := by
      refine Measurable.ite ?_ (hkm.comp (placeP_meas h dm measurable_const (MeasL.const P) left hv measurable_snd))
        (hkm.comp (hv.prodMk measurable_snd))
      by_cases h0 : 0 < left
      · simpa [h0] using closeP_meas dm (MeasL.const P) hv
      · simp [h0]
    have e1 := h.dir_lintegral hgm
    have e2 : ∀ e, k (placeP E D dm r P (left+1) v0 e) =
        g (dir (2 * (draw2 E D e).1.1 - 1) (2 * π * (draw2 E D e).1.2), (draw2 E D e).2) := by
      intro e
      rw [placeP, hg]
      simp only [dirP_eq]
      split <;> rfl
    simp only [e2]
    rw [e1]
    congr 2
    funext n
    rw [hg]
    simp only
    split
    · rename_i hc; exact hI _ hc.1
    · rfl
  have hact : ∀ n, r • vec (act Q n) = Q.mulVec (r • vec n) := by intro n; rw [vec_act, Matrix.mulVec_smul]
  have both : ∀ (left : ℕ) (I : ℝ≥0∞), (∀ v, 0 < left → ∫⁻ e, k1 (placeP E D dm r (P.map Q.mulVec) left v e) ∂μ = I) →
      (∀ v, 0 < left → ∫⁻ e, k2 (placeP E D dm r P left v e) ∂μ = I) → ∀ v v',
      ∫⁻ e, k1 (placeP E D dm r (P.map Q.mulVec) (left+1) v e) ∂μ = ∫⁻ e, k2 (placeP E D dm r P (left+1) v' e) ∂μ := by
    intro left I hI1 hI2 v v'
    rw [step _ k1 h1 left v I hI1, step _ k2 h2 left v' I hI2]
    have hm : Measurable fun n : V3 => if 0 < left ∧ closeP dm (P.map Q.mulVec) (r • vec n) then I else ∫⁻ e, k1 (r • vec n, e) ∂μ := by
      have hv : Measurable fun n : V3 => r • vec n := vec_meas.const_smul r
      refine Measurable.ite ?_ measurable_const ((Measurable.lintegral_prod_right' (f := k1) h1).comp hv)
      by_cases h0 : 0 < left
      · simpa [h0] using closeP_meas dm (MeasL.const (P.map Q.mulVec)) hv
      · simp [h0]
    rw [← sphereInt_act (isRotation_of_mem hQ) hm]
    congr 2
    funext n
    simp only [hact, closeP_rot hQ, hk]
  induction left generalizing v v' with
  | zero => exact both 0 0 (fun v h => absurd h (lt_irrefl 0)) (fun v h => absurd h (lt_irrefl 0)) v v'
  | succ left ih =>
    exact both (left+1) (∫⁻ e, k2 (placeP E D dm r P (left+1) 0 e) ∂μ) (fun v _ => ih v 0) (fun v _ => by rw [← ih v v, ih v 0]) v v'

/-- the placement of all nucleons, on positions -/
noncomputable def placeAllP (E D : Type) [Rng ℝ E D] (dm : ℝ) : List P3 → List ℝ → E → List P3 × E
  | P, [], e => (P, e)
  | P, r :: rs, e => placeAllP E D dm (P ++ [(placeP E D dm r P 1000 0 e).1]) rs (placeP E D dm r P 1000 0 e).2

omit [MeasurableSpace E] in
theorem placeP_start (dm r : ℝ) (P : List P3) (left : ℕ) (v v' : P3) (e : E) :
    placeP E D dm r P (left+1) v e = placeP E D dm r P (left+1) v' e := by simp only [placeP]

omit [MeasurableSpace E] in
theorem placeAllWS_P (b dm : ℝ) (placed : List (NucleonData ℝ)) (rs : List ℝ) (ns : List (NucleonData ℝ)) (w : Rand E D)
    (hl : rs.length = ns.length) :
    (placeAllWS b dm placed rs ns w).1.map (relPos b) = (placeAllP E D dm (placed.map (relPos b)) rs w.eng).1 := by
  induction rs generalizing placed ns w with
  | nil =>
    have : ns = [] := List.eq_nil_of_length_eq_zero (by simpa using hl.symm)
    subst this
    simp [placeAllWS, placeAllP]
  | cons r rs ih =>
    cases ns with
    | nil => simp at hl
    | cons n ns =>
      rw [placeAllWS, placeAllP]
      obtain ⟨p1, p2⟩ := placeWS_P b dm r placed 1000 n w
      have hl' : rs.length = ns.length := by simpa using hl
      have e := placeP_start (E := E) (D := D) dm r (placed.map (relPos b)) 999 (relPos b n) 0 w.eng
      rw [ih _ _ _ hl', List.map_append, List.map_cons, List.map_nil, p1, p2, e]

theorem placeAllP_meas (h : IdealSource E D μ) (dm : ℝ) {Y : Type} [MeasurableSpace Y] {P : Y → List P3} {rs : Y → List ℝ} {e : Y → E}
    (hP : MeasL P) (hr : MeasL rs) (he : Measurable e) : MeasL fun y => (placeAllP E D dm (P y) (rs y) (e y)).1 := by
  obtain ⟨n, hn⟩ := hr.len
  induction n generalizing P rs e with
  | zero =>
    have e : ∀ y, rs y = [] := fun y => List.eq_nil_of_length_eq_zero (hn y)
    simp only [e, placeAllP]
    exact hP
  | succ n ih =>
    have e1 : ∀ y, rs y = (rs y).getD 0 0 :: (rs y).tail := by
      intro y
      have := hn y
      cases hL : rs y with
      | nil => rw [hL] at this; simp at this
      | cons x xs => simp
    have hp := placeP_meas h dm (hr.coord 0) hP 1000 (measurable_const (a := (0 : P3))) he
    have := ih (hP.snoc (measurable_fst.comp hp)) hr.tail (measurable_snd.comp hp) (fun y => by simp [hn])
    have e2 : ∀ y, placeAllP E D dm (P y) (rs y) (e y) = placeAllP E D dm (P y ++ [(placeP E D dm ((rs y).getD 0 0) (P y) 1000 0 (e y)).1])
        (rs y).tail (placeP E D dm ((rs y).getD 0 0) (P y) 1000 0 (e y)).2 := by
      intro y
      conv_lhs => rw [e1 y]
      rw [placeAllP]
    simp only [e2]
    exact this

/-- a list of positions as a function of the index -/
def cfg (L : List P3) : ℕ → P3 := fun i => L.getD i 0

theorem cfg_meas {Y : Type} [MeasurableSpace Y] {L : Y → List P3} (h : MeasL L) : Measurable fun y => cfg (L y) :=
  measurable_pi_iff.2 h.coord

theorem cfg_rot (Q : Matrix (Fin 3) (Fin 3) ℝ) (L : List P3) : cfg (L.map Q.mulVec) = fun i => Q.mulVec (cfg L i) := by
  funext i
  unfold cfg
  by_cases hi : i < L.length
  · rw [List.getD_eq_getElem _ _ (by simpa using hi), List.getD_eq_getElem _ _ hi]; simp
  · rw [List.getD_eq_default _ _ (by simpa using hi), List.getD_eq_default _ _ (by simpa using hi)]; simp

theorem rot_meas (Q : Matrix (Fin 3) (Fin 3) ℝ) : Measurable fun c : ℕ → P3 => fun i => Q.mulVec (c i) := by
  refine measurable_pi_iff.2 fun i => measurable_pi_iff.2 fun j => ?_
  simp only [Matrix.mulVec, dotProduct, Fin.sum_univ_three]
  have : ∀ k, Measurable fun c : ℕ → P3 => c i k := fun k => (measurable_pi_apply k).comp (measurable_pi_apply i)
  exact (((this 0).const_mul _).add ((this 1).const_mul _)).add ((this 2).const_mul _)

/-- The law of all positions follows a rotation of the nucleons placed before. -/
theorem placeAllP_rot (h : IdealSource E D μ) (dm : ℝ) (P : List P3) (rs : List ℝ) {Q : Matrix (Fin 3) (Fin 3) ℝ} (hQ : Q ∈ SO3)
    {f : (ℕ → P3) → ℝ≥0∞} (hf : Measurable f) :
    ∫⁻ e, f (cfg (placeAllP E D dm (P.map Q.mulVec) rs e).1) ∂μ = ∫⁻ e, f (fun i => Q.mulVec (cfg (placeAllP E D dm P rs e).1 i)) ∂μ := by
  induction rs generalizing P with
  | nil => simp only [placeAllP, cfg_rot]
  | cons r rs ih =>
    simp only [placeAllP]
    have hm : ∀ P : List P3, Measurable fun t : P3 × E => cfg (placeAllP E D dm (P ++ [t.1]) rs t.2).1 := fun P =>
      cfg_meas (placeAllP_meas h dm ((MeasL.const P).snoc measurable_fst) (MeasL.const rs) measurable_snd)
    refine placeP_rot h dm r P hQ (k1 := fun t => f (cfg (placeAllP E D dm (P.map Q.mulVec ++ [t.1]) rs t.2).1))
      (k2 := fun t => f (fun i => Q.mulVec (cfg (placeAllP E D dm (P ++ [t.1]) rs t.2).1 i))) (hf.comp (hm _)) (hf.comp ((rot_meas Q).comp (hm P))) ?_ 999 0 0
    intro v
    have := ih (P ++ [v])
    rwa [List.map_append, List.map_cons, List.map_nil] at this

end Trento
