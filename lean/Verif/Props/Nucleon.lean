import Verif.Lemmas.Nucleon
import Mathlib.MeasureTheory.Measure.Lebesgue.Basic

/-!
# C03 – C09: nucleons

`NucleonCommon.make w v m σ ncoll k` models the constructor with nucleon width `w`, constituent width `v`,
`m` constituents, cross section parameter `σ`, the `--ncoll` flag and fluctuation parameter `k`.
-/

namespace Trento
open Spec

/-! ## C03 thickness -/

/-- **C03.** For every participant (a nucleon with non-negative fluctuation weights, which is what a gamma
distribution yields, see `sampled_fluctuations_nonneg`), every point and both build modes, `thickness` returns a
value: it is non-negative, zero if the point is at least `5 v` away from every constituent, and it lies between
`(1 - ε)` times the ideal truncated Gaussian sum and that sum, `ε = (12.5/999)²/8 · e^{12.5/999/2} < 2·10⁻⁵`. -/
theorem C03_thickness (w v : ℝ) (m : ℕ) (σ : ℝ) (ncoll : Bool) (k : ℝ) (hv : 0 < v) (debug : Bool)
    (n : NucleonData ℝ) (hf : ∀ c ∈ n.constituents, 0 ≤ c.fluctuation) (x y : ℝ) :
    ∃ t, (NucleonCommon.make w v m σ ncoll k).thickness debug n x y = .ok t ∧ 0 ≤ t ∧
      t ≤ idealThickness v m n.constituents x y ∧
      idealThickness v m n.constituents x y * (1 - (12.5/999)^2/8 * Real.exp (12.5/999/2)) ≤ t ∧
      ((∀ c ∈ n.constituents, 5 * v ≤ Real.sqrt (distSq c x y)) → t = 0) := by
  obtain ⟨s, hs, h0, h1, h2, h3⟩ :=
    thicknessLoop_spec w v m σ ncoll k hv debug x y n.constituents hf 0
  have hz : (lit 0 : ℝ) = 0 := by simp
  unfold NucleonCommon.thickness
  rw [hz, hs, make_prefactor]
  have hp : 0 ≤ 1 / (2 * Real.pi * v^2 * m) := by have := Real.pi_pos; positivity
  have hid : idealThickness v m n.constituents x y =
      1 / (2 * Real.pi * v^2 * m) * (n.constituents.map (idealTerm v x y)).sum := rfl
  refine ⟨_, rfl, ?_, ?_, ?_, ?_⟩
  · rw [zero_add]; exact mul_nonneg hp h0
  · rw [zero_add, hid]; exact mul_le_mul_of_nonneg_left h1 hp
  · rw [zero_add, hid, mul_assoc]; exact mul_le_mul_of_nonneg_left h2 hp
  · intro hall
    rw [h3 ?_]
    · ring
    · intro c hc
      have h5 := hall c hc
      exact (Real.le_sqrt' (by positivity)).mp h5

/-- The relative error in C03 is below 2·10⁻⁵. -/
theorem C03_error_small : (12.5/999:ℝ)^2/8 * Real.exp (12.5/999/2) < 2e-5 := by
  have h : Real.exp (12.5/999/2 : ℝ) ≤ 1.01 := by
    have := Real.exp_bound_div_one_sub_of_interval (x := 12.5/999/2) (by norm_num) (by norm_num)
    refine this.trans ?_
    norm_num
  have : (12.5/999:ℝ)^2/8 * Real.exp (12.5/999/2) ≤ (12.5/999:ℝ)^2/8 * 1.01 := by gcongr
  refine this.trans_lt ?_
  norm_num

/-- Non-vacuity: a nucleon with two constituents (weights 1 and 0.5), `v = 0.5`. -/
example : ∃ n : NucleonData ℝ, n.constituents.length = 2 ∧ (∀ c ∈ n.constituents, 0 ≤ c.fluctuation) ∧ (0:ℝ) < 0.5 := by
  refine ⟨⟨0, 0, 0, true, true, [⟨0.1, 0, 1⟩, ⟨-0.1, 0, 0.5⟩]⟩, rfl, ?_, by norm_num⟩
  intro c hc
  simp only [List.mem_cons, List.not_mem_nil, or_false] at hc
  rcases hc with rfl | rfl <;> norm_num

/-! ## C04 boundary -/

/-- **C04.** For a nucleon with at least one constituent `boundary` returns the bounding box of the discs of radius
`5 v` around the constituents: it contains every disc and each of its four sides is touched by one. -/
theorem C04_boundary (w v : ℝ) (m : ℕ) (σ : ℝ) (ncoll : Bool) (k : ℝ) (hv : 0 ≤ v) (n : NucleonData ℝ)
    (hne : n.constituents ≠ []) :
    ∃ b, (NucleonCommon.make w v m σ ncoll k).boundary n = .ok b ∧
      (∀ c ∈ n.constituents, b.xmin ≤ c.x - 5*v ∧ c.x + 5*v ≤ b.xmax ∧ b.ymin ≤ c.y - 5*v ∧ c.y + 5*v ≤ b.ymax) ∧
      (∃ c ∈ n.constituents, c.x - 5*v = b.xmin) ∧ (∃ c ∈ n.constituents, c.x + 5*v = b.xmax) ∧
      (∃ c ∈ n.constituents, c.y - 5*v = b.ymin) ∧ (∃ c ∈ n.constituents, c.y + 5*v = b.ymax) := by
  unfold NucleonCommon.boundary
  have hr : sqrt ((NucleonCommon.make w v m σ ncoll k).constituentRadiusSq) = 5 * v := by
    rw [make_radiusSq, sqrt_real]; exact Real.sqrt_sq (by positivity)
  match hcs : n.constituents, hne with
  | c :: cs, _ =>
    simp only [hr]
    obtain ⟨⟨p1, p2, p3, p4⟩, q, e1, e2, e3, e4⟩ :=
      boundaryLoop_spec cs ⟨c.x, c.x, c.y, c.y⟩ le_rfl le_rfl
    refine ⟨_, rfl, ?_, ?_, ?_, ?_, ?_⟩
    · intro c' hc'
      dsimp only
      rcases List.mem_cons.mp hc' with rfl | hc'
      · dsimp only at p1 p2 p3 p4; refine ⟨?_, ?_, ?_, ?_⟩ <;> linarith
      · obtain ⟨q1, q2, q3, q4⟩ := q c' hc'; refine ⟨?_, ?_, ?_, ?_⟩ <;> linarith
    · rcases e1 with e | ⟨c', h, e⟩
      · exact ⟨c, by simp, by dsimp only at e ⊢; rw [e]⟩
      · exact ⟨c', by simp [h], by dsimp only; rw [e]⟩
    · rcases e2 with e | ⟨c', h, e⟩
      · exact ⟨c, by simp, by dsimp only at e ⊢; rw [e]⟩
      · exact ⟨c', by simp [h], by dsimp only; rw [e]⟩
    · rcases e3 with e | ⟨c', h, e⟩
      · exact ⟨c, by simp, by dsimp only at e ⊢; rw [e]⟩
      · exact ⟨c', by simp [h], by dsimp only; rw [e]⟩
    · rcases e4 with e | ⟨c', h, e⟩
      · exact ⟨c, by simp, by dsimp only at e ⊢; rw [e]⟩
      · exact ⟨c', by simp [h], by dsimp only; rw [e]⟩

/-- **C04, support.** Outside the box returned by `boundary` the thickness is exactly zero. -/
theorem C04_thickness_zero_outside (w v : ℝ) (m : ℕ) (σ : ℝ) (ncoll : Bool) (k : ℝ) (hv : 0 < v) (debug : Bool)
    (n : NucleonData ℝ) (hf : ∀ c ∈ n.constituents, 0 ≤ c.fluctuation) (b : Box ℝ)
    (hb : (NucleonCommon.make w v m σ ncoll k).boundary n = .ok b) (x y : ℝ)
    (hout : x ≤ b.xmin ∨ b.xmax ≤ x ∨ y ≤ b.ymin ∨ b.ymax ≤ y) :
    (NucleonCommon.make w v m σ ncoll k).thickness debug n x y = .ok 0 := by
  have hne : n.constituents ≠ [] := by
    intro h; unfold NucleonCommon.boundary at hb; rw [h] at hb; cases hb
  obtain ⟨b', hb', hall, _⟩ := C04_boundary w v m σ ncoll k hv.le n hne
  rw [hb] at hb'; cases hb'
  obtain ⟨t, ht, _, _, _, hz⟩ := C03_thickness w v m σ ncoll k hv debug n hf x y
  rw [ht, hz]
  intro c hc
  obtain ⟨h1, h2, h3, h4⟩ := hall c hc
  rw [Real.le_sqrt' (by positivity)]
  unfold distSq
  have key : ∀ s : ℝ, 5*v ≤ s ∨ s ≤ -(5*v) → (5*v)^2 ≤ s^2 := by
    intro s hs
    rcases hs with hs | hs <;> nlinarith
  rcases hout with h | h | h | h
  · have := key (x - c.x) (.inr (by linarith)); nlinarith [sq_nonneg (y - c.y)]
  · have := key (x - c.x) (.inl (by linarith)); nlinarith [sq_nonneg (y - c.y)]
  · have := key (y - c.y) (.inr (by linarith)); nlinarith [sq_nonneg (x - c.x)]
  · have := key (y - c.y) (.inl (by linarith)); nlinarith [sq_nonneg (x - c.x)]

/-- **C04, no constituents.** For every arithmetic, asking for the boundary of a nucleon without constituents is
undefined behaviour. -/
theorem C04_boundary_ub {F : Type} [Arith F] (nc : NucleonCommon F) (n : NucleonData F) (h : n.constituents = []) :
    ∃ s, nc.boundary n = .error (.ub s) := by
  unfold NucleonCommon.boundary; rw [h]; exact ⟨_, rfl⟩

/-- Non-vacuity: the box of two discs of radius 2.5 around (1, 0) and (-1, 0.5). -/
example : ∃ b, (NucleonCommon.make (1:ℝ) 0.5 2 1 false 1).boundary
    ⟨0, 0, 0, true, true, [⟨1, 0, 1⟩, ⟨-1, 0.5, 1⟩]⟩ = .ok b := by
  obtain ⟨b, hb, _⟩ := C04_boundary (1:ℝ) 0.5 2 1 false 1 (by norm_num)
    ⟨0, 0, 0, true, true, [⟨1, 0, 1⟩, ⟨-1, 0.5, 1⟩]⟩ (by simp)
  exact ⟨b, hb⟩

/-! ## C05 participation flags (any arithmetic, any random source) -/

section anyArith
variable {F E D : Type} [Arith F] [Rng F E D]

/-- sampling constituents changes neither position nor participation, and nothing if they exist -/
theorem sampleConstituents_frame (nc : NucleonCommon F) (n : NucleonData F) (w : Rand E D) :
    let n' := (nc.sampleConstituents n w).1
    n'.x = n.x ∧ n'.y = n.y ∧ n'.z = n.z ∧ n'.isParticipant = n.isParticipant ∧ n'.constituentsExist = true ∧
    (n.constituentsExist = true → nc.sampleConstituents n w = (n, w)) := by
  unfold NucleonCommon.sampleConstituents
  by_cases h : n.constituentsExist = true <;> simp [h]

omit [Arith F] in
theorem setParticipant_eq (n : NucleonData F) : n.setParticipant = { n with isParticipant := true } := by
  unfold NucleonData.setParticipant
  cases n with
  | mk x y z p e c => cases p <;> rfl

/-- **C05.** One call of `participate`, for every arithmetic (hence for IEEE doubles) and every random source: the
result is `true` and both nucleons are participants afterwards, or it is `false` and both flags are as before.  In no
case is a position changed, a flag cleared or an existing constituent altered. -/
theorem C05_participate_flags (nc : NucleonCommon F) (A B : NucleonData F) (w : Rand E D) :
    let r := (nc.participate A B w).1.1
    let A' := (nc.participate A B w).1.2.1
    let B' := (nc.participate A B w).1.2.2
    ((r = true ∧ A'.isParticipant = true ∧ B'.isParticipant = true) ∨
     (r = false ∧ A'.isParticipant = A.isParticipant ∧ B'.isParticipant = B.isParticipant)) ∧
    (A'.x = A.x ∧ A'.y = A.y ∧ A'.z = A.z) ∧ (B'.x = B.x ∧ B'.y = B.y ∧ B'.z = B.z) ∧
    (A.isParticipant = true → A'.isParticipant = true) ∧ (B.isParticipant = true → B'.isParticipant = true) ∧
    (A.constituentsExist = true → A'.constituents = A.constituents ∧ A'.constituentsExist = true) ∧
    (B.constituentsExist = true → B'.constituents = B.constituents ∧ B'.constituentsExist = true) := by
  unfold NucleonCommon.participate
  by_cases h1 : (A.isParticipant && B.isParticipant && !nc.calcNcoll) = true
  · simp only [h1, if_true]
    simp only [Bool.and_eq_true] at h1
    simp [h1.1.1, h1.1.2]
  · simp only [h1, Bool.false_eq_true, if_false]
    by_cases h2 : lt nc.maxImpactSq (sqr (A.x - B.x) + sqr (A.y - B.y)) = true
    · simp [h2]
    · simp only [h2, Bool.false_eq_true, if_false]
      obtain ⟨a1, a2, a3, a4, a5, a6⟩ := sampleConstituents_frame nc A w
      generalize hA : nc.sampleConstituents A w = rA at *
      obtain ⟨A1, w1⟩ := rA
      obtain ⟨b1, b2, b3, b4, b5, b6⟩ := sampleConstituents_frame nc B w1
      generalize hB : nc.sampleConstituents B w1 = rB at *
      obtain ⟨B1, w2⟩ := rB
      simp only at *
      by_cases h3 : lt (nc.oneMinusProb (overlapSum nc.constituentWidthSq A1.constituents B1.constituents))
          (canonical w2).1 = true
      · simp only [h3, if_true, setParticipant_eq]
        refine ⟨.inl ⟨trivial, trivial, trivial⟩, ⟨a1, a2, a3⟩, ⟨b1, b2, b3⟩, fun _ => trivial, fun _ => trivial, ?_, ?_⟩
        · intro h; have := a6 h; cases this; exact ⟨rfl, h⟩
        · intro h; have := b6 h; cases this; exact ⟨rfl, h⟩
      · simp only [h3, Bool.false_eq_true, if_false]
        refine ⟨.inr ⟨trivial, a4, b4⟩, ⟨a1, a2, a3⟩, ⟨b1, b2, b3⟩, fun h => a4.trans h, fun h => b4.trans h, ?_, ?_⟩
        · intro h; have := a6 h; cases this; exact ⟨rfl, h⟩
        · intro h; have := b6 h; cases this; exact ⟨rfl, h⟩

end anyArith

/-! ## C06 out-of-range pairs -/

/-- **C06.** If the transverse distance of two nucleons exceeds six nucleon widths and they are not both participants
already, `participate` returns false, leaves both nucleons as they are and draws no random number. -/
theorem C06_out_of_range {E D : Type} [Rng ℝ E D] (w v : ℝ) (m : ℕ) (σ : ℝ) (ncoll : Bool) (k : ℝ) (hw : 0 ≤ w)
    (A B : NucleonData ℝ) (hp : ¬ (A.isParticipant = true ∧ B.isParticipant = true))
    (hd : 6 * w < Real.sqrt ((A.x - B.x)^2 + (A.y - B.y)^2)) (r : Rand E D) :
    (NucleonCommon.make w v m σ ncoll k).participate A B r = ((false, A, B), r) := by
  unfold NucleonCommon.participate
  have h1 : (A.isParticipant && B.isParticipant && !(NucleonCommon.make w v m σ ncoll k).calcNcoll) = false := by
    rcases Bool.eq_false_or_eq_true A.isParticipant with ha | ha <;>
    rcases Bool.eq_false_or_eq_true B.isParticipant with hb | hb <;> simp_all
  have h2 : lt (NucleonCommon.make w v m σ ncoll k).maxImpactSq (sqr (A.x - B.x) + sqr (A.y - B.y)) = true := by
    rw [make_maxImpactSq]
    simp only [sqr_real, lt_real, decide_eq_true_eq]
    exact (Real.lt_sqrt (by positivity)).mp hd
  simp only [h1, Bool.false_eq_true, if_false, h2, if_true]

/-- With `--ncoll` the shortcut for pairs of participants is off, so the same holds for every pair. -/
theorem C06_out_of_range_ncoll {E D : Type} [Rng ℝ E D] (w v : ℝ) (m : ℕ) (σ : ℝ) (k : ℝ) (hw : 0 ≤ w)
    (A B : NucleonData ℝ) (hd : 6 * w < Real.sqrt ((A.x - B.x)^2 + (A.y - B.y)^2)) (r : Rand E D) :
    (NucleonCommon.make w v m σ true k).participate A B r = ((false, A, B), r) := by
  unfold NucleonCommon.participate
  have h1 : (A.isParticipant && B.isParticipant && !(NucleonCommon.make w v m σ true k).calcNcoll) = false := by
    simp [NucleonCommon.make]
  have h2 : lt (NucleonCommon.make w v m σ true k).maxImpactSq (sqr (A.x - B.x) + sqr (A.y - B.y)) = true := by
    rw [make_maxImpactSq]
    simp only [sqr_real, lt_real, decide_eq_true_eq]
    exact (Real.lt_sqrt (by positivity)).mp hd
  simp only [h1, Bool.false_eq_true, if_false, h2, if_true]

/-- Non-vacuity: nucleons 10 fm apart with `w = 0.5`. -/
example : (6:ℝ) * 0.5 < Real.sqrt (((10:ℝ) - 0)^2 + (0 - 0)^2) := by
  rw [Real.lt_sqrt (by norm_num)]; norm_num

/-! ## C07 participation probability -/

theorem foldl_add_sum {α : Type} (f : α → ℝ) (l : List α) (a : ℝ) :
    l.foldl (fun acc x => acc + f x) a = a + (l.map f).sum := by
  induction l generalizing a with
  | nil => simp
  | cons x l ih => simp [ih, add_assoc]

theorem overlapSum_eq (v2 : ℝ) (as bs : List (Constituent ℝ)) :
    overlapSum v2 as bs = (as.map fun a => (bs.map fun b =>
      Real.exp (-(lit 0.25) * ((a.x - b.x)^2 + (a.y - b.y)^2) / v2)).sum).sum := by
  unfold overlapSum
  simp only [sqr_real, exp_real, foldl_add_sum]
  simp [lit_real]

/-- `one_minus_prob` is `exp(-σ T_AB)`. -/
theorem oneMinusProb_eq (w v : ℝ) (m : ℕ) (σ : ℝ) (ncoll : Bool) (k : ℝ) (as bs : List (Constituent ℝ)) :
    (NucleonCommon.make w v m σ ncoll k).oneMinusProb
      (overlapSum (NucleonCommon.make w v m σ ncoll k).constituentWidthSq as bs) =
      Real.exp (-σ * overlapTAB v m as bs) := by
  unfold NucleonCommon.oneMinusProb
  rw [make_prefactor, make_widthSq, overlapSum_eq, exp_real]
  congr 1
  have h1 : ∀ a b : Constituent ℝ, Real.exp (-(lit 0.25) * ((a.x - b.x)^2 + (a.y - b.y)^2) / v^2) =
      Real.exp (-((a.x - b.x)^2 + (a.y - b.y)^2) / (4 * v^2)) := by
    intro a b; congr 1; simp only [lit_real]; push_cast; ring
  have h2 : overlapTAB v m as bs = 1/(m:ℝ)^2 * (1/(4 * Real.pi * v^2)) * (as.map fun a => (bs.map fun b =>
      Real.exp (-((a.x - b.x)^2 + (a.y - b.y)^2) / (4 * v^2))).sum).sum := by
    unfold overlapTAB
    rw [mul_assoc (1/(m:ℝ)^2)]
    congr 1
    rw [← List.sum_map_mul_left]
    congr 1
    apply List.map_congr_left
    intro a _
    rw [← List.sum_map_mul_left]
    congr 1
    apply List.map_congr_left
    intro b _
    ring
  simp only [h1]
  rw [h2]
  show -σ * _ / (lit 2 * ofInt (m:ℤ)) * _ = _
  simp only [lit_real, ofInt_real]
  push_cast
  ring

theorem overlapTAB_nonneg (v : ℝ) (m : ℕ) (as bs : List (Constituent ℝ)) : 0 ≤ overlapTAB v m as bs := by
  unfold overlapTAB
  apply mul_nonneg (by positivity)
  apply List.sum_nonneg
  intro s hs
  obtain ⟨a, _, rfl⟩ := List.mem_map.mp hs
  apply List.sum_nonneg
  intro t ht
  obtain ⟨b, _, rfl⟩ := List.mem_map.mp ht
  have := Real.pi_pos
  positivity

/-- **C07.** Whenever a pair is actually tested (not both participants already unless `--ncoll` is on, distance at most
`6 w`), `participate` draws one uniform number `u` after the constituents, and returns `true` exactly if
`u > exp(-σ T_AB)`, where `T_AB` is the overlap of the constituents the two nucleons have after the call. -/
theorem C07_participate_iff {E D : Type} [Rng ℝ E D] (w v : ℝ) (m : ℕ) (σ : ℝ) (ncoll : Bool) (k : ℝ) (hw : 0 ≤ w)
    (A B : NucleonData ℝ) (hp : ¬ (A.isParticipant = true ∧ B.isParticipant = true) ∨ ncoll = true)
    (hd : Real.sqrt ((A.x - B.x)^2 + (A.y - B.y)^2) ≤ 6 * w) (r : Rand E D) :
    let res := (NucleonCommon.make w v m σ ncoll k).participate A B r
    ∃ e : E, res.2.eng = (Rng.canonical (F := ℝ) (D := D) e).2 ∧
      (res.1.2.1.constituentsExist = true ∧ res.1.2.2.constituentsExist = true) ∧
      (res.1.1 = true ↔
        Real.exp (-σ * overlapTAB v m res.1.2.1.constituents res.1.2.2.constituents)
          < (Rng.canonical (F := ℝ) (D := D) e).1) := by
  have h1 : (A.isParticipant && B.isParticipant && !(NucleonCommon.make w v m σ ncoll k).calcNcoll) = false := by
    have : (NucleonCommon.make w v m σ ncoll k).calcNcoll = ncoll := rfl
    rw [this]
    rcases Bool.eq_false_or_eq_true A.isParticipant with ha | ha <;>
    rcases Bool.eq_false_or_eq_true B.isParticipant with hb | hb <;> simp_all
  have h2 : lt (NucleonCommon.make w v m σ ncoll k).maxImpactSq (sqr (A.x - B.x) + sqr (A.y - B.y)) = false := by
    rw [make_maxImpactSq]
    simp only [sqr_real, lt_real, decide_eq_false_iff_not, not_lt]
    exact (Real.sqrt_le_left (by positivity)).mp hd
  unfold NucleonCommon.participate
  simp only [h1, h2, Bool.false_eq_true, if_false, oneMinusProb_eq]
  have hA := (sampleConstituents_frame (NucleonCommon.make w v m σ ncoll k) A r).2.2.2.2.1
  generalize (NucleonCommon.make w v m σ ncoll k).sampleConstituents A r = rA at hA ⊢
  obtain ⟨A1, w1⟩ := rA
  have hB := (sampleConstituents_frame (NucleonCommon.make w v m σ ncoll k) B w1).2.2.2.2.1
  generalize (NucleonCommon.make w v m σ ncoll k).sampleConstituents B w1 = rB at hB ⊢
  obtain ⟨B1, w2⟩ := rB
  dsimp only at hA hB
  refine ⟨w2.eng, ?_⟩
  dsimp only [canonical]
  simp only [lt_real, decide_eq_true_eq]
  by_cases h3 : Real.exp (-σ * overlapTAB v m A1.constituents B1.constituents)
      < (Rng.canonical (F := ℝ) (D := D) w2.eng).1
  · simp only [if_pos h3, setParticipant_eq]
    exact ⟨trivial, ⟨hA, hB⟩, ⟨fun _ => h3, fun _ => trivial⟩⟩
  · simp only [if_neg h3]
    exact ⟨trivial, ⟨hA, hB⟩, ⟨fun h => (Bool.false_ne_true h).elim, fun h => (h3 h).elim⟩⟩

/-- **C07, probability.** For `σ ≥ 0` and every configuration of constituents, the set of uniform numbers in [0, 1)
that lead to participation has Lebesgue measure exactly `1 - exp(-σ T_AB)`, a number in [0, 1). -/
theorem C07_probability (v : ℝ) (m : ℕ) (σ : ℝ) (hσ : 0 ≤ σ) (as bs : List (Constituent ℝ)) :
    MeasureTheory.volume {u : ℝ | (0 ≤ u ∧ u < 1) ∧ Real.exp (-σ * overlapTAB v m as bs) < u} =
      ENNReal.ofReal (1 - Real.exp (-σ * overlapTAB v m as bs)) ∧
    0 ≤ 1 - Real.exp (-σ * overlapTAB v m as bs) ∧ 1 - Real.exp (-σ * overlapTAB v m as bs) < 1 := by
  have hT := overlapTAB_nonneg v m as bs
  have hle : Real.exp (-σ * overlapTAB v m as bs) ≤ 1 := by
    apply Real.exp_le_one_iff.mpr
    nlinarith [mul_nonneg hσ hT]
  have hpos := Real.exp_pos (-σ * overlapTAB v m as bs)
  refine ⟨?_, by linarith, by linarith⟩
  have : {u : ℝ | (0 ≤ u ∧ u < 1) ∧ Real.exp (-σ * overlapTAB v m as bs) < u} =
      Set.Ioo (Real.exp (-σ * overlapTAB v m as bs)) 1 := by
    ext u
    simp only [Set.mem_ofPred_eq, Set.mem_Ioo]
    constructor
    · rintro ⟨⟨_, h1⟩, h2⟩; exact ⟨h2, h1⟩
    · rintro ⟨h2, h1⟩; exact ⟨⟨by linarith, h1⟩, h2⟩
  rw [this, Real.volume_Ioo]

/-- The overlap of two single-constituent nucleons at the same place is `1/(4π v²)`, so the probability is positive for
`σ > 0`: the C07 statements are not about an empty situation. -/
example : overlapTAB 0.5 1 [⟨0, 0, 1⟩] [⟨0, 0, 1⟩] = 1 / (4 * Real.pi * 0.5^2) := by
  unfold overlapTAB; simp

/-! ## C08 recentring, as an invariant over nucleon histories -/

section history
variable {E D : Type} [Rng ℝ E D]

/-- Every state a nucleon object can reach: from value-initialisation by position updates and by being either
argument of `participate` calls, in any order and number. -/
inductive NucleonHistory (nc : NucleonCommon ℝ) : NucleonData ℝ → Prop
  | init : NucleonHistory nc NucleonData.init
  | setPosition {n} (x y z : ℝ) : NucleonHistory nc n → NucleonHistory nc (n.setPosition x y z)
  | participateLeft {A B} (r : Rand E D) : NucleonHistory nc A → NucleonHistory nc B →
      NucleonHistory nc (nc.participate A B r).1.2.1
  | participateRight {A B} (r : Rand E D) : NucleonHistory nc A → NucleonHistory nc B →
      NucleonHistory nc (nc.participate A B r).1.2.2

theorem drawConstituents_spec (nc : NucleonCommon ℝ) (k : ℕ) (xc yc : ℝ) (w : Rand E D) :
    let r := (drawConstituents nc k xc yc w).1
    r.1.length = k ∧ r.2.1 = xc + (r.1.map (·.x)).sum ∧ r.2.2 = yc + (r.1.map (·.y)).sum := by
  induction k generalizing xc yc w with
  | zero => simp [drawConstituents]
  | succ k ih =>
    unfold drawConstituents
    simp only
    generalize drawNormal (lit 0) nc.samplingWidth w = d1
    obtain ⟨x1, w1⟩ := d1
    dsimp only
    generalize drawNormal (lit 0) nc.samplingWidth w1 = d2
    obtain ⟨x2, w2⟩ := d2
    dsimp only
    generalize drawGamma nc.gammaAlpha nc.gammaBeta w2 = d3
    obtain ⟨x3, w3⟩ := d3
    dsimp only
    obtain ⟨h1, h2, h3⟩ := ih (xc + x1) (yc + x2) w3
    refine ⟨by simp [h1], ?_, ?_⟩
    · rw [h2]; simp [add_assoc]
    · rw [h3]; simp [add_assoc]

theorem drawConstituents_fluct [LawfulRng E D] (nc : NucleonCommon ℝ) (k : ℕ) (xc yc : ℝ) (w : Rand E D) :
    ∀ c ∈ (drawConstituents nc k xc yc w).1.1, 0 ≤ c.fluctuation := by
  induction k generalizing xc yc w with
  | zero => simp [drawConstituents]
  | succ k ih =>
    intro c hc
    unfold drawConstituents at hc
    simp only [List.mem_cons] at hc
    rcases hc with rfl | hc
    · exact LawfulRng.gamma_nonneg _ _ _ _
    · exact ih _ _ _ c hc

theorem sum_map_add_const (l : List (Constituent ℝ)) (f : Constituent ℝ → ℝ) (a : ℝ) :
    (l.map fun c => f c + a).sum = (l.map f).sum + l.length * a := by
  induction l with
  | nil => simp
  | cons c l ih => simp [ih]; ring

/-- What holds for a nucleon whose constituents exist. -/
structure Recentred (m : ℕ) (n : NucleonData ℝ) : Prop where
  /-- exactly `m` constituents -/
  count : n.constituents.length = m
  /-- centre of mass at the nucleon position -/
  comX : (n.constituents.map (·.x)).sum / m = n.x
  comY : (n.constituents.map (·.y)).sum / m = n.y

theorem sampleConstituents_recentred (nc : NucleonCommon ℝ) (hm : 0 < nc.constituentNumber) (n : NucleonData ℝ)
    (w : Rand E D) (hn : n.constituentsExist = false) :
    Recentred nc.constituentNumber (nc.sampleConstituents n w).1 := by
  unfold NucleonCommon.sampleConstituents
  simp only [hn, Bool.false_eq_true, if_false]
  have hz : (lit 0 : ℝ) = 0 := by simp
  rw [hz]
  obtain ⟨h1, h2, h3⟩ := drawConstituents_spec nc nc.constituentNumber 0 0 w
  have hm' : (nc.constituentNumber : ℝ) ≠ 0 := by exact_mod_cast hm.ne'
  constructor
  · simpa using h1
  · simp only [List.map_map]
    have : ((fun c : Constituent ℝ => c.x) ∘ fun c : Constituent ℝ => { c with
        x := c.x + (n.x - (drawConstituents nc nc.constituentNumber 0 0 w).1.2.1 / ofInt (nc.constituentNumber : ℤ)),
        y := c.y + (n.y - (drawConstituents nc nc.constituentNumber 0 0 w).1.2.2 / ofInt (nc.constituentNumber : ℤ)) })
      = fun c => c.x + (n.x - (drawConstituents nc nc.constituentNumber 0 0 w).1.2.1 / ofInt (nc.constituentNumber : ℤ)) := rfl
    rw [this, sum_map_add_const _ (fun c => c.x), h1, h2]
    simp only [ofInt_real, Int.cast_natCast]
    field_simp
    ring
  · simp only [List.map_map]
    have : ((fun c : Constituent ℝ => c.y) ∘ fun c : Constituent ℝ => { c with
        x := c.x + (n.x - (drawConstituents nc nc.constituentNumber 0 0 w).1.2.1 / ofInt (nc.constituentNumber : ℤ)),
        y := c.y + (n.y - (drawConstituents nc nc.constituentNumber 0 0 w).1.2.2 / ofInt (nc.constituentNumber : ℤ)) })
      = fun c => c.y + (n.y - (drawConstituents nc nc.constituentNumber 0 0 w).1.2.2 / ofInt (nc.constituentNumber : ℤ)) := rfl
    rw [this, sum_map_add_const _ (fun c => c.y), h1, h3]
    simp only [ofInt_real, Int.cast_natCast]
    field_simp
    ring

theorem Recentred.of_eq {m : ℕ} {n n' : NucleonData ℝ} (h : Recentred m n) (hc : n'.constituents = n.constituents)
    (hx : n'.x = n.x) (hy : n'.y = n.y) : Recentred m n' :=
  ⟨by rw [hc]; exact h.count, by rw [hc, hx]; exact h.comX, by rw [hc, hy]; exact h.comY⟩

/-- The nucleons returned by `participate`: either untouched, or with sampled constituents and maybe flagged. -/
theorem participate_cases {F E D : Type} [Arith F] [Rng F E D] (nc : NucleonCommon F) (A B : NucleonData F)
    (w : Rand E D) :
    let res := nc.participate A B w
    (res = ((true, A, B), w) ∧ A.isParticipant = true ∧ B.isParticipant = true) ∨ res = ((false, A, B), w) ∨
    ∃ w1 : Rand E D, ∃ p : Bool,
      res.1.1 = p ∧
      res.1.2.1 = { (nc.sampleConstituents A w).1 with isParticipant := A.isParticipant || p } ∧
      res.1.2.2 = { (nc.sampleConstituents B w1).1 with isParticipant := B.isParticipant || p } := by
  unfold NucleonCommon.participate
  by_cases h1 : (A.isParticipant && B.isParticipant && !nc.calcNcoll) = true
  · left
    simp only [h1, if_true]
    simp only [Bool.and_eq_true] at h1
    exact ⟨trivial, h1.1.1, h1.1.2⟩
  · right
    simp only [h1, Bool.false_eq_true, if_false]
    by_cases h2 : lt nc.maxImpactSq (sqr (A.x - B.x) + sqr (A.y - B.y)) = true
    · left; simp [h2]
    · right
      simp only [h2, Bool.false_eq_true, if_false]
      have ha4 := (sampleConstituents_frame nc A w).2.2.2.1
      have hb4 := (sampleConstituents_frame nc B (nc.sampleConstituents A w).2).2.2.2.1
      refine ⟨(nc.sampleConstituents A w).2, ?_⟩
      by_cases h3 : lt (nc.oneMinusProb (overlapSum nc.constituentWidthSq (nc.sampleConstituents A w).1.constituents
          (nc.sampleConstituents B (nc.sampleConstituents A w).2).1.constituents))
          (canonical (nc.sampleConstituents B (nc.sampleConstituents A w).2).2).1 = true
      · refine ⟨true, ?_⟩
        simp only [h3, if_true, setParticipant_eq, Bool.or_true]
        simp
      · refine ⟨false, ?_⟩
        simp only [h3, Bool.false_eq_true, if_false, Bool.or_false]
        rw [← ha4, ← hb4]
        simp

theorem sampleConstituents_inv (nc : NucleonCommon ℝ) (hm : 0 < nc.constituentNumber) (n : NucleonData ℝ)
    (w : Rand E D) (h : n.constituentsExist = true → Recentred nc.constituentNumber n) :
    Recentred nc.constituentNumber (nc.sampleConstituents n w).1 := by
  rcases Bool.eq_false_or_eq_true n.constituentsExist with he | he
  · rw [(sampleConstituents_frame nc n w).2.2.2.2.2 he]; exact h he
  · exact sampleConstituents_recentred nc hm n w he

/-- **C08.** In every history of a nucleon object: if it is a participant, its constituents exist; if its constituents
exist, there are exactly `m` of them and their centre of mass is the nucleon's transverse position; in particular for
`m = 1` the constituent sits exactly at the nucleon position. -/
theorem C08_recentred (nc : NucleonCommon ℝ) (hm : 0 < nc.constituentNumber) (n : NucleonData ℝ)
    (h : NucleonHistory (E := E) (D := D) nc n) :
    (n.isParticipant = true → n.constituentsExist = true) ∧
    (n.constituentsExist = true → Recentred nc.constituentNumber n) ∧
    (n.constituentsExist = true → nc.constituentNumber = 1 →
      ∃ c, n.constituents = [c] ∧ c.x = n.x ∧ c.y = n.y) := by
  have main : (n.isParticipant = true → n.constituentsExist = true) ∧
      (n.constituentsExist = true → Recentred nc.constituentNumber n) := by
    induction h with
    | init => constructor <;> intro h <;> cases h
    | setPosition x y z _ _ => constructor <;> intro h <;> cases h
    | participateLeft r _ _ ihA ihB =>
      rename_i A B _ _
      rcases participate_cases nc A B r with ⟨h, _⟩ | h | ⟨w1, p, _, h2, _⟩
      · rw [h]; exact ihA
      · rw [h]; exact ihA
      · rw [h2]
        have hs := (sampleConstituents_frame nc A r).2.2.2.2.1
        exact ⟨fun _ => hs, fun _ => (sampleConstituents_inv nc hm A r ihA.2).of_eq rfl rfl rfl⟩
    | participateRight r _ _ ihA ihB =>
      rename_i A B _ _
      rcases participate_cases nc A B r with ⟨h, _⟩ | h | ⟨w1, p, _, _, h3⟩
      · rw [h]; exact ihB
      · rw [h]; exact ihB
      · rw [h3]
        have hs := (sampleConstituents_frame nc B w1).2.2.2.2.1
        exact ⟨fun _ => hs, fun _ => (sampleConstituents_inv nc hm B w1 ihB.2).of_eq rfl rfl rfl⟩
  refine ⟨main.1, main.2, ?_⟩
  intro he h1
  obtain ⟨hc, hx, hy⟩ := main.2 he
  rw [h1] at hc hx hy
  obtain ⟨c, hc⟩ := List.length_eq_one_iff.mp hc
  rw [hc] at hx hy
  exact ⟨c, hc, by simpa using hx, by simpa using hy⟩

/-- **C08, at most once.** If the constituents exist, `participate` keeps them (for every arithmetic); they can be
sampled again only after a position update, which is the only operation that clears `constituentsExist`. -/
theorem C08_sampled_once {F E D : Type} [Arith F] [Rng F E D] (nc : NucleonCommon F) (A B : NucleonData F)
    (w : Rand E D) (h : A.constituentsExist = true) :
    (nc.participate A B w).1.2.1.constituents = A.constituents ∧
    (nc.participate A B w).1.2.1.constituentsExist = true ∧
    (∀ x y z, (A.setPosition x y z).constituentsExist = false) :=
  ⟨((C05_participate_flags nc A B w).2.2.2.2.2.1 h).1, ((C05_participate_flags nc A B w).2.2.2.2.2.1 h).2,
   fun _ _ _ => rfl⟩

/-- In every history, constituents carry non-negative fluctuation weights (gamma variates). -/
theorem sampled_fluctuations_nonneg [LawfulRng E D] (nc : NucleonCommon ℝ) (n : NucleonData ℝ)
    (h : NucleonHistory (E := E) (D := D) nc n) : ∀ c ∈ n.constituents, 0 ≤ c.fluctuation := by
  have hs : ∀ (n : NucleonData ℝ) (w : Rand E D), (∀ c ∈ n.constituents, 0 ≤ c.fluctuation) →
      ∀ c ∈ (nc.sampleConstituents n w).1.constituents, 0 ≤ c.fluctuation := by
    intro n w hn
    unfold NucleonCommon.sampleConstituents
    split
    · exact hn
    · intro c hc
      simp only [List.mem_map] at hc
      obtain ⟨c', hc', rfl⟩ := hc
      exact drawConstituents_fluct nc _ _ _ w c' hc'
  induction h with
  | init => intro c hc; cases hc
  | setPosition x y z _ ih => exact ih
  | participateLeft r _ _ ihA ihB =>
    rename_i A B _ _
    rcases participate_cases nc A B r with ⟨h, _⟩ | h | ⟨w1, p, _, h2, _⟩
    · rw [h]; exact ihA
    · rw [h]; exact ihA
    · rw [h2]; exact hs A r ihA
  | participateRight r _ _ ihA ihB =>
    rename_i A B _ _
    rcases participate_cases nc A B r with ⟨h, _⟩ | h | ⟨w1, p, _, _, h3⟩
    · rw [h]; exact ihB
    · rw [h]; exact ihB
    · rw [h3]; exact hs B w1 ihB

end history

/-- Non-vacuity: a nucleon that took part in a tested pair has its constituents. -/
example : ∃ n : NucleonData ℝ, NucleonHistory (E := Tape) (D := Unit) (NucleonCommon.make (1:ℝ) 0.5 3 1 false 1) n ∧
    n.constituentsExist = true := by
  refine ⟨_, .participateLeft ⟨Tape.const 0.5 (by norm_num), ()⟩ .init .init, ?_⟩
  obtain ⟨_, _, h, _⟩ := C07_participate_iff (E := Tape) (D := Unit) 1 0.5 3 1 false 1 (by norm_num)
    NucleonData.init NucleonData.init
    (.inl (by simp [NucleonData.init])) (by simp [NucleonData.init]) ⟨Tape.const 0.5 (by norm_num), ()⟩
  exact h.1

end Trento
