import Verif.Lemmas.Can
import Verif.Props.RoundedRun

/-! # Every nucleus can have its first nucleon close to the beam axis -/

namespace Trento
open MeasureTheory Set Spec Filter Topology
open scoped ENNReal

/-- the first nucleon is within `ε` of the axis of its nucleus, which is at `o` -/
def Central (ε o : ℝ) (ns : List (NucleonData ℝ)) : Prop := ∃ n rest, ns = n :: rest ∧ Fresh n ∧ (n.x - o)^2 + n.y^2 ≤ ε^2

theorem central_set {ε o x y z : ℝ} (n : NucleonData ℝ) (rest : List (NucleonData ℝ)) (h : x^2 + y^2 ≤ ε^2) :
    Central ε o (setNucleonPosition o n x y z :: rest) := by
  refine ⟨_, _, rfl, fresh_set _ _ _ _ _, ?_⟩
  simpa [setNucleonPosition, NucleonData.setPosition] using h

theorem spherical_transverse {r c p ε : ℝ} (hc : |c| ≤ 1) (h : r^2 * (1 - c*c) ≤ ε^2) : (spherical r c p).1^2 + (spherical r c p).2.1^2 ≤ ε^2 := by
  have h1 : 0 ≤ 1 - c*c := by have := abs_le.mp hc; nlinarith
  have e : (spherical r c p).1^2 + (spherical r c p).2.1^2 = r^2 * (1 - c*c) := by
    simp only [spherical, sqrt_real, lit_real, cos_real, sin_real, Rat.cast_one]
    have h2 := Real.sq_sqrt h1
    have h3 := Real.sin_sq_add_cos_sq p
    calc _ = r^2 * Real.sqrt (1 - c*c)^2 * (Real.sin p^2 + Real.cos p^2) := by ring
      _ = _ := by rw [h2, h3, mul_one]
  rw [e]; exact h

theorem headD_meas {α : Type} [MeasurableSpace α] (d : α) : Measurable fun l : List α => l.headD d := by
  have := measurable_list_cases (Y := Unit) (α := α) (f := fun p : Unit × List α => p.2.headD d) (by simp) (by simp only [List.headD_cons]; fun_prop)
  exact this.comp ((measurable_const (a := ())).prodMk measurable_id)

section
variable {E D : Type} [Rng ℝ E D] [MeasurableSpace E] [MeasurableSpace D] {I : Type} {μ : I → Measure (Rand E D)}

theorem OkAtLeast.can {α W : Type} [MeasurableSpace α] [MeasurableSpace W] {μ : I → Measure W} {P : W → Res (α × W)} {p : ℝ≥0∞}
    (hP : OkAtLeast μ (fun (_ : Unit) w => P w) p) (hp : p ≠ 0) : Can μ P univ := by
  intro i hz
  have h1 := hP () i
  have h2 : ∫⁻ w, ifOk (P w) (fun _ => 1) ∂(μ i) = 0 := by
    have : (fun w => ifOk (P w) (fun _ => (1:ℝ≥0∞))) =ᵐ[μ i] 0 := by
      refine measure_mono_null ?_ hz
      intro w hw
      by_contra hn
      apply hw
      show ifOk (P w) (fun _ => (1:ℝ≥0∞)) = 0
      cases hp : P w with
      | error e => rfl
      | ok t => exact absurd ⟨t, hp, mem_univ _⟩ hn
    rw [lintegral_congr_ae this]
    simp
  rw [h2] at h1
  exact hp (le_antisymm h1 bot_le)

variable (h : FreshSource E D μ)
include h

theorem can_canonical_near {u η : ℝ} (h0 : 0 ≤ u) (h1 : u ≤ 1) (hη : 0 < η) :
    Can μ (fun w : Rand E D => .ok (canonical (F := ℝ) w)) {v | |v - u| < η} := by
  refine (can_interval h (a := max 0 (u - η)) (b := min 1 (u + η)) (le_max_left _ _) (min_le_left _ _) ?_).mono ?_
  · rw [max_lt_iff, lt_min_iff, lt_min_iff]
    exact ⟨⟨by norm_num, by linarith⟩, by linarith, by linarith⟩
  · intro w t ht hG
    refine ⟨t, ht, ?_⟩
    obtain ⟨h2, h3⟩ := hG
    rw [max_lt_iff] at h2
    rw [lt_min_iff] at h3
    simp only [mem_ofPred_eq, abs_lt]
    constructor <;> linarith [h2.2, h3.2]

/-! ### Deuteron -/

theorem can_deuteron {a b : ℝ} (ha : 0 < a) (hab : a < b) {ε : ℝ} (hε : 0 < ε) (o : ℝ) (ns : List (NucleonData ℝ)) (hl : ns.length = 2) :
    Can μ (fun w : Rand E D => sampleDeuteron 1 a b o ns w) {ns | Central ε o ns} := by
  have := h.prob
  have c1 : Can μ (fun w : Rand E D => deuteronLoop a b 1 w) univ := by
    have h1 : OkAtLeast μ (fun (_ : Unit) (w : Rand E D) => deuteronLoop a b 1 w) (1 - deuteronQ a b ^ 1) :=
      (OkAtLeast.retry (renews_deuteronTry h a b) (fun i => (miss_deuteron h a b i).le) 1).congr fun y w => deuteronLoop_retry ..
    refine h1.can ?_
    rw [pow_one]
    exact (tsub_pos_of_lt (deuteronQ_lt ha hab)).ne'
  have r2 : Renews μ fun (r : ℝ) (w : Rand E D) => bindR (.ok (cosTheta (F := ℝ) w)) fun c w => .ok ((r, c), w) :=
    (renews_cosTheta h).map (f := fun p : ℝ × ℝ => (p.1, p.2)) (by fun_prop)
  have hH : MeasurableSet {q : ℝ × ℝ | |q.2| ≤ 1 ∧ q.1^2 * (1 - q.2*q.2) ≤ ε^2} := by
    have m1 : MeasurableSet {q : ℝ × ℝ | |q.2| ≤ 1} := measurableSet_le (by fun_prop) measurable_const
    have m2 : MeasurableSet {q : ℝ × ℝ | q.1^2 * (1 - q.2*q.2) ≤ ε^2} := measurableSet_le (by fun_prop) measurable_const
    exact m1.inter m2
  have c2 := Can.bind (renews_deuteronLoop h a b 1) r2 hH c1 (fun r _ => by
    refine (can_cosTheta h (δ := ε^2 / (r^2 + 1)) (by positivity)).mono ?_
    intro w t ht hG
    cases ht
    refine ⟨_, rfl, hG.1, ?_⟩
    have h3 := hG.2
    rw [lt_div_iff₀ (by positivity)] at h3
    have h4 : 0 ≤ 1 - (cosTheta (F := ℝ) w).1 * (cosTheta (F := ℝ) w).1 := by have := abs_le.mp hG.1; nlinarith
    show r^2 * (1 - (cosTheta (F := ℝ) w).1 * (cosTheta (F := ℝ) w).1) ≤ ε^2
    nlinarith)
  refine c2.mono ?_
  intro w t ht hG
  cases hd : deuteronLoop a b 1 w with
  | error e => simp only [hd, bindR] at ht; cases ht
  | ok r =>
    simp only [hd, bindR] at ht
    cases ht
    match ns, hl with
    | [n1, n2], _ =>
      refine ⟨_, by simp only [sampleDeuteron, hd]; rfl, ?_⟩
      exact central_set _ _ (spherical_transverse hG.1 hG.2)

/-! ### Woods–Saxon -/

omit h [MeasurableSpace E] [MeasurableSpace D] in
theorem placeAllWS_prefix (o dm : ℝ) (placed : List (NucleonData ℝ)) (rs : List ℝ) (ns : List (NucleonData ℝ)) (w : Rand E D) :
    ∃ rest, (placeAllWS o dm placed rs ns w).1 = placed ++ rest := by
  induction ns generalizing placed rs w with
  | nil => cases rs <;> exact ⟨_, rfl⟩
  | cons n ns ih =>
    cases rs with
    | nil => exact ⟨_, rfl⟩
    | cons r rs =>
      rw [placeAllWS]
      obtain ⟨rest, hr⟩ := ih (placed ++ [(placeWS o dm r placed 1000 n w).1]) rs (placeWS o dm r placed 1000 n w).2
      exact ⟨_, hr.trans (List.append_assoc ..)⟩

omit h [MeasurableSpace E] [MeasurableSpace D] in
theorem placeWS_first (o dm r : ℝ) (left : ℕ) (n : NucleonData ℝ) (w : Rand E D) :
    ∃ p, (placeWS o dm r [] (left+1) n w).1 = setNucleonPosition o n (spherical r (cosTheta (F := ℝ) w).1 p).1 (spherical r (cosTheta (F := ℝ) w).1 p).2.1
      (spherical r (cosTheta (F := ℝ) w).1 p).2.2 := by
  rw [placeWS]
  have hc : ∀ m : NucleonData ℝ, isTooClose dm [] m = false := by intro m; unfold isTooClose; split <;> rfl
  simp only [hc, Bool.and_false, Bool.false_eq_true, if_false]
  exact ⟨_, rfl⟩

theorem can_WS (R a dm : ℝ) {ε : ℝ} (hε : 0 < ε) (o : ℝ) (ns : List (NucleonData ℝ)) (hl : ns ≠ []) :
    Can μ (fun w : Rand E D => .ok (sampleWS R a dm o ns w)) {ns | Central ε o ns} := by
  have := h.prob
  have r2 : Renews μ fun (r : List ℝ) (w : Rand E D) => bindR (.ok (cosTheta (F := ℝ) w)) fun c w => .ok ((r, c), w) :=
    (renews_cosTheta h).map (f := fun p : List ℝ × ℝ => (p.1, p.2)) (by fun_prop)
  have hhd : Measurable fun q : List ℝ × ℝ => (sortBy id q.1).headD 0 := (headD_meas 0).comp (sortBy_meas measurable_id measurable_fst)
  have hH : MeasurableSet {q : List ℝ × ℝ | |q.2| ≤ 1 ∧ ((sortBy id q.1).headD 0)^2 * (1 - q.2*q.2) ≤ ε^2} := by
    have m1 : MeasurableSet {q : List ℝ × ℝ | |q.2| ≤ 1} := measurableSet_le (by fun_prop) measurable_const
    have m2 : MeasurableSet {q : List ℝ × ℝ | ((sortBy id q.1).headD 0)^2 * (1 - q.2*q.2) ≤ ε^2} :=
      measurableSet_le ((hhd.pow_const 2).mul (by fun_prop)) measurable_const
    exact m1.inter m2
  have c2 := Can.bind (renews_drawRadii h R a ns.length) r2 hH (Can.total _) (fun rs _ => by
    generalize hr : (sortBy id rs).headD 0 = r
    refine (can_cosTheta h (δ := ε^2 / (r^2 + 1)) (by positivity)).mono ?_
    intro w t ht hG
    cases ht
    refine ⟨_, rfl, hG.1, ?_⟩
    have h3 := hG.2
    rw [lt_div_iff₀ (by positivity)] at h3
    have h4 : 0 ≤ 1 - (cosTheta (F := ℝ) w).1 * (cosTheta (F := ℝ) w).1 := by have := abs_le.mp hG.1; nlinarith
    show ((sortBy id rs).headD 0)^2 * (1 - (cosTheta (F := ℝ) w).1 * (cosTheta (F := ℝ) w).1) ≤ ε^2
    rw [hr]
    nlinarith)
  refine c2.mono ?_
  intro w t ht hG
  refine ⟨_, rfl, ?_⟩
  simp only [bindR, Except.ok.injEq] at ht
  rw [← ht] at hG
  obtain ⟨h1, h2⟩ := hG
  simp only [sampleWS, mem_ofPred_eq]
  have hlen : (sortBy id (drawRadii R a ns.length w).1).length = ns.length := by rw [sortBy_length, drawRadii_length]
  cases ns with
  | nil => exact absurd rfl hl
  | cons n ns =>
    cases hs : sortBy id (drawRadii R a (n :: ns).length w).1 with
    | nil => rw [hs] at hlen; simp at hlen
    | cons r rs =>
      rw [hs] at h2
      simp only [List.headD_cons] at h2
      rw [placeAllWS]
      obtain ⟨rest, hr⟩ := placeAllWS_prefix o dm ([] ++ [(placeWS o dm r [] 1000 n (drawRadii R a (n :: ns).length w).2).1]) rs ns
        (placeWS o dm r [] 1000 n (drawRadii R a (n :: ns).length w).2).2
      rw [hr]
      obtain ⟨p, hp⟩ := placeWS_first o dm r 999 n (drawRadii R a (n :: ns).length w).2
      rw [hp]
      exact central_set _ _ (spherical_transverse h1 h2)

/-! ### Deformed -/

omit h [Rng ℝ E D] [MeasurableSpace E] [MeasurableSpace D] in
theorem deformedDist_pos (R a b2 b4 r c : ℝ) : 0 < deformedDist R a b2 b4 r c := by
  unfold deformedDist
  simp only [exp_real, lit_real, Rat.cast_one]
  exact div_pos one_pos (add_pos one_pos (Real.exp_pos _))

theorem can_deformedReject (R a b2 b4 rmax : ℝ) {δ : ℝ} (hδ : 0 < δ) :
    Can μ (fun w : Rand E D => deformedReject R a b2 b4 rmax 1 w) {s | |s.1| ≤ |rmax| ∧ |s.2| ≤ 1 ∧ 1 - s.2 * s.2 < δ} := by
  have := h.prob
  have hd : Measurable fun p : ℝ × ℝ => deformedDist R a b2 b4 p.1 p.2 := by
    simp only [deformedDist, exp_real, lit_real, sqrt_real]
    fun_prop
  have hr : Measurable fun p : (ℝ × ℝ) × ℝ => rmax * cbrt p.1.1 := (cbrt_meas.comp (measurable_fst.comp measurable_fst)).const_mul _
  have hH : MeasurableSet {q : (ℝ × ℝ) × ℝ | (0 < q.1.1 ∧ q.1.1 < 1) ∧ (|q.1.2| ≤ 1 ∧ 1 - q.1.2 * q.1.2 < δ) ∧
      q.2 ≤ deformedDist R a b2 b4 (rmax * cbrt q.1.1) q.1.2} := by
    have m1 : MeasurableSet {q : (ℝ × ℝ) × ℝ | 0 < q.1.1} := measurableSet_lt measurable_const (by fun_prop)
    have m2 : MeasurableSet {q : (ℝ × ℝ) × ℝ | q.1.1 < 1} := measurableSet_lt (by fun_prop) measurable_const
    have m3 : MeasurableSet {q : (ℝ × ℝ) × ℝ | |q.1.2| ≤ 1} := measurableSet_le (by fun_prop) measurable_const
    have m4 : MeasurableSet {q : (ℝ × ℝ) × ℝ | 1 - q.1.2 * q.1.2 < δ} := measurableSet_lt (by fun_prop) measurable_const
    have m5 : MeasurableSet {q : (ℝ × ℝ) × ℝ | q.2 ≤ deformedDist R a b2 b4 (rmax * cbrt q.1.1) q.1.2} :=
      measurableSet_le measurable_snd (hd.comp (hr.prodMk (by fun_prop)))
    exact (m1.inter m2).inter ((m3.inter m4).inter m5)
  have r3 : Renews μ fun (q : ℝ × ℝ) (w : Rand E D) => bindR (.ok (canonical (F := ℝ) w)) fun u w => .ok ((q, u), w) :=
    (renews_canonical h).map (f := fun p : (ℝ × ℝ) × ℝ => (p.1, p.2)) (by fun_prop)
  have r2 := (renews_cosTheta (Y := ℝ) h).bind r3
  have c3 : ∀ q : ℝ × ℝ, (0 < q.1 ∧ q.1 < 1) ∧ (|q.2| ≤ 1 ∧ 1 - q.2 * q.2 < δ) →
      Can μ (fun w : Rand E D => bindR (.ok (canonical (F := ℝ) w)) fun u w => .ok ((q, u), w))
        {q : (ℝ × ℝ) × ℝ | (0 < q.1.1 ∧ q.1.1 < 1) ∧ (|q.1.2| ≤ 1 ∧ 1 - q.1.2 * q.1.2 < δ) ∧ q.2 ≤ deformedDist R a b2 b4 (rmax * cbrt q.1.1) q.1.2} := by
    intro q hq
    refine (can_interval h (a := 0) (b := min 1 (deformedDist R a b2 b4 (rmax * cbrt q.1) q.2)) le_rfl (min_le_left _ _)
      (lt_min one_pos (deformedDist_pos _ _ _ _ _ _))).mono ?_
    intro w t ht hG
    cases ht
    exact ⟨_, rfl, hq.1, hq.2, (lt_min_iff.mp hG.2).2.le⟩
  have c2 : ∀ u : ℝ, 0 < u ∧ u < 1 → Can μ (fun w : Rand E D => bindR (.ok (cosTheta (F := ℝ) w)) fun c w =>
      bindR (.ok (canonical (F := ℝ) w)) fun u2 w => .ok (((u, c), u2), w))
        {q : (ℝ × ℝ) × ℝ | (0 < q.1.1 ∧ q.1.1 < 1) ∧ (|q.1.2| ≤ 1 ∧ 1 - q.1.2 * q.1.2 < δ) ∧ q.2 ≤ deformedDist R a b2 b4 (rmax * cbrt q.1.1) q.1.2} :=
    fun u hu => Can.bind (renews_cosTheta h) (r3.comp (f := fun c => (u, c)) (by fun_prop)) hH (can_cosTheta h hδ) (fun c hc => c3 (u, c) ⟨hu, hc⟩)
  have c1 := Can.bind (renews_canonical h) r2 hH (can_interval h (a := 0) (b := 1) le_rfl le_rfl one_pos) (fun u hu => c2 u hu)
  refine c1.mono ?_
  intro w t ht hG
  simp only [bindR, Except.ok.injEq] at ht
  rw [← ht] at hG
  obtain ⟨⟨h1, h2⟩, ⟨h3, h4⟩, h5⟩ := hG
  dsimp only at h1 h2 h3 h4 h5
  have hlt : lt (deformedDist R a b2 b4 (rmax * cbrt (canonical (F := ℝ) w).1) (cosTheta (F := ℝ) (canonical (F := ℝ) w).2).1)
      (canonical (F := ℝ) (cosTheta (F := ℝ) (canonical (F := ℝ) w).2).2).1 = false := by
    simp only [lt_real, decide_eq_false_iff_not, not_lt]
    exact h5
  refine ⟨((rmax * cbrt (canonical (F := ℝ) w).1, (cosTheta (F := ℝ) (canonical (F := ℝ) w).2).1), (canonical (F := ℝ) (cosTheta (F := ℝ) (canonical (F := ℝ) w).2).2).2), ?_, ?_, h3, h4⟩
  · rw [deformedReject]
    simp only [hlt, Bool.false_eq_true, if_false]
  · show |rmax * cbrt (canonical (F := ℝ) w).1| ≤ |rmax|
    rw [cbrt_real h1.le, abs_mul, abs_of_nonneg (Real.rpow_nonneg h1.le _)]
    exact mul_le_of_le_one_right (abs_nonneg _) (Real.rpow_le_one h1.le h2.le (by norm_num))

theorem can_drawDeformed (R a b2 b4 rmax : ℝ) {δ : ℝ} (hδ : 0 < δ) (k : ℕ) :
    Can μ (fun w : Rand E D => drawDeformed 1 R a b2 b4 rmax k w) {ss | ∀ s ∈ ss, |s.1| ≤ |rmax| ∧ |s.2| ≤ 1 ∧ 1 - s.2 * s.2 < δ} := by
  have := h.prob
  have hg : MeasurableSet {s : ℝ × ℝ | |s.1| ≤ |rmax| ∧ |s.2| ≤ 1 ∧ 1 - s.2 * s.2 < δ} := by
    have m1 : MeasurableSet {s : ℝ × ℝ | |s.1| ≤ |rmax|} := measurableSet_le (by fun_prop) measurable_const
    have m2 : MeasurableSet {s : ℝ × ℝ | |s.2| ≤ 1} := measurableSet_le (by fun_prop) measurable_const
    have m3 : MeasurableSet {s : ℝ × ℝ | 1 - s.2 * s.2 < δ} := measurableSet_lt (by fun_prop) measurable_const
    exact m1.inter (m2.inter m3)
  have hH : MeasurableSet {ss : List (ℝ × ℝ) | ∀ s ∈ ss, |s.1| ≤ |rmax| ∧ |s.2| ≤ 1 ∧ 1 - s.2 * s.2 < δ} := by
    rw [measurableSet_list]
    intro n
    have : (List.ofFn : (Fin n → ℝ × ℝ) → List (ℝ × ℝ)) ⁻¹' {ss | ∀ s ∈ ss, |s.1| ≤ |rmax| ∧ |s.2| ≤ 1 ∧ 1 - s.2 * s.2 < δ} =
        ⋂ i : Fin n, (fun v => v i) ⁻¹' {s : ℝ × ℝ | |s.1| ≤ |rmax| ∧ |s.2| ≤ 1 ∧ 1 - s.2 * s.2 < δ} := by
      ext v
      simp only [mem_preimage, mem_ofPred_eq, List.mem_ofFn, mem_iInter]
      exact ⟨fun hv i => hv _ ⟨i, rfl⟩, fun hv s hs => by obtain ⟨i, rfl⟩ := hs; exact hv i⟩
    rw [this]
    exact MeasurableSet.iInter fun i => measurable_pi_apply i hg
  induction k with
  | zero => exact Can.always (T := fun w : Rand E D => (([] : List (ℝ × ℝ)), w)) fun w => by simp
  | succ k ih =>
    have r2 : Renews μ fun (s : ℝ × ℝ) (w : Rand E D) => bindR (drawDeformed 1 R a b2 b4 rmax k w) fun ss w => .ok (s :: ss, w) :=
      (renews_drawDeformed h 1 R a b2 b4 rmax k).map (f := fun p : (ℝ × ℝ) × List (ℝ × ℝ) => p.1 :: p.2) (measurable_fst.cons measurable_snd)
    have c := Can.bind (renews_deformedReject h R a b2 b4 rmax 1) r2 hH (can_deformedReject h R a b2 b4 rmax hδ) (fun s hs => by
      refine ih.mono ?_
      intro w t ht hG
      refine ⟨(s :: t.1, t.2), by simp only [ht, bindR], ?_⟩
      intro s' hs'
      rcases List.mem_cons.mp hs' with rfl | hs'
      · exact hs
      · exact hG s' hs')
    refine c.mono ?_
    intro w t ht hG
    refine ⟨t, ?_, hG⟩
    rw [drawDeformed]
    cases hd : deformedReject R a b2 b4 rmax 1 w with
    | error e => rw [hd] at ht; cases ht
    | ok r =>
      rw [hd] at ht
      simp only [bindR] at ht ⊢
      cases hd2 : drawDeformed 1 R a b2 b4 rmax k r.2 with
      | error e => rw [hd2] at ht; cases ht
      | ok r2 => rw [hd2] at ht; exact ht

omit h [MeasurableSpace E] [MeasurableSpace D] in
theorem placeAllDef_prefix (o dm : ℝ) (t : TiltSpin ℝ) (placed : List (NucleonData ℝ)) (rs : List (ℝ × ℝ)) (ns : List (NucleonData ℝ)) (w : Rand E D) :
    ∃ rest, (placeAllDef o dm t placed rs ns w).1 = placed ++ rest := by
  induction ns generalizing placed rs w with
  | nil => cases rs <;> exact ⟨_, rfl⟩
  | cons n ns ih =>
    cases rs with
    | nil => exact ⟨_, rfl⟩
    | cons r rs =>
      rw [placeAllDef]
      dsimp only
      obtain ⟨rest, hr⟩ := ih (placed ++ [(placeDef o dm t (r.1 * sqrt (lit 1 - r.2 * r.2)) placed 1000 (r.1 * r.2) n w).1]) rs
        (placeDef o dm t (r.1 * sqrt (lit 1 - r.2 * r.2)) placed 1000 (r.1 * r.2) n w).2
      exact ⟨_, hr.trans (List.append_assoc ..)⟩

omit h [MeasurableSpace E] [MeasurableSpace D] in
theorem placeDef_first (o dm : ℝ) (t : TiltSpin ℝ) (s z : ℝ) (left : ℕ) (n : NucleonData ℝ) (w : Rand E D) :
    ∃ p, (placeDef o dm t s [] (left+1) z n w).1 = setNucleonPosition o n (rotateTS t (s * Real.cos p) (s * Real.sin p) z).1
      (rotateTS t (s * Real.cos p) (s * Real.sin p) z).2.1 (rotateTS t (s * Real.cos p) (s * Real.sin p) z).2.2 := by
  rw [placeDef]
  have hc : ∀ m : NucleonData ℝ, isTooClose dm [] m = false := by intro m; unfold isTooClose; split <;> rfl
  simp only [hc, Bool.and_false, Bool.false_eq_true, if_false]
  exact ⟨_, rfl⟩

theorem can_deformed (R a b2 b4 rmax dm : ℝ) {ε : ℝ} (hε : 0 < ε) (o : ℝ) (ns : List (NucleonData ℝ)) (hl : ns ≠ []) :
    Can μ (fun w : Rand E D => sampleDeformed 1 R a b2 b4 rmax dm o ns w) {ns | Central ε o ns} := by
  have := h.prob
  set δ := ε^2 / (4 * rmax^2 + 1) with hδdef
  have hδ : 0 < δ := by positivity
  have hts : ∀ w : Rand E D, ((drawTiltSpin (F := ℝ) w).1.cosA = (cosTheta (F := ℝ) w).1) := fun w => rfl
  have hcA : Measurable fun q : TiltSpin ℝ × List (ℝ × ℝ) => q.1.cosA := (measurable_fst.comp tilt_tuple).comp measurable_fst
  have hH : MeasurableSet {q : TiltSpin ℝ × List (ℝ × ℝ) | (|q.1.cosA| ≤ 1 ∧ 1 - q.1.cosA * q.1.cosA < δ) ∧
      (|((sortBy Prod.fst q.2).headD (0, 0)).1| ≤ |rmax| ∧ |((sortBy Prod.fst q.2).headD (0, 0)).2| ≤ 1 ∧
        1 - ((sortBy Prod.fst q.2).headD (0, 0)).2 * ((sortBy Prod.fst q.2).headD (0, 0)).2 < δ)} := by
    have hhd : Measurable fun q : TiltSpin ℝ × List (ℝ × ℝ) => (sortBy Prod.fst q.2).headD (0, 0) := (headD_meas _).comp (sortBy_meas measurable_fst measurable_snd)
    have m1 : MeasurableSet {q : TiltSpin ℝ × List (ℝ × ℝ) | |q.1.cosA| ≤ 1} := measurableSet_le (continuous_abs.measurable.comp hcA) measurable_const
    have m2 : MeasurableSet {q : TiltSpin ℝ × List (ℝ × ℝ) | 1 - q.1.cosA * q.1.cosA < δ} := measurableSet_lt (measurable_const.sub (hcA.mul hcA)) measurable_const
    have m3 : MeasurableSet {q : TiltSpin ℝ × List (ℝ × ℝ) | |((sortBy Prod.fst q.2).headD (0, 0)).1| ≤ |rmax|} :=
      measurableSet_le (continuous_abs.measurable.comp (measurable_fst.comp hhd)) measurable_const
    have m4 : MeasurableSet {q : TiltSpin ℝ × List (ℝ × ℝ) | |((sortBy Prod.fst q.2).headD (0, 0)).2| ≤ 1} :=
      measurableSet_le (continuous_abs.measurable.comp (measurable_snd.comp hhd)) measurable_const
    have m5 : MeasurableSet {q : TiltSpin ℝ × List (ℝ × ℝ) | 1 - ((sortBy Prod.fst q.2).headD (0, 0)).2 * ((sortBy Prod.fst q.2).headD (0, 0)).2 < δ} :=
      measurableSet_lt (measurable_const.sub ((measurable_snd.comp hhd).mul (measurable_snd.comp hhd))) measurable_const
    exact (m1.inter m2).inter (m3.inter (m4.inter m5))
  have r2 : Renews μ fun (t : TiltSpin ℝ) (w : Rand E D) => bindR (drawDeformed 1 R a b2 b4 rmax ns.length w) fun ss w => .ok ((t, ss), w) :=
    (renews_drawDeformed h 1 R a b2 b4 rmax ns.length).map (f := fun p : TiltSpin ℝ × List (ℝ × ℝ) => (p.1, p.2)) (by fun_prop)
  have c1 : Can μ (fun w : Rand E D => .ok (drawTiltSpin (F := ℝ) w)) {t | |t.cosA| ≤ 1 ∧ 1 - t.cosA * t.cosA < δ} := by
    refine (can_cosTheta h hδ).mono ?_
    intro w t ht hG
    cases ht
    exact ⟨_, rfl, hG⟩
  have c2 := Can.bind (renews_drawTiltSpin h) r2 hH c1 (fun t ht => by
    refine (can_drawDeformed h R a b2 b4 rmax hδ ns.length).mono ?_
    intro w ss hss hG
    refine ⟨((t, ss.1), ss.2), by simp only [hss, bindR], ht, ?_⟩
    have hlen : (sortBy Prod.fst ss.1).length = ns.length := by rw [sortBy_length]; exact drawDeformed_length hss
    cases hs : sortBy Prod.fst ss.1 with
    | nil => rw [hs] at hlen; exact absurd (List.length_eq_zero_iff.mp hlen.symm) hl
    | cons s rest =>
      have hmem : s ∈ ss.1 := (sortBy_perm Prod.fst ss.1).mem_iff.mp (by rw [hs]; simp)
      simp only [List.headD_cons]
      exact hG s hmem)
  refine c2.mono ?_
  intro w t ht hG
  cases hd : drawDeformed 1 R a b2 b4 rmax ns.length (drawTiltSpin (F := ℝ) w).2 with
  | error e => simp only [bindR, hd] at ht; cases ht
  | ok ss =>
    simp only [bindR, hd] at ht
    cases ht
    refine ⟨_, by simp only [sampleDeformed, hd]; rfl, ?_⟩
    obtain ⟨⟨t1, t2⟩, h1, h2, h3⟩ := hG
    have hlen : (sortBy Prod.fst ss.1).length = ns.length := by rw [sortBy_length]; exact drawDeformed_length hd
    cases ns with
    | nil => exact absurd rfl hl
    | cons n ns =>
      cases hs : sortBy Prod.fst ss.1 with
      | nil => rw [hs] at hlen; simp at hlen
      | cons s rest =>
        simp only [hs, List.headD_cons] at h1 h2 h3
        simp only [mem_ofPred_eq]
        rw [placeAllDef]
        dsimp only
        generalize ht : (drawTiltSpin (F := ℝ) w).1 = t at *
        obtain ⟨rest', hr⟩ := placeAllDef_prefix o dm t ([] ++ [(placeDef o dm t (s.1 * sqrt (lit 1 - s.2 * s.2)) [] 1000 (s.1 * s.2) n ss.2).1]) rest ns
          (placeDef o dm t (s.1 * sqrt (lit 1 - s.2 * s.2)) [] 1000 (s.1 * s.2) n ss.2).2
        rw [hr]
        obtain ⟨p, hp⟩ := placeDef_first o dm t (s.1 * sqrt (lit 1 - s.2 * s.2)) (s.1 * s.2) 999 n ss.2
        rw [hp]
        refine central_set _ _ ?_
        have hB : t.cosB^2 + t.sinB^2 = 1 := by
          rw [← ht]; exact Real.cos_sq_add_sin_sq _
        have hA : t.sinA^2 = 1 - t.cosA * t.cosA := by
          have e : t.sinA = Real.sqrt (((1:ℚ):ℝ) - t.cosA * t.cosA) := by rw [← ht]; rfl
          rw [e, Real.sq_sqrt]
          · simp
          · have := abs_le.mp t1; push_cast; nlinarith
        have hs2 : (s.1 * sqrt (lit 1 - s.2 * s.2))^2 = s.1^2 * (1 - s.2 * s.2) := by
          have : 0 ≤ 1 - s.2 * s.2 := by have := abs_le.mp h2; nlinarith
          rw [mul_pow, sqrt_real, lit_real, Rat.cast_one, Real.sq_sqrt this]
        generalize s.1 * sqrt (lit 1 - s.2 * s.2) = q at *
        have hcs := Real.sin_sq_add_cos_sq p
        have e : (rotateTS t (q * Real.cos p) (q * Real.sin p) (s.1 * s.2)).1^2 + (rotateTS t (q * Real.cos p) (q * Real.sin p) (s.1 * s.2)).2.1^2 =
            (q * Real.cos p)^2 + (q * Real.sin p * t.cosA - s.1 * s.2 * t.sinA)^2 := by
          simp only [rotateTS]
          have : ∀ X Z : ℝ, (X * t.cosB - Z * t.sinB)^2 + (X * t.sinB + Z * t.cosB)^2 = X^2 + Z^2 := by
            intro X Z
            calc _ = (X^2 + Z^2) * (t.cosB^2 + t.sinB^2) := by ring
              _ = _ := by rw [hB, mul_one]
          rw [← this (q * Real.cos p) (q * Real.sin p * t.cosA - s.1 * s.2 * t.sinA)]
          ring
        rw [e]
        have hq : q^2 * Real.cos p^2 + q^2 * Real.sin p^2 = q^2 := by rw [← mul_add, add_comm, hcs, mul_one]
        have hca : t.cosA^2 ≤ 1 := by have := abs_le.mp t1; nlinarith
        have hss : s.2^2 ≤ 1 := by have := abs_le.mp h2; nlinarith
        have hs1 : s.1^2 ≤ rmax^2 := sq_le_sq.mpr h1
        have step1 : (q * Real.sin p * t.cosA - s.1 * s.2 * t.sinA)^2 ≤ 2 * (q^2 * Real.sin p^2) + 2 * (rmax^2 * δ) := by
          have a1 : (q * Real.sin p * t.cosA - s.1 * s.2 * t.sinA)^2 ≤ 2 * (q * Real.sin p * t.cosA)^2 + 2 * (s.1 * s.2 * t.sinA)^2 := by
            nlinarith [sq_nonneg (q * Real.sin p * t.cosA + s.1 * s.2 * t.sinA)]
          have a2 : (q * Real.sin p * t.cosA)^2 ≤ q^2 * Real.sin p^2 := by
            have : 0 ≤ q^2 * Real.sin p^2 := by positivity
            calc _ = q^2 * Real.sin p^2 * t.cosA^2 := by ring
              _ ≤ _ := mul_le_of_le_one_right this hca
          have a3 : (s.1 * s.2 * t.sinA)^2 ≤ rmax^2 * δ := by
            calc _ = s.1^2 * s.2^2 * t.sinA^2 := by ring
              _ ≤ rmax^2 * 1 * δ := by
                refine mul_le_mul (mul_le_mul hs1 hss (by positivity) (by positivity)) ?_ (by positivity) (by positivity)
                rw [hA]; exact t2.le
              _ = _ := by ring
          linarith
        have step2 : q^2 ≤ rmax^2 * δ := by
          rw [hs2]
          exact mul_le_mul hs1 h3.le (by have := abs_le.mp h2; nlinarith) (by positivity)
        have step3 : 4 * (rmax^2 * δ) ≤ ε^2 := by
          have : (4 * rmax^2 + 1) * δ = ε^2 := by rw [hδdef]; field_simp
          nlinarith
        have hcp : (q * Real.cos p)^2 = q^2 * Real.cos p^2 := by ring
        have hsp : 0 ≤ q^2 * Real.cos p^2 := by positivity
        rw [hcp]
        linarith

/-! ### Manual -/

omit h [Rng ℝ E D] [MeasurableSpace E] [MeasurableSpace D] in
/-- two angles turn a point onto the z axis -/
theorem euler_axis (x y z : ℝ) : ∃ u1 u2 : ℝ, (0 ≤ u1 ∧ u1 ≤ 1) ∧ (0 ≤ u2 ∧ u2 ≤ 1) ∧
    (x^2 + y^2 + z^2) - (x * Real.sin (2*Real.pi*u1) * Real.sqrt (1 - (2*u2-1)*(2*u2-1)) + y * Real.cos (2*Real.pi*u1) * Real.sqrt (1 - (2*u2-1)*(2*u2-1)) +
      z * (2*u2-1))^2 = 0 := by
  by_cases hN : x^2 + y^2 + z^2 = 0
  · have hx : x = 0 := by nlinarith [sq_nonneg x, sq_nonneg y, sq_nonneg z]
    have hy : y = 0 := by nlinarith [sq_nonneg x, sq_nonneg y, sq_nonneg z]
    have hz : z = 0 := by nlinarith [sq_nonneg x, sq_nonneg y, sq_nonneg z]
    exact ⟨0, 0, by norm_num, by norm_num, by rw [hx, hy, hz]; ring⟩
  · have hNp : 0 < x^2 + y^2 + z^2 := lt_of_le_of_ne (by positivity) (Ne.symm hN)
    set N := Real.sqrt (x^2 + y^2 + z^2) with hNd
    have hN2 : N^2 = x^2 + y^2 + z^2 := Real.sq_sqrt hNp.le
    have hN0 : 0 < N := Real.sqrt_pos.mpr hNp
    set ρ := Real.sqrt (x^2 + y^2) with hρd
    have hρ2 : ρ^2 = x^2 + y^2 := Real.sq_sqrt (by positivity)
    have hρ0 : 0 ≤ ρ := Real.sqrt_nonneg _
    obtain ⟨θ, hθ0, hθ1, hs, hc⟩ : ∃ θ : ℝ, 0 ≤ θ ∧ θ ≤ 2*Real.pi ∧ ρ * Real.sin θ = x ∧ ρ * Real.cos θ = y := by
      have e1 := Complex.norm_mul_cos_arg (⟨y, x⟩ : ℂ)
      have e2 := Complex.norm_mul_sin_arg (⟨y, x⟩ : ℂ)
      have en : ‖(⟨y, x⟩ : ℂ)‖ = ρ := by
        rw [Complex.norm_eq_sqrt_sq_add_sq, hρd, add_comm]
      rw [en] at e1 e2
      have b1 := Complex.neg_pi_lt_arg (⟨y, x⟩ : ℂ)
      have b2 := Complex.arg_le_pi (⟨y, x⟩ : ℂ)
      have hpi := Real.pi_pos
      by_cases h0 : 0 ≤ Complex.arg ⟨y, x⟩
      · exact ⟨_, h0, by linarith, e2, e1⟩
      · refine ⟨Complex.arg ⟨y, x⟩ + 2*Real.pi, by linarith, by linarith, ?_, ?_⟩
        · rw [Real.sin_add_two_pi]; exact e2
        · rw [Real.cos_add_two_pi]; exact e1
    have hzN : |z / N| ≤ 1 := by
      rw [abs_div, abs_of_pos hN0, div_le_one hN0]
      exact abs_le_of_sq_le_sq (by rw [hN2]; nlinarith [sq_nonneg x, sq_nonneg y]) hN0.le
    have hb := abs_le.mp hzN
    have hpi := Real.pi_pos
    refine ⟨θ / (2*Real.pi), (z/N + 1)/2, ⟨by positivity, by rw [div_le_one (by positivity)]; exact hθ1⟩, ⟨by linarith, by linarith⟩, ?_⟩
    have e1 : 2*Real.pi*(θ / (2*Real.pi)) = θ := by field_simp
    have e2 : 2*((z/N + 1)/2) - 1 = z/N := by ring
    have e3 : Real.sqrt (1 - z/N*(z/N)) = ρ/N := by
      have : 1 - z/N*(z/N) = (ρ/N)^2 := by
        rw [div_pow, hρ2]
        field_simp
        rw [hN2]; ring
      rw [this, Real.sqrt_sq (by positivity)]
    rw [e1, e2, e3]
    have e4 : x * Real.sin θ * (ρ/N) + y * Real.cos θ * (ρ/N) + z * (z/N) = N := by
      have : x * Real.sin θ * (ρ/N) + y * Real.cos θ * (ρ/N) + z * (z/N) = (x * (ρ * Real.sin θ) + y * (ρ * Real.cos θ) + z * z) / N := by ring
      rw [this, hs, hc, div_eq_iff hN0.ne']
      nlinarith [hN2]
    rw [e4, hN2, sub_self]

omit h [Rng ℝ E D] [MeasurableSpace E] [MeasurableSpace D] in
theorem euler_transverse (e : Euler ℝ) (x y z : ℝ) (h1 : e.c1^2 + e.s1^2 = 1) (h2 : e.c2^2 + e.s2^2 = 1) (h3 : e.c3^2 + e.s3^2 = 1) :
    (rotateEuler e x y z).1^2 + (rotateEuler e x y z).2.1^2 = (x^2 + y^2 + z^2) - (x * e.s1 * e.s2 + y * e.c1 * e.s2 + z * e.c2)^2 := by
  have e1 : (rotateEuler e x y z).1 = (x * e.c1 - y * e.s1) * e.c3 - (x * e.s1 * e.c2 + y * e.c1 * e.c2 - z * e.s2) * e.s3 := by
    simp only [rotateEuler]; ring
  have e2 : (rotateEuler e x y z).2.1 = (x * e.c1 - y * e.s1) * e.s3 + (x * e.s1 * e.c2 + y * e.c1 * e.c2 - z * e.s2) * e.c3 := by
    simp only [rotateEuler]; ring
  have e3 : ∀ X Z : ℝ, (X * e.c3 - Z * e.s3)^2 + (X * e.s3 + Z * e.c3)^2 = X^2 + Z^2 := by
    intro X Z
    calc _ = (X^2 + Z^2) * (e.c3^2 + e.s3^2) := by ring
      _ = _ := by rw [h3, mul_one]
  rw [e1, e2, e3]
  have e4 : (x * e.s1 * e.c2 + y * e.c1 * e.c2 - z * e.s2)^2 + (x * e.s1 * e.s2 + y * e.c1 * e.s2 + z * e.c2)^2 = (x * e.s1 + y * e.c1)^2 + z^2 := by
    calc _ = ((x * e.s1 + y * e.c1)^2 + z^2) * (e.c2^2 + e.s2^2) := by ring
      _ = _ := by rw [h2, mul_one]
  have e5 : (x * e.c1 - y * e.s1)^2 + (x * e.s1 + y * e.c1)^2 = x^2 + y^2 := by
    calc _ = (x^2 + y^2) * (e.c1^2 + e.s1^2) := by ring
      _ = _ := by rw [h1, mul_one]
  linarith

theorem can_drawEuler [LawfulRng E D] (x y z : ℝ) {ε : ℝ} (hε : 0 < ε) :
    Can μ (fun w : Rand E D => .ok (drawEuler (F := ℝ) w)) {e | (rotateEuler e x y z).1^2 + (rotateEuler e x y z).2.1^2 ≤ ε^2} := by
  have := h.prob
  set G : ℝ × ℝ → ℝ := fun u => (x^2 + y^2 + z^2) - (x * Real.sin (2*Real.pi*u.1) * Real.sqrt (1 - (2*u.2-1)*(2*u.2-1)) +
      y * Real.cos (2*Real.pi*u.1) * Real.sqrt (1 - (2*u.2-1)*(2*u.2-1)) + z * (2*u.2-1))^2 with hG
  have hGc : Continuous G := by
    have hs : Continuous fun u : ℝ × ℝ => Real.sqrt (1 - (2*u.2-1)*(2*u.2-1)) := Real.continuous_sqrt.comp (by fun_prop)
    have h1 : Continuous fun u : ℝ × ℝ => x * Real.sin (2*Real.pi*u.1) := by fun_prop
    have h2 : Continuous fun u : ℝ × ℝ => y * Real.cos (2*Real.pi*u.1) := by fun_prop
    have h3 : Continuous fun u : ℝ × ℝ => z * (2*u.2-1) := by fun_prop
    exact continuous_const.sub ((((h1.mul hs).add (h2.mul hs)).add h3).pow 2)
  obtain ⟨u1, u2, ⟨a1, a2⟩, ⟨b1, b2⟩, h0⟩ := euler_axis x y z
  have hopen : IsOpen {u | G u < ε^2} := isOpen_lt hGc continuous_const
  obtain ⟨η, hη, hball⟩ := Metric.isOpen_iff.mp hopen (u1, u2) (by show G (u1, u2) < ε^2; rw [hG]; dsimp only; rw [h0]; positivity)
  have hH : MeasurableSet {u : ℝ × ℝ | G u < ε^2} := hopen.measurableSet
  have r2 : Renews μ fun (u : ℝ) (w : Rand E D) => bindR (.ok (canonical (F := ℝ) w)) fun v w => .ok ((u, v), w) :=
    (renews_canonical h).map (f := fun p : ℝ × ℝ => (p.1, p.2)) (by fun_prop)
  have c1 := Can.bind (renews_canonical h) r2 hH (can_canonical_near h a1 a2 hη) (fun u hu => by
    refine (can_canonical_near h b1 b2 hη).mono ?_
    intro w t ht hv
    cases ht
    refine ⟨_, rfl, hball ?_⟩
    rw [Metric.mem_ball, Prod.dist_eq, Real.dist_eq, Real.dist_eq]
    exact max_lt hu hv)
  refine c1.mono ?_
  intro w t ht hu
  simp only [bindR, Except.ok.injEq] at ht
  rw [← ht] at hu
  have hu' : G ((canonical (F := ℝ) w).1, (canonical (F := ℝ) (canonical (F := ℝ) w).2).1) < ε^2 := hu
  refine ⟨_, rfl, ?_⟩
  simp only [mem_ofPred_eq]
  have e1 : (drawEuler (F := ℝ) w).1.c1 = Real.cos (2*Real.pi*(canonical (F := ℝ) w).1) := rfl
  have e2 : (drawEuler (F := ℝ) w).1.s1 = Real.sin (2*Real.pi*(canonical (F := ℝ) w).1) := rfl
  have e3 : (drawEuler (F := ℝ) w).1.c2 = 2*(canonical (F := ℝ) (canonical (F := ℝ) w).2).1 - 1 := by
    show (cosTheta (F := ℝ) (canonical (F := ℝ) w).2).1 = _
    simp only [cosTheta, lit_real]; norm_num
  have e4 : (drawEuler (F := ℝ) w).1.s2 = Real.sqrt (1 - (2*(canonical (F := ℝ) (canonical (F := ℝ) w).2).1 - 1)*(2*(canonical (F := ℝ) (canonical (F := ℝ) w).2).1 - 1)) := by
    rw [← e3]
    show Real.sqrt (((1:ℚ):ℝ) - _) = _
    rw [Rat.cast_one]
    rfl
  have hb := canonical_mem (canonical (F := ℝ) w).2
  rw [euler_transverse]
  · rw [e1, e2, e3, e4]
    exact hu'.le
  · rw [e1, e2]; exact Real.cos_sq_add_sin_sq _
  · rw [e3, e4, Real.sq_sqrt]
    · ring
    · nlinarith [hb.1, hb.2]
  · exact Real.cos_sq_add_sin_sq _

theorem can_manual [LawfulRng E D] (configs : List (List (ℝ × ℝ × ℝ))) (hcf : configs ≠ []) {ε : ℝ} (hε : 0 < ε) (o : ℝ) (ns : List (NucleonData ℝ)) (hl : ns ≠ [])
    (hlen : ∀ c ∈ configs, c.length = ns.length) :
    Can μ (fun w : Rand E D => sampleManual configs o ns w) {ns | Central ε o ns} := by
  have := h.prob
  set bound := (if configs.length = 0 then 18446744073709551615 else configs.length - 1) with hbound
  have hb : bound < configs.length := by
    have : 0 < configs.length := List.length_pos_iff.mpr hcf
    rw [hbound, if_neg (by omega)]; omega
  obtain ⟨ν, hν, hlaw⟩ := h.index_law bound
  -- an index that can be drawn
  obtain ⟨k, hk⟩ : ∃ k, ν {k} ≠ 0 := by
    by_contra hn
    push Not at hn
    have h1 : ν univ = 0 := by
      rw [← iUnion_of_singleton ℕ]
      exact measure_iUnion_null hn
    simp at h1
  have ck : Can μ (fun w : Rand E D => .ok (drawIndex ℝ bound w)) {k} := by
    intro i
    obtain ⟨j, hj⟩ := hlaw i
    have : {w : Rand E D | ∃ t, (.ok (drawIndex ℝ bound w) : Res (ℕ × Rand E D)) = .ok t ∧ t.1 ∈ ({k} : Set ℕ)} = (fun w => drawIndex ℝ bound w) ⁻¹' ({k} ×ˢ univ) := by
      ext w
      simp
    rw [this, ← Measure.map_apply (h.index_meas bound) ((measurableSet_singleton k).prod MeasurableSet.univ), hj, Measure.prod_prod, measure_univ, mul_one]
    exact hk
  by_cases hkb : k < configs.length
  swap
  · -- impossible: the index is at most the bound
    intro i
    exfalso
    refine ck i ?_
    rw [show {w : Rand E D | ∃ t, (.ok (drawIndex ℝ bound w) : Res (ℕ × Rand E D)) = .ok t ∧ t.1 ∈ ({k} : Set ℕ)} = ∅ from ?_]
    · simp
    · ext w
      simp only [Except.ok.injEq, exists_eq_left', mem_singleton_iff, mem_empty_iff_false, iff_false]
      intro he
      have h1 : (drawIndex ℝ bound w).1 ≤ bound := LawfulRng.uniformInt_le bound w.dist w.eng
      rw [he] at h1
      exact hkb (h1.trans_lt hb)
  · match hps : configs[k], hlen _ (List.getElem_mem hkb) with
    | ps, hpl =>
      cases ns with
      | nil => exact absurd rfl hl
      | cons n ns =>
        match ps, hpl, hps with
        | [], hpl, hps => simp at hpl
        | (x, y, z) :: ps, hpl, hps =>
          have hH : MeasurableSet {q : Euler ℝ × ℕ | (rotateEuler q.1 x y z).1^2 + (rotateEuler q.1 x y z).2.1^2 ≤ ε^2 ∧ q.2 = k} := by
            have hr := rotateEuler_meas (Z := Euler ℝ × ℕ) (e := fun q => q.1) measurable_fst x y z
            have m1 : MeasurableSet {q : Euler ℝ × ℕ | (rotateEuler q.1 x y z).1^2 + (rotateEuler q.1 x y z).2.1^2 ≤ ε^2} :=
              measurableSet_le (((measurable_fst.comp hr).pow_const 2).add ((measurable_fst.comp (measurable_snd.comp hr)).pow_const 2)) measurable_const
            have m2 : MeasurableSet {q : Euler ℝ × ℕ | q.2 = k} := measurable_snd (measurableSet_singleton k)
            exact m1.inter m2
          have r2 : Renews μ fun (e : Euler ℝ) (w : Rand E D) => bindR (.ok (drawIndex ℝ bound w)) fun v w => .ok ((e, v), w) :=
            (renews_index h bound).map (f := fun p : Euler ℝ × ℕ => (p.1, p.2)) (by fun_prop)
          have c1 := Can.bind (renews_drawEuler h) r2 hH (can_drawEuler h x y z hε) (fun e he => by
            refine ck.mono ?_
            intro w t ht hv
            cases ht
            exact ⟨_, rfl, he, hv⟩)
          refine c1.mono ?_
          intro w t ht hq
          simp only [bindR, Except.ok.injEq] at ht
          rw [← ht] at hq
          obtain ⟨h1, h2⟩ := hq
          dsimp only at h1 h2
          have hg : configs[k]? = some ((x, y, z) :: ps) := by rw [List.getElem?_eq_getElem hkb, hps]
          have hpl' : ps.length = ns.length := by simpa using hpl
          obtain ⟨ns', hns⟩ := placeManual_total o (drawEuler (F := ℝ) w).1 ps ns hpl'
          refine ⟨_, by unfold sampleManual; simp only [← hbound, h2, hg, placeManual, hns]; rfl, ?_⟩
          exact central_set _ _ h1

/-! ### Every nucleus -/

/-- a nucleus can be sampled with its first nucleon close to its axis -/
theorem can_central [LawfulRng E D] (nuc : Nucleus ℝ) (hh : NucleusHistory E D nuc) (hs : Samplable nuc.kind) (hn : nuc.nucleons ≠ []) {ε : ℝ} (hε : 0 < ε)
    (rfuel : ℕ) (hr : 1 ≤ rfuel) (o : ℝ) :
    Can μ (fun w : Rand E D => (nuc.sampleNucleons rfuel o w).map fun t => (t.1.nucleons, t.2)) {ns | Central ε o ns} := by
  have := h.prob
  have hw := hh.wf
  unfold Nucleus.WF at hw
  have lift : Can μ (fun w : Rand E D => (nuc.sampleNucleons 1 o w).map fun t => (t.1.nucleons, t.2)) {ns | Central ε o ns} →
      Can μ (fun w : Rand E D => (nuc.sampleNucleons rfuel o w).map fun t => (t.1.nucleons, t.2)) {ns | Central ε o ns} := by
    intro hc
    refine hc.mono ?_
    intro w t ht hG
    cases h1 : nuc.sampleNucleons 1 o w with
    | error e => rw [h1] at ht; cases ht
    | ok r =>
      have h2 := sampleNucleons_settles nuc o w 1 rfuel hr (by dsimp only; rw [h1]; simp)
      dsimp only at h2
      rw [h1] at ht
      exact ⟨t, by rw [h2, h1]; exact ht, hG⟩
  apply lift
  cases hk : nuc.kind with
  | proton =>
    rw [hk] at hw
    have hl : nuc.nucleons.length = 1 := hw
    match hm : nuc.nucleons, hl with
    | [n], _ =>
      have e : ∀ w : Rand E D, (nuc.sampleNucleons 1 o w).map (fun t => (t.1.nucleons, t.2)) = .ok ([setNucleonPosition o n (lit 0) (lit 0) (lit 0)], w) := by
        intro w; simp only [Nucleus.sampleNucleons, hk, hm]; rfl
      simp only [e]
      refine Can.always fun w => central_set _ _ ?_
      simp only [lit_real, Rat.cast_zero]
      nlinarith
  | deuteron a b =>
    rw [hk] at hw hs
    refine (can_deuteron h hs.1 hs.2 hε o nuc.nucleons hw).mono ?_
    intro w t ht hG
    exact ⟨t, by simp only [Nucleus.sampleNucleons, hk, ht]; rfl, hG⟩
  | woodsSaxon R a dm =>
    refine (can_WS h R a dm hε o nuc.nucleons hn).mono ?_
    intro w t ht hG
    cases ht
    exact ⟨_, by simp only [Nucleus.sampleNucleons, hk]; rfl, hG⟩
  | deformed R a b2 b4 rmax dm =>
    refine (can_deformed h R a b2 b4 rmax dm hε o nuc.nucleons hn).mono ?_
    intro w t ht hG
    exact ⟨t, by simp only [Nucleus.sampleNucleons, hk, ht]; rfl, hG⟩
  | manual configs rmax =>
    rw [hk] at hw hs
    refine (can_manual h configs hs hε o nuc.nucleons hn hw).mono ?_
    intro w t ht hG
    exact ⟨t, by simp only [Nucleus.sampleNucleons, hk, ht]; rfl, hG⟩

end
end Trento
