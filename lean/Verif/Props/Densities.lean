import Verif.Props.AlmostSure

/-!
# C87: the sampled positions have the documented densities

With an ideal source of random numbers the accepted proposals of the rejection loops have exactly the densities the documentation states:
the Hulthén density for the deuteron and the deformed Woods–Saxon density for deformed nuclei; the radii of the nucleons of a nucleus are independent.
-/

namespace Trento
open MeasureTheory Set Real Spec
open scoped ENNReal Classical

variable {E D : Type} [Rng ℝ E D] [MeasurableSpace E] {μ : Measure E}

/-! ### Values of rejection loops -/

theorem rejLoop_value [IsProbabilityMeasure μ] {α : Type} [MeasurableSpace α] {T : E → α × E} {ν : Measure α} (hT : IsDraw μ T ν) {acc : Set α}
    (ha : MeasurableSet acc) {g : α → ℝ≥0∞} (hg : Measurable g) (n : ℕ) :
    ∫⁻ e, (rejLoop T acc n e).elim 0 (fun t => g t.1) ∂μ = (∑ i ∈ Finset.range n, ν accᶜ ^ i) * ∫⁻ a in acc, g a ∂ν := by
  induction n with
  | zero => simp [rejLoop]
  | succ n ih =>
    rw [rejLoop_step hT ha (k := fun t => g t.1) (hg.comp measurable_fst), ih]
    simp only [lintegral_const, measure_univ, mul_one]
    set C := (∑ i ∈ Finset.range n, ν accᶜ ^ i) * ∫⁻ a in acc, g a ∂ν
    have : ∀ a, (if a ∈ acc then g a else C) = acc.indicator g a + accᶜ.indicator (fun _ => C) a := by
      intro a
      by_cases h : a ∈ acc <;> simp [h]
    simp only [this]
    rw [lintegral_add_left (hg.indicator ha), lintegral_indicator ha, lintegral_indicator_const ha.compl, Finset.sum_range_succ']
    simp only [pow_succ, pow_zero, C]
    rw [← Finset.sum_mul, add_mul, one_mul, add_comm]
    ring

theorem prod_meas {α Z : Type} [MeasurableSpace α] [Zero α] [MeasurableSpace Z] {g : α → ℝ≥0∞} (hg : Measurable g) {l : Z → List α} (hl : MeasL l) :
    Measurable fun z => ((l z).map g).prod := by
  obtain ⟨n, hn⟩ := hl.len
  induction n generalizing l with
  | zero =>
    have e : ∀ y, l y = [] := fun y => List.eq_nil_of_length_eq_zero (hn y)
    simp only [e]
    exact measurable_const
  | succ n ih =>
    have e1 : ∀ y, l y = (l y).getD 0 0 :: (l y).tail := by
      intro y
      have := hn y
      cases hL : l y with
      | nil => rw [hL] at this; simp at this
      | cons x xs => simp
    have e2 : ∀ y, ((l y).map g).prod = g ((l y).getD 0 0) * ((l y).tail.map g).prod := by
      intro y
      conv_lhs => rw [e1 y]
      rw [List.map_cons, List.prod_cons]
    simp only [e2]
    exact (hg.comp (hl.coord 0)).mul (ih hl.tail (fun y => by simp [hn]))

/-- `k` values in a row are independent -/
theorem manyVal_prod [IsProbabilityMeasure μ] {α : Type} [MeasurableSpace α] [Zero α] {L : E → Option (α × E)} (hL : IsLoop μ L)
    {g : α → ℝ≥0∞} (hg : Measurable g) (k : ℕ) :
    ∫⁻ e, manyVal L 0 (fun l _ => (l.map g).prod) k e ∂μ = (∫⁻ e, (L e).elim 0 (fun t => g t.1) ∂μ) ^ k := by
  have hK : MeasK fun (_ : Unit) (l : List α) (_ : E) => (l.map g).prod := fun Z _ _ l e _ hl _ => prod_meas hg hl
  induction k with
  | zero => simp [manyVal, rejMany]
  | succ k ih =>
    simp only [manyVal_succ]
    set I := ∫⁻ e, manyVal L 0 (fun l _ => (l.map g).prod) k e ∂μ with hI
    have hpull : ∀ t : α × E, manyVal L 0 (fun l _ => ((t.1 :: l).map g).prod) k t.2 = g t.1 * manyVal L 0 (fun l _ => (l.map g).prod) k t.2 := by
      intro t
      unfold manyVal
      cases rejMany L k t.2 with
      | none => simp
      | some s => simp
    have hmv : Measurable fun t : α × E => manyVal L 0 (fun l _ => (l.map g).prod) k t.2 :=
      manyVal_meas hL k (Y := α × E) (K := fun _ l _ => (l.map g).prod) (fun Z _ _ l e _ hl _ => prod_meas hg hl) measurable_snd
    have e1 := hL.congr (c := 0) (k1 := fun t => g t.1 * manyVal L 0 (fun l _ => (l.map g).prod) k t.2) (k2 := fun t => g t.1 * I)
      ((hg.comp measurable_fst).mul hmv) ((hg.comp measurable_fst).mul measurable_const) (fun a => by
        have hmv2 : Measurable fun e : E => manyVal L 0 (fun l _ => (l.map g).prod) k e := hmv.comp (measurable_prodMk_left (x := a))
        simp only [lintegral_const, measure_univ, mul_one]
        rw [lintegral_const_mul _ hmv2])
    simp only [hpull]
    rw [e1]
    have e2 : ∀ e, (L e).elim 0 (fun t => g t.1 * I) = (L e).elim 0 (fun t => g t.1) * I := by
      intro e; cases L e <;> simp
    simp only [e2]
    rw [lintegral_mul_const, ih, pow_succ, mul_comm]
    exact hL.meas (Y := E) (k := fun _ t => g t.1) (hg.comp (measurable_fst.comp measurable_snd)) measurable_id

/-- the acceptance step: a proposal with success probability `p ∈ [0, 1]` -/
theorem unif_accept {p : ℝ} (h1 : p ≤ 1) : unif {v | ¬ p < v} = ENNReal.ofReal p := by
  unfold unif
  have hm : MeasurableSet {v : ℝ | ¬ p < v} := (measurableSet_lt measurable_const measurable_id).compl
  rw [Measure.restrict_apply hm]
  have e : ∀ᵐ v ∂(volume : Measure ℝ), v ∈ ({v | ¬ p < v} ∩ Ico 0 1 : Set ℝ) ↔ v ∈ Ico 0 p := by
    have : ∀ᵐ v ∂(volume : Measure ℝ), v ≠ p := by
      rw [ae_iff]; simp
    filter_upwards [this] with v hv
    simp only [mem_inter_iff, mem_ofPred_eq, mem_Ico, not_lt]
    constructor
    · rintro ⟨h2, h3, h4⟩; exact ⟨h3, lt_of_le_of_ne h2 hv⟩
    · rintro ⟨h2, h3⟩; exact ⟨h3.le, h2, by linarith⟩
  rw [measure_congr (Filter.eventuallyEq_set.2 e), Real.volume_Ico, sub_zero]

theorem lintegral_unif (k : ℝ → ℝ≥0∞) : ∫⁻ u, k u ∂unif = ∫⁻ u in Ioo (0:ℝ) 1, k u := by
  unfold unif
  rw [Measure.restrict_congr_set Ioo_ae_eq_Ico.symm]

/-! ### The deuteron -/

/-- the Hulthén density of the documentation, `((e^{-ar} - e^{-br}) / r)²`, at distance `r` from the origin -/
noncomputable def Spec.hulthen (a b : ℝ) (p : ℝ × ℝ × ℝ) : ℝ≥0∞ :=
  ENNReal.ofReal (((Real.exp (-a * √(p.1^2 + p.2.1^2 + p.2.2^2)) - Real.exp (-b * √(p.1^2 + p.2.1^2 + p.2.2^2))) /
    √(p.1^2 + p.2.1^2 + p.2.2^2))^2)

/-- the change of variables `u = e^{-2 a r}` -/
theorem lintegral_exp {a : ℝ} (ha : 0 < a) (k : ℝ → ℝ≥0∞) :
    ∫⁻ u in Ioo (0:ℝ) 1, k u = ∫⁻ r in Ioi (0:ℝ), ENNReal.ofReal (2 * a * Real.exp (-2 * a * r)) * k (Real.exp (-2 * a * r)) := by
  have himg : (fun r : ℝ => Real.exp (-2 * a * r)) '' Ioi 0 = Ioo 0 1 := by
    ext c
    simp only [mem_image, mem_Ioi, mem_Ioo]
    constructor
    · rintro ⟨u, h0, rfl⟩
      exact ⟨Real.exp_pos _, by rw [Real.exp_lt_one_iff]; nlinarith⟩
    · rintro ⟨h0, h1⟩
      refine ⟨Real.log c / (-2 * a), ?_, ?_⟩
      · exact div_pos_of_neg_of_neg (Real.log_neg h0 h1) (by linarith)
      · rw [mul_div_cancel₀ _ (by linarith : -2 * a ≠ 0), Real.exp_log h0]
  have := lintegral_image_eq_lintegral_abs_deriv_mul (s := Ioi (0:ℝ)) (f := fun r => Real.exp (-2 * a * r))
    (f' := fun r => Real.exp (-2 * a * r) * (-2 * a)) measurableSet_Ioi
    (fun x _ => by simpa using (((hasDerivAt_id x).const_mul (-2 * a)).exp).hasDerivWithinAt)
    (fun x _ y _ hxy => by
      have := Real.exp_injective hxy
      have h2 : -2 * a ≠ 0 := by linarith
      exact mul_left_cancel₀ h2 this) k
  rw [himg] at this
  rw [this]
  refine lintegral_congr fun r => ?_
  congr 2
  rw [abs_mul, abs_of_pos (Real.exp_pos _), abs_of_neg (by linarith : -2 * a < 0)]
  ring

theorem deuteronRadius_exp {a : ℝ} (ha : 0 < a) (r : ℝ) : deuteronRadius a (Real.exp (-2 * a * r)) = r := by
  simp only [deuteronRadius, log_real, lit_real, Real.log_exp]
  push_cast
  field_simp

theorem deuteronProb_exp {a b : ℝ} (r : ℝ) :
    deuteronProb a b (Real.exp (-2 * a * r)) r = (Real.exp (-a * r) - Real.exp (-b * r))^2 / Real.exp (-2 * a * r) := by
  simp only [deuteronProb, exp_real, pow_real, lit_real]
  norm_num

/-- the acceptance probability is a probability -/
theorem deuteronProb_le_one {a b : ℝ} (hab : a ≤ b) {r : ℝ} (hr : 0 ≤ r) : deuteronProb a b (Real.exp (-2 * a * r)) r ≤ 1 := by
  rw [deuteronProb_exp, div_le_one (Real.exp_pos _)]
  have h1 : Real.exp (-b * r) ≤ Real.exp (-a * r) := Real.exp_le_exp.2 (by nlinarith)
  have h2 := Real.exp_pos (-b * r)
  have h3 : Real.exp (-2 * a * r) = Real.exp (-a * r)^2 := by rw [← Real.exp_nat_mul]; congr 1; push_cast; ring
  rw [h3]
  nlinarith [Real.exp_pos (-a * r)]

/-- the law of the accepted radius of the deuteron -/
theorem deuteron_accepted {a b : ℝ} (ha : 0 < a) (hab : a ≤ b) {G : ℝ → ℝ≥0∞} (hG : Measurable G) :
    ∫⁻ u in deuteronAcc a b, G (deuteronRadius a u.1) ∂(unif.prod unif) =
      ENNReal.ofReal (2 * a) * ∫⁻ r in Ioi (0:ℝ), ENNReal.ofReal ((Real.exp (-a * r) - Real.exp (-b * r))^2) * G r := by
  have hrad : Measurable fun u : ℝ => deuteronRadius a u := by
    simp only [deuteronRadius, log_real, lit_real]; fun_prop
  rw [← lintegral_indicator (deuteronAcc_meas a b), lintegral_prod]
  swap
  · exact ((hG.comp (hrad.comp measurable_fst)).indicator (deuteronAcc_meas a b)).aemeasurable
  have e1 : ∀ u : ℝ, ∫⁻ v, (deuteronAcc a b).indicator (fun u => G (deuteronRadius a u.1)) (u, v) ∂unif =
      G (deuteronRadius a u) * unif {v | ¬ deuteronProb a b u (deuteronRadius a u) < v} := by
    intro u
    have hm : MeasurableSet {v : ℝ | ¬ deuteronProb a b u (deuteronRadius a u) < v} := (measurableSet_lt measurable_const measurable_id).compl
    rw [← lintegral_indicator_const hm]
    rfl
  simp only [e1]
  rw [lintegral_unif, lintegral_exp ha, ← lintegral_const_mul' _ _ ENNReal.ofReal_ne_top]
  refine setLIntegral_congr_fun measurableSet_Ioi ?_
  intro r hr
  have hr0 : 0 < r := hr
  simp only
  rw [deuteronRadius_exp ha, unif_accept (deuteronProb_le_one hab hr0.le), deuteronProb_exp, mul_comm (G r), ← mul_assoc, ← mul_assoc,
    ← ENNReal.ofReal_mul (by positivity), ← ENNReal.ofReal_mul (by positivity)]
  congr 2
  have := Real.exp_pos (-2 * a * r)
  field_simp

omit [MeasurableSpace E] in
/-- the value of a sampling of the deuteron as the value of its rejection loop -/
theorem deuteron_value (x0 a b : ℝ) (fuel : ℕ) (n1 n2 : NucleonData ℝ) (d : D) (K : (ℕ → Fin 3 → ℝ) → ℝ≥0∞) (e : E) :
    (match sampleDeuteron fuel a b x0 [n1, n2] (⟨e, d⟩ : Rand E D) with | .ok r => K (config x0 r.1) | .error _ => 0) =
      (rejLoop (draw2 E D) (deuteronAcc a b) fuel e).elim 0 fun t =>
        K (cfg [dirP (deuteronRadius a t.1.1) (draw2 E D t.2).1, -dirP (deuteronRadius a t.1.1) (draw2 E D t.2).1]) := by
  unfold sampleDeuteron
  rw [deuteronLoop_rej]
  dsimp only
  cases rejLoop (draw2 E D) (deuteronAcc a b) fuel e with
  | none => rfl
  | some t =>
    simp only [Option.elim]
    have e1 : (cosTheta (F := ℝ) (⟨t.2, d⟩ : Rand E D)).1 = 2 * (draw2 E D t.2).1.1 - 1 := by
      simp [cosTheta, canonical, draw2, can]
    have e2 : (phi (F := ℝ) (cosTheta (F := ℝ) (⟨t.2, d⟩ : Rand E D)).2).1 = 2 * π * (draw2 E D t.2).1.2 := by
      simp [phi, cosTheta, canonical, draw2, can]
    rw [config_eq, e1, e2]
    simp only [List.map_cons, List.map_nil]
    have hneg : ∀ p : V3, relPos x0 (setNucleonPosition x0 n2 (-p.1) (-p.2.1) (-p.2.2)) = -vec p := by
      intro p
      have := relPos_set x0 n2 (-p.1, -p.2.1, -p.2.2)
      rw [this]
      ext i; fin_cases i <;> simp [vec]
    rw [relPos_set, hneg]
    rfl

theorem lintegral_swap3 (S A B : Set ℝ) {w : ℝ → ℝ≥0∞} (hw : Measurable w) (hfin : ∀ r, w r ≠ ∞) {k : ℝ → ℝ → ℝ → ℝ≥0∞}
    (hk : Measurable fun q : (ℝ × ℝ) × ℝ => k q.1.1 q.1.2 q.2) :
    ∫⁻ r in S, w r * ∫⁻ φ in A, ∫⁻ c in B, k r φ c = ∫⁻ φ in A, ∫⁻ c in B, ∫⁻ r in S, w r * k r φ c := by
  have hmm : Measurable fun q : (ℝ × ℝ) × ℝ => w q.1.1 * k q.1.1 q.1.2 q.2 := (hw.comp (measurable_fst.comp measurable_fst)).mul hk
  have hm1 : Measurable fun q : ℝ × ℝ => ∫⁻ c in B, w q.1 * k q.1 q.2 c := Measurable.lintegral_prod_right' hmm
  have e4 : ∀ r : ℝ, w r * ∫⁻ φ in A, ∫⁻ c in B, k r φ c = ∫⁻ φ in A, ∫⁻ c in B, w r * k r φ c := by
    intro r
    rw [← lintegral_const_mul' _ _ (hfin r)]
    refine lintegral_congr fun φ => ?_
    rw [← lintegral_const_mul' _ _ (hfin r)]
  simp only [e4]
  rw [lintegral_lintegral_swap hm1.aemeasurable]
  refine lintegral_congr fun φ => ?_
  have hm2 : Measurable fun q : ℝ × ℝ => w q.1 * k q.1 φ q.2 := by
    have : Measurable fun q : ℝ × ℝ => (((q.1, φ), q.2) : (ℝ × ℝ) × ℝ) := by fun_prop
    exact hmm.comp this
  exact lintegral_lintegral_swap hm2.aemeasurable

/-- an integral over space of a function times a function of the distance from the origin, in spherical coordinates -/
theorem lintegral_space {f : (Fin 3 → ℝ) → ℝ≥0∞} (hf : Measurable f) {ρ : ℝ → ℝ} (hρ : Measurable ρ) :
    ∫⁻ p : ℝ × ℝ × ℝ, f (vec p) * ENNReal.ofReal (ρ (√(p.1^2 + p.2.1^2 + p.2.2^2))) =
      ∫⁻ r in Ioi (0:ℝ), ENNReal.ofReal (r^2 * ρ r) * sphereInt fun n => f (r • vec n) := by
  have hdirm : Measurable fun q : (ℝ × ℝ) × ℝ => f (q.1.1 • vec (dir q.2 q.1.2)) := by
    have h1 : Measurable fun q : (ℝ × ℝ) × ℝ => dir q.2 q.1.2 := by unfold dir; fun_prop
    exact hf.comp ((measurable_fst.comp measurable_fst).smul (vec_meas.comp h1))
  have hcoef : Measurable fun r : ℝ => ENNReal.ofReal (r^2 * ρ r) := ((measurable_id.pow_const 2).mul hρ).ennreal_ofReal
  have hFm : Measurable fun p : ℝ × ℝ × ℝ => f (vec p) * ENNReal.ofReal (ρ (√(p.1^2 + p.2.1^2 + p.2.2^2))) := by
    refine (hf.comp vec_meas).mul (hρ.comp ?_).ennreal_ofReal
    fun_prop
  rw [lintegral_spherical _ hFm]
  unfold sphereInt
  rw [lintegral_swap3 (Ioi 0) (Ioo (-π) π) (Ioo (-1) 1) hcoef (fun r => ENNReal.ofReal_ne_top) (k := fun r φ c => f (r • vec (dir c φ))) hdirm]
  refine lintegral_congr fun φ => ?_
  refine setLIntegral_congr_fun measurableSet_Ioo ?_
  intro c hc
  simp only
  refine setLIntegral_congr_fun measurableSet_Ioi ?_
  intro r hr
  have hr0 : 0 < r := hr
  have hn : (r * (dir c φ).1)^2 + (r * (dir c φ).2.1)^2 + (r * (dir c φ).2.2)^2 = r^2 := by
    have := nsq_dir (φ := φ) hc
    simp only [nsq] at this
    linear_combination r^2 * this
  have hv : vec (r * (dir c φ).1, r * (dir c φ).2.1, r * (dir c φ).2.2) = r • vec (dir c φ) := by
    ext i; fin_cases i <;> simp [vec]
  simp only [hn, Real.sqrt_sq hr0.le, hv]
  rw [mul_left_comm, ← ENNReal.ofReal_mul (by positivity), mul_comm (f _)]

/-- The mean of a function of the position of the first nucleon of a deuteron. -/
theorem deuteron_mean (h : IdealSource E D μ) {a b : ℝ} (ha : 0 < a) (hab : a ≤ b) (x0 : ℝ) (fuel : ℕ) (ns : List (NucleonData ℝ)) (hl : ns.length = 2) (d : D)
    {f : (Fin 3 → ℝ) → ℝ≥0∞} (hf : Measurable f) :
    ∫⁻ e : E, (match sampleDeuteron fuel a b x0 ns (⟨e, d⟩ : Rand E D) with | .ok r => f (config x0 r.1 0) | .error _ => 0) ∂μ =
      (∑ i ∈ Finset.range fuel, deuteronQ a b ^ i) * (ENNReal.ofReal (2 * a) * (sphereConst *
        ∫⁻ p : ℝ × ℝ × ℝ, f (vec p) * hulthen a b p)) := by
  have hp := h.prob
  obtain ⟨n1, n2, rfl⟩ : ∃ n1 n2, ns = [n1, n2] := by
    match ns, hl with
    | [n1, n2], _ => exact ⟨n1, n2, rfl⟩
  rw [lintegral_congr fun e => deuteron_value x0 a b fuel n1 n2 d (fun c => f (c 0)) e]
  have hrad : Measurable fun u : ℝ => deuteronRadius a u := by
    simp only [deuteronRadius, log_real, lit_real]; fun_prop
  have hvm : Measurable fun t : (ℝ × ℝ) × E => dirP (deuteronRadius a t.1.1) (draw2 E D t.2).1 :=
    dirP_meas (hrad.comp (measurable_fst.comp measurable_fst)) (measurable_fst.comp (h.draw2_meas.comp measurable_snd))
  set G : ℝ → ℝ≥0∞ := fun r => sphereConst * sphereInt fun n => f (r • vec n) with hGdef
  have hdirm : Measurable fun q : (ℝ × ℝ) × ℝ => f (q.1.1 • vec (dir q.2 q.1.2)) := by
    have h1 : Measurable fun q : (ℝ × ℝ) × ℝ => dir q.2 q.1.2 := by unfold dir; fun_prop
    exact hf.comp ((measurable_fst.comp measurable_fst).smul (vec_meas.comp h1))
  have hGm : Measurable G := by
    refine Measurable.const_mul ?_ _
    unfold sphereInt
    have h1 : Measurable fun q : ℝ × ℝ => ∫⁻ c in Ioo (-1:ℝ) 1, f (q.1 • vec (dir c q.2)) := Measurable.lintegral_prod_right' hdirm
    exact Measurable.lintegral_prod_right' h1
  have hsph : ∀ r : ℝ, ∫⁻ e, f (dirP r (draw2 E D e).1) ∂μ = G r := by
    intro r
    have hk : Measurable fun t : V3 × E => f (r • vec t.1) := (hf.comp (vec_meas.const_smul r)).comp measurable_fst
    have := h.dir_lintegral hk
    simp only [lintegral_const, measure_univ, mul_one] at this
    simp only [dirP_eq]
    exact this
  have e1 := rejLoop_congr (isDraw_draw2 h) (deuteronAcc_meas a b) (c := 0) (k1 := fun t => f (dirP (deuteronRadius a t.1.1) (draw2 E D t.2).1))
    (k2 := fun t => G (deuteronRadius a t.1.1)) (hf.comp hvm) ((hGm.comp hrad).comp (measurable_fst.comp measurable_fst)) (fun u => by
      simp only [lintegral_const, measure_univ, mul_one]
      exact hsph _) fuel
  refine Eq.trans e1 ?_
  rw [rejLoop_value (isDraw_draw2 h) (deuteronAcc_meas a b) (g := fun u => G (deuteronRadius a u.1)) ((hGm.comp hrad).comp measurable_fst) fuel,
    deuteron_accepted ha hab hGm]
  unfold deuteronQ
  congr 2
  have hρ : Measurable fun r : ℝ => ((Real.exp (-a * r) - Real.exp (-b * r)) / r)^2 := by fun_prop
  have hsp := lintegral_space hf hρ
  have e5 : ∫⁻ p : ℝ × ℝ × ℝ, f (vec p) * hulthen a b p = _ := hsp
  rw [e5, ← lintegral_const_mul' sphereConst _ (ENNReal.mul_ne_top ENNReal.ofReal_ne_top ENNReal.ofReal_ne_top)]
  refine setLIntegral_congr_fun measurableSet_Ioi ?_
  intro r hr
  have hr0 : 0 < r := hr
  have e6 : r^2 * ((Real.exp (-a * r) - Real.exp (-b * r)) / r)^2 = (Real.exp (-a * r) - Real.exp (-b * r))^2 := by field_simp
  simp only [e6, hGdef]
  ring

omit [MeasurableSpace E] in
/-- `f` of the nucleons of a sampled nucleus of a known kind -/
theorem ifOk_sample (nuc : Nucleus ℝ) (fuel : ℕ) (x0 : ℝ) (d : D) (S : E → Res (List (NucleonData ℝ) × Rand E D))
    (hS : ∀ e, nuc.sampleNucleons fuel x0 ⟨e, d⟩ = match S e with
        | .error e => .error e
        | .ok (ns, w) => .ok ({ nuc with nucleons := ns, offset := x0 }, w)) (e : E) (K : List (NucleonData ℝ) → ℝ≥0∞) :
    ifOk (nuc.sampleNucleons fuel x0 ⟨e, d⟩) (fun r => K r.1.nucleons) = ifOk (S e) (fun r => K r.1) := by
  rw [hS e]
  cases S e <;> rfl

/-- **C87, deuteron.** Given that the sampling ended, the position of the first nucleon of a deuteron relative to its centre has the Hulthén density
`f(r) ∝ ((e^{-ar} - e^{-br}) / r)²` in space: for every measurable `f`, the mean of `f` times the normalisation is the integral of `f` with that
density (multiplied out, the probability that sampling ended on the right).  The second nucleon is opposite. -/
theorem C87_deuteron [LawfulRng E D] (h : IdealSource E D μ) (nuc : Nucleus ℝ) (hh : NucleusHistory E D nuc) (a b : ℝ)
    (hk : nuc.kind = .deuteron a b) (fuel : ℕ) (x0 : ℝ) (d : D) (f : (Fin 3 → ℝ) → ℝ≥0∞) (hf : Measurable f) :
    (∫⁻ e : E, ifOk (nuc.sampleNucleons fuel x0 ⟨e, d⟩) (fun r => f (config x0 r.1.nucleons 0)) ∂μ) *
        ∫⁻ p : ℝ × ℝ × ℝ, hulthen a b p =
      (∫⁻ e : E, ifOk (nuc.sampleNucleons fuel x0 ⟨e, d⟩) (fun _ => 1) ∂μ) * ∫⁻ p : ℝ × ℝ × ℝ, f (vec p) * hulthen a b p := by
  have hw := hh.wf
  unfold Nucleus.WF at hw
  rw [hk] at hw
  have hs := history_samplable hh (fun c r hc => by rw [hk] at hc; cases hc)
  rw [hk] at hs
  have key := fun e K => ifOk_sample nuc fuel x0 d (fun e : E => sampleDeuteron fuel a b x0 nuc.nucleons ⟨e, d⟩)
    (fun e => by simp only [Nucleus.sampleNucleons, hk]; cases sampleDeuteron fuel a b x0 nuc.nucleons ⟨e, d⟩ <;> rfl) e K
  have hm : ∀ {f : (Fin 3 → ℝ) → ℝ≥0∞}, Measurable f →
      ∫⁻ e : E, ifOk (nuc.sampleNucleons fuel x0 ⟨e, d⟩) (fun r => f (config x0 r.1.nucleons 0)) ∂μ =
      (∑ i ∈ Finset.range fuel, deuteronQ a b ^ i) * (ENNReal.ofReal (2 * a) * (sphereConst * ∫⁻ p : ℝ × ℝ × ℝ, f (vec p) * hulthen a b p)) := by
    intro f hf
    rw [← deuteron_mean h hs.1 hs.2.le x0 fuel nuc.nucleons hw d hf]
    refine lintegral_congr fun e => ?_
    rw [key e (fun ns => f (config x0 ns 0))]
    unfold ifOk
    cases sampleDeuteron fuel a b x0 nuc.nucleons (⟨e, d⟩ : Rand E D) <;> rfl
  have h1 := hm (f := fun _ => 1) measurable_const
  simp only [one_mul] at h1
  rw [hm hf, h1]
  ring

omit [MeasurableSpace E] in
/-- the two nucleons of a deuteron are opposite -/
theorem C87_deuteron_opposite (nuc : Nucleus ℝ) (hh : NucleusHistory E D nuc) (a b : ℝ) (hk : nuc.kind = .deuteron a b) (fuel : ℕ) (x0 : ℝ)
    (w : Rand E D) (r : Nucleus ℝ × Rand E D) (hr : nuc.sampleNucleons fuel x0 w = .ok r) :
    config x0 r.1.nucleons 1 = -config x0 r.1.nucleons 0 := by
  have hw := hh.wf
  unfold Nucleus.WF at hw
  rw [hk] at hw
  simp only [Nucleus.sampleNucleons, hk] at hr
  match hns : nuc.nucleons, hw with
  | [n1, n2], _ =>
    rw [hns] at hr
    unfold sampleDeuteron at hr
    cases hl : deuteronLoop a b fuel w with
    | error er => simp only [hl] at hr; cases hr
    | ok t =>
      simp only [hl] at hr
      injection hr with hr
      rw [← hr]
      simp only [config, List.map_cons, List.map_nil, List.getD_cons_succ, List.getD_cons_zero]
      ext i
      fin_cases i <;> simp [relPos, setNucleonPosition, NucleonData.setPosition]

/-! ### Spherical nuclei: independent radii -/

/-- the distance from the origin -/
noncomputable def Spec.norm3 (v : Fin 3 → ℝ) : ℝ := √(v 0^2 + v 1^2 + v 2^2)

theorem norm3_meas : Measurable norm3 := by
  unfold norm3
  exact (((measurable_pi_apply 0).pow_const 2).add ((measurable_pi_apply 1).pow_const 2) |>.add ((measurable_pi_apply 2).pow_const 2)).sqrt

theorem norm3_vec (p : V3) : norm3 (vec p) = √(p.1^2 + p.2.1^2 + p.2.2^2) := by
  simp [norm3, vec]

theorem norm3_dirP {r : ℝ} (hr : 0 ≤ r) {u : ℝ × ℝ} (hu : 0 ≤ u.1 ∧ u.1 < 1) : norm3 (dirP r u) = r := by
  unfold dirP
  rw [norm3_vec, spherical_norm _ _ _ (by nlinarith [hu.1, hu.2]), Real.sqrt_sq hr]

omit [MeasurableSpace E] in
theorem norm3_placeP [LawfulRng E D] (dm : ℝ) {r : ℝ} (hr : 0 ≤ r) (P : List P3) (left : ℕ) (v : P3) (e : E) :
    norm3 (placeP E D dm r P (left+1) v e).1 = r := by
  have hu : ∀ e : E, norm3 (dirP r (draw2 E D e).1) = r := fun e => norm3_dirP hr (LawfulRng.canonical_mem (D := D) e)
  induction left generalizing v e with
  | zero =>
    rw [placeP]
    simp only [lt_irrefl, false_and, if_false]
    exact hu e
  | succ left ih =>
    rw [placeP]
    split
    · exact ih _ _
    · exact hu e

omit [MeasurableSpace E] in
theorem norm3_placeAllP [LawfulRng E D] (dm : ℝ) (rs : List ℝ) (hr : ∀ r ∈ rs, 0 ≤ r) (P : List P3) (e : E) :
    (placeAllP E D dm P rs e).1.map norm3 = P.map norm3 ++ rs := by
  induction rs generalizing P e with
  | nil => simp [placeAllP]
  | cons r rs ih =>
    rw [placeAllP, ih (fun x hx => hr x (List.mem_cons_of_mem _ hx))]
    simp only [List.map_append, List.map_cons, List.map_nil, List.append_assoc, List.singleton_append]
    rw [norm3_placeP dm (hr r List.mem_cons_self)]

/-- the distances of all nucleons from the centre of the nucleus -/
noncomputable def Spec.radii (x0 : ℝ) (ns : List (NucleonData ℝ)) : List ℝ := ns.map fun n => √((n.x - x0)^2 + n.y^2 + n.z^2)

theorem radii_eq (x0 : ℝ) (ns : List (NucleonData ℝ)) : radii x0 ns = (ns.map (relPos x0)).map norm3 := by
  unfold radii
  rw [List.map_map]
  refine List.map_congr_left fun n _ => ?_
  simp [norm3, relPos]

/-- **C87, spherical nuclei.** The distances of the nucleons from the centre are independent, whatever the minimum distance: each has the law of one
draw from the tabulated Woods–Saxon distribution.  (`∏ g` over the nucleons for all `g` determines the law of the unordered radii.) -/
theorem C87_spherical [LawfulRng E D] (h : IdealSource E D μ) (nuc : Nucleus ℝ) (R a dm : ℝ) (hR : 0 ≤ R + 10 * a)
    (hk : nuc.kind = .woodsSaxon R a dm) (fuel : ℕ) (x0 : ℝ) (d : D) (g : ℝ → ℝ≥0∞) (hg : Measurable g) :
    ∫⁻ e : E, ifOk (nuc.sampleNucleons fuel x0 ⟨e, d⟩) (fun r => ((radii x0 r.1.nucleons).map g).prod) ∂μ =
      (∫⁻ e : E, g (drawPiecewiseLinear (F := ℝ) (woodsSaxonTable R a) (⟨e, d⟩ : Rand E D)).1 ∂μ) ^ nuc.nucleons.length := by
  have hp := h.prob
  obtain ⟨ν, hν⟩ := h.isDraw_rad (woodsSaxonTable R a) d
  have := manyVal_prod hν.isLoop hg nuc.nucleons.length
  simp only [Option.elim] at this
  refine Eq.trans (lintegral_congr fun e => ?_) this
  rw [ifOk_sample nuc fuel x0 d (fun e : E => .ok (sampleWS R a dm x0 nuc.nucleons ⟨e, d⟩))
    (fun e => by simp only [Nucleus.sampleNucleons, hk]) e (fun ns => ((radii x0 ns).map g).prod)]
  obtain ⟨h1, h2⟩ := drawRadii_many h R a nuc.nucleons.length ⟨e, d⟩
  unfold manyVal ifOk
  rw [h1]
  simp only [Option.elim]
  rw [radii_eq, sampleWS]
  dsimp only
  have hmem := drawRadii_mem R a hR nuc.nucleons.length (⟨e, d⟩ : Rand E D)
  rw [placeAllWS_P, List.map_nil, norm3_placeAllP, List.map_nil, List.nil_append]
  · exact ((sortBy_perm (F := ℝ) id _).map g).prod_eq
  · intro r hr
    exact (hmem r ((sortBy_perm (F := ℝ) id _).mem_iff.1 hr)).1
  · rw [(sortBy_perm (F := ℝ) id _).length_eq, drawRadii_length]

/-! ### Deformed nuclei -/

/-- the change of variables `r = rmax u^{1/3}` -/
theorem lintegral_cbrt {rmax : ℝ} (hr : 0 < rmax) (k : ℝ → ℝ≥0∞) :
    ∫⁻ u in Ioo (0:ℝ) 1, k (rmax * cbrt u) = ENNReal.ofReal (3 / rmax^3) * ∫⁻ r in Ioo (0:ℝ) rmax, ENNReal.ofReal (r^2) * k r := by
  have himg : (fun r : ℝ => (r / rmax)^3) '' Ioo 0 rmax = Ioo 0 1 := by
    ext c
    simp only [mem_image, mem_Ioo]
    constructor
    · rintro ⟨u, ⟨h0, h1⟩, rfl⟩
      have h2 : 0 < u / rmax := div_pos h0 hr
      exact ⟨by positivity, pow_lt_one₀ h2.le (by rw [div_lt_one hr]; exact h1) (by norm_num)⟩
    · rintro ⟨h0, h1⟩
      refine ⟨rmax * c ^ ((1:ℝ)/3), ⟨by positivity, ?_⟩, ?_⟩
      · have : c ^ ((1:ℝ)/3) < 1 := Real.rpow_lt_one h0.le h1 (by norm_num)
        nlinarith
      · rw [mul_div_cancel_left₀ _ hr.ne', ← Real.rpow_natCast, ← Real.rpow_mul h0.le]
        norm_num
  have hcb : ∀ r ∈ Ioo 0 rmax, rmax * cbrt ((r / rmax)^3) = r := by
    intro r hr'
    have h0 : 0 ≤ r / rmax := (div_pos hr'.1 hr).le
    rw [cbrt_real (by positivity), ← Real.rpow_natCast, ← Real.rpow_mul h0]
    norm_num
    field_simp
  have := lintegral_image_eq_lintegral_abs_deriv_mul (s := Ioo (0:ℝ) rmax) (f := fun r => (r / rmax)^3)
    (f' := fun r => 3 * (r / rmax)^2 * (1 / rmax)) measurableSet_Ioo
    (fun x _ => by
      have h3 := ((hasDerivAt_id x).div_const rmax).fun_pow 3
      simp only [id_eq, Nat.add_one_sub_one, Nat.cast_ofNat] at h3
      exact h3.hasDerivWithinAt)
    (fun x hx y hy hxy => by
      have h1 := hcb x hx
      have h2 := hcb y hy
      simp only at hxy
      rw [← h1, ← h2, hxy]) (fun u => k (rmax * cbrt u))
  rw [himg] at this
  rw [this, ← lintegral_const_mul' _ _ ENNReal.ofReal_ne_top]
  refine setLIntegral_congr_fun measurableSet_Ioo ?_
  intro r hr'
  simp only
  rw [hcb r hr', ← mul_assoc, ← ENNReal.ofReal_mul (by positivity), abs_of_nonneg (by positivity)]
  congr 2
  field_simp

/-- the deformed Woods–Saxon density of the documentation, with the volume element `r² dr d(cos θ)`; `Y_20` and `Y_40` are the spherical harmonics -/
noncomputable def Spec.deformedWS (R a b2 b4 r c : ℝ) : ℝ :=
  r^2 / (1 + Real.exp ((r - R * (1 + b2 * (√(5/π) / 4 * (3*c^2 - 1)) + b4 * (3 / (16 * √π) * (35*c^4 - 30*c^2 + 3)))) / a))

theorem deformedDist_spec (R a b2 b4 r c : ℝ) : r^2 * deformedDist R a b2 b4 r c = deformedWS R a b2 b4 r c := by
  have hs : √(5/π) = √5 * (1/√π) := by rw [Real.sqrt_div (by norm_num)]; ring
  simp only [deformedDist, deformedWS, sqrt_real, lit_real, exp_real, oneDivRootPi_real, hs]
  push_cast
  rw [mul_one_div]
  congr 6
  ring

/-- the law of the accepted samples of a deformed nucleus -/
theorem deformed_accepted {R a b2 b4 rmax : ℝ} (hr : 0 < rmax) {G : ℝ × ℝ → ℝ≥0∞} (hG : Measurable G) :
    ∫⁻ u in deformedAcc R a b2 b4 rmax, G (defSample rmax u) ∂(unif.prod (unif.prod unif)) =
      ENNReal.ofReal (3 / rmax^3) * (ENNReal.ofReal (1/2) * ∫⁻ r in Ioo (0:ℝ) rmax, ∫⁻ c in Ioo (-1:ℝ) 1,
        ENNReal.ofReal (deformedWS R a b2 b4 r c) * G (r, c)) := by
  have hdm : Measurable fun q : ℝ × ℝ => deformedDist R a b2 b4 q.1 q.2 := by
    simp only [deformedDist, sqrt_real, lit_real, exp_real]
    fun_prop
  have hacc : ∀ r c, deformedDist R a b2 b4 r c ≤ 1 := by
    intro r c
    simp only [deformedDist, exp_real, lit_real]
    push_cast
    rw [div_le_one (by positivity)]
    have := Real.exp_pos ((r - R * (1 + b2 * (sqrt 5 / 4 * oneDivRootPi * (3 * (c * c) - 1)) +
      b4 * (3 / 16 * oneDivRootPi * (35 * (c * c) * (c * c) - 30 * (c * c) + 3)))) / a)
    linarith
  rw [← lintegral_indicator (deformedAcc_meas R a b2 b4 rmax), lintegral_prod]
  swap
  · exact ((hG.comp (defSample_meas rmax)).indicator (deformedAcc_meas R a b2 b4 rmax)).aemeasurable
  set H : ℝ → ℝ≥0∞ := fun r => ∫⁻ c in Ioo (-1:ℝ) 1, ENNReal.ofReal (deformedDist R a b2 b4 r c) * G (r, c) with hH
  have e1 : ∀ u : ℝ, ∫⁻ q, (deformedAcc R a b2 b4 rmax).indicator (fun u => G (defSample rmax u)) (u, q) ∂(unif.prod unif) =
      ENNReal.ofReal (1/2) * H (rmax * cbrt u) := by
    intro u
    rw [lintegral_prod]
    swap
    · exact (((hG.comp (defSample_meas rmax)).indicator (deformedAcc_meas R a b2 b4 rmax)).comp measurable_prodMk_left).aemeasurable
    have e2 : ∀ v : ℝ, ∫⁻ w, (deformedAcc R a b2 b4 rmax).indicator (fun u => G (defSample rmax u)) (u, v, w) ∂unif =
        ENNReal.ofReal (deformedDist R a b2 b4 (rmax * cbrt u) (2 * v - 1)) * G (rmax * cbrt u, 2 * v - 1) := by
      intro v
      have hm : MeasurableSet {w : ℝ | ¬ deformedDist R a b2 b4 (rmax * cbrt u) (2 * v - 1) < w} :=
        (measurableSet_lt measurable_const measurable_id).compl
      rw [← unif_accept (hacc _ _), mul_comm, ← lintegral_indicator_const hm]
      rfl
    simp only [e2]
    exact lintegral_cosU fun c => ENNReal.ofReal (deformedDist R a b2 b4 (rmax * cbrt u) c) * G (rmax * cbrt u, c)
  simp only [e1]
  rw [lintegral_const_mul' _ _ ENNReal.ofReal_ne_top, lintegral_unif, lintegral_cbrt hr, mul_left_comm]
  congr 2
  refine lintegral_congr fun r => ?_
  rw [hH]
  simp only
  rw [← lintegral_const_mul' _ _ ENNReal.ofReal_ne_top]
  refine lintegral_congr fun c => ?_
  rw [← mul_assoc, ← ENNReal.ofReal_mul (by positivity), deformedDist_spec]

/-- distance from the origin and absolute value of the height of a body position -/
noncomputable def bodyRH (v : P3) : ℝ × ℝ := (norm3 v, |v 2|)

theorem bodyRH_ringP {p : ℝ × ℝ} (h1 : 0 ≤ p.1) (h2 : p.2 * p.2 ≤ 1) (φ z : ℝ) (hz : |z| = |p.1 * p.2|) :
    bodyRH (ringP (ringR p) φ z) = (p.1, |p.1 * p.2|) := by
  have hz2 : z^2 = (p.1 * p.2)^2 := sq_eq_sq_iff_abs_eq_abs _ _ |>.2 hz
  unfold bodyRH ringP
  rw [norm3_vec]
  have hs : (ringR p * Real.cos φ)^2 + (ringR p * Real.sin φ)^2 + z^2 = p.1^2 := by
    have e1 : ringR p ^ 2 = p.1^2 * (1 - p.2 * p.2) := by
      unfold ringR
      rw [mul_pow, Real.sq_sqrt (by linarith)]
    have e2 := Real.cos_sq_add_sin_sq φ
    calc _ = ringR p ^ 2 * (Real.cos φ ^ 2 + Real.sin φ ^ 2) + z^2 := by ring
      _ = p.1^2 := by rw [e1, e2, hz2]; ring
  simp only [hs, Real.sqrt_sq h1]
  rw [← hz]
  simp [vec]

omit [MeasurableSpace E] in
theorem bodyRH_placeDP (dm : ℝ) {p : ℝ × ℝ} (h1 : 0 ≤ p.1) (h2 : p.2 * p.2 ≤ 1) (P : List P3) (left : ℕ) (z : ℝ) (hz : |z| = |p.1 * p.2|)
    (v : P3) (e : E) : bodyRH (placeDP E D dm (ringR p) P (left+1) z v e).1 = (p.1, |p.1 * p.2|) := by
  induction left generalizing v e z with
  | zero =>
    rw [placeDP]
    simp only [lt_irrefl, false_and, if_false]
    exact bodyRH_ringP h1 h2 _ z hz
  | succ left ih =>
    rw [placeDP]
    split
    · exact ih (-z) (by rw [abs_neg, hz]) _ _
    · exact bodyRH_ringP h1 h2 _ z hz

omit [MeasurableSpace E] in
theorem bodyRH_placeAllDP (dm : ℝ) (ps : List (ℝ × ℝ)) (h1 : ∀ p ∈ ps, 0 ≤ p.1 ∧ p.2 * p.2 ≤ 1) (P : List P3) (e : E) :
    (placeAllDP E D dm P ps e).1.map bodyRH = P.map bodyRH ++ ps.map fun p => (p.1, |p.1 * p.2|) := by
  induction ps generalizing P e with
  | nil => simp [placeAllDP]
  | cons p ps ih =>
    have hp := h1 p List.mem_cons_self
    rw [placeAllDP, ih (fun x hx => h1 x (List.mem_cons_of_mem _ hx))]
    simp only [List.map_append, List.map_cons, List.map_nil, List.append_assoc, List.singleton_append]
    rw [bodyRH_placeDP dm hp.1 hp.2 P 999 (p.1 * p.2) rfl]

/-- the scalar product -/
def Spec.dot3 (v n : Fin 3 → ℝ) : ℝ := v 0 * n 0 + v 1 * n 1 + v 2 * n 2

theorem rot_body {M : Matrix (Fin 3) (Fin 3) ℝ} (hM : M ∈ Matrix.specialOrthogonalGroup (Fin 3) ℝ) (v : P3) :
    (norm3 (M.mulVec v), |dot3 (M.mulVec v) (vec (col3 M))|) = bodyRH v := by
  have ht := (inv_mul_of_mem hM).1
  have h := transpose_mul_apply ht
  have h00 := h 0 0; have h01 := h 0 1; have h02 := h 0 2; have h11 := h 1 1; have h12 := h 1 2; have h22 := h 2 2
  simp at h00 h01 h02 h11 h12 h22
  unfold bodyRH
  congr 1
  · unfold norm3
    congr 1
    simp only [Matrix.mulVec, dotProduct, Fin.sum_univ_three]
    linear_combination (v 0)^2 * h00 + (v 1)^2 * h11 + (v 2)^2 * h22 + 2 * v 0 * v 1 * h01 + 2 * v 0 * v 2 * h02 + 2 * v 1 * v 2 * h12
  · congr 1
    simp only [dot3, vec, col3, Matrix.mulVec, dotProduct, Fin.sum_univ_three, Matrix.cons_val_zero, Matrix.cons_val_one, Matrix.cons_val]
    linear_combination v 0 * h02 + v 1 * h12 + v 2 * h22

/-- the symmetry axis of a deformed nucleus, from the first two canonical numbers -/
noncomputable def defAxis (E D : Type) [Rng ℝ E D] (e : E) : Fin 3 → ℝ := vec (dir (2 * (draw2 E D e).1.1 - 1) (2 * π * (draw2 E D e).1.2 - π/2))

/-- every nucleon: its distance from the centre and the absolute value of its coordinate along the axis `n` -/
noncomputable def Spec.radiusHeight (x0 : ℝ) (n : Fin 3 → ℝ) (ns : List (NucleonData ℝ)) : List (ℝ × ℝ) :=
  ns.map fun m => (√((m.x - x0)^2 + m.y^2 + m.z^2), |dot3 (relPos x0 m) n|)

theorem radiusHeight_eq (x0 : ℝ) (n : Fin 3 → ℝ) (ns : List (NucleonData ℝ)) :
    radiusHeight x0 n ns = (ns.map (relPos x0)).map fun v => (norm3 v, |dot3 v n|) := by
  unfold radiusHeight
  rw [List.map_map]
  refine List.map_congr_left fun m _ => ?_
  simp [norm3, relPos]

omit [MeasurableSpace E] in
theorem rejMany_mem {α : Type} (L : E → Option (α × E)) (Pr : α → Prop) (hP : ∀ e t, L e = some t → Pr t.1) (k : ℕ) (e : E) (s : List α × E)
    (h : rejMany L k e = some s) : ∀ x ∈ s.1, Pr x := by
  induction k generalizing e s with
  | zero => simp [rejMany] at h; rw [← h]; simp
  | succ k ih =>
    rw [rejMany] at h
    cases hL : L e with
    | none => rw [hL] at h; cases h
    | some t =>
      rw [hL] at h
      simp only [Option.elim] at h
      cases hr : rejMany L k t.2 with
      | none => rw [hr] at h; cases h
      | some s' =>
        rw [hr] at h
        cases h
        intro x hx
        rcases List.mem_cons.1 hx with rfl | hx
        · exact hP e t hL
        · exact ih _ _ hr x hx

omit [MeasurableSpace E] in
theorem defLoop_mem [LawfulRng E D] {R a b2 b4 rmax : ℝ} (hr : 0 ≤ rmax) (fuel : ℕ) (e : E) (t : (ℝ × ℝ) × E)
    (h : defLoop E D R a b2 b4 rmax fuel e = some t) : 0 ≤ t.1.1 ∧ t.1.2 * t.1.2 ≤ 1 := by
  have key : ∀ e : E, 0 ≤ (defSample rmax (draw3 E D e).1).1 ∧ (defSample rmax (draw3 E D e).1).2 * (defSample rmax (draw3 E D e).1).2 ≤ 1 := by
    intro e
    have h1 := LawfulRng.canonical_mem (D := D) e
    have h2 := LawfulRng.canonical_mem (D := D) (can E D e).2
    constructor
    · show 0 ≤ rmax * cbrt (draw3 E D e).1.1
      have : (draw3 E D e).1.1 = (Rng.canonical (F := ℝ) (D := D) e).1 := rfl
      rw [this, cbrt_real h1.1]
      exact mul_nonneg hr (Real.rpow_nonneg h1.1 _)
    · have : (draw3 E D e).1.2.1 = (Rng.canonical (F := ℝ) (D := D) (can E D e).2).1 := rfl
      show (2 * (draw3 E D e).1.2.1 - 1) * (2 * (draw3 E D e).1.2.1 - 1) ≤ 1
      rw [this]
      nlinarith [h2.1, h2.2]
  unfold defLoop at h
  induction fuel generalizing e with
  | zero => simp [rejLoop] at h
  | succ n ih =>
    rw [rejLoop] at h
    split at h
    · simp only [Option.map_some, Option.some.injEq] at h
      rw [← h]
      exact key e
    · exact ih _ h

omit [MeasurableSpace E] in
/-- the value of a sampling of a deformed nucleus -/
theorem deformed_value [LawfulRng E D] (R a b2 b4 rmax dm x0 : ℝ) (hr : 0 ≤ rmax) (fuel : ℕ) (ns : List (NucleonData ℝ)) (d : D)
    (f : (Fin 3 → ℝ) → ℝ≥0∞) (g : ℝ × ℝ → ℝ≥0∞) (e : E) :
    ifOk (sampleDeformed fuel R a b2 b4 rmax dm x0 ns (⟨e, d⟩ : Rand E D))
        (fun r => f (defAxis E D e) * ((radiusHeight x0 (defAxis E D e) r.1).map g).prod) =
      f (defAxis E D e) * manyVal (defLoop E D R a b2 b4 rmax fuel) 0 (fun l _ => (l.map fun p => g (p.1, |p.1 * p.2|)).prod) ns.length (draw2 E D e).2 := by
  have ht : tsMat (drawTiltSpin (F := ℝ) (⟨e, d⟩ : Rand E D)).1 =
      RZ (2 * π * (draw2 E D e).1.2) * RX (2 * (draw2 E D e).1.1 - 1) := by
    simp [tsMat, drawTiltSpin, cosTheta, phi, canonical, draw2, can, RZ, RX, pow_two]
  have hR : tsMat (drawTiltSpin (F := ℝ) (⟨e, d⟩ : Rand E D)).1 ∈ Matrix.specialOrthogonalGroup (Fin 3) ℝ := drawTiltSpin_rotation _
  have hax : defAxis E D e = vec (col3 (tsMat (drawTiltSpin (F := ℝ) (⟨e, d⟩ : Rand E D)).1)) := by
    rw [ht, col3_RZ_RX]; rfl
  have hw : (drawTiltSpin (F := ℝ) (⟨e, d⟩ : Rand E D)).2 = ⟨(draw2 E D e).2, d⟩ := rfl
  unfold sampleDeformed manyVal ifOk
  dsimp only
  rw [drawDeformed_many, hw]
  dsimp only
  cases hs : rejMany (defLoop E D R a b2 b4 rmax fuel) ns.length (draw2 E D e).2 with
  | none => simp
  | some s =>
    simp only [Option.elim]
    have hlen : (sortBy Prod.fst s.1).length = ns.length := by
      rw [(sortBy_perm (F := ℝ) Prod.fst s.1).length_eq]; exact rejMany_length _ _ _ _ hs
    have hpos := placeAllDef_P (E := E) (D := D) x0 dm (drawTiltSpin (F := ℝ) (⟨e, d⟩ : Rand E D)).1 hR [] [] rfl (sortBy Prod.fst s.1) ns
      ⟨s.2, d⟩ hlen
    have hmem := rejMany_mem _ (fun p : ℝ × ℝ => 0 ≤ p.1 ∧ p.2 * p.2 ≤ 1) (fun e t h => defLoop_mem hr fuel e t h) _ _ _ hs
    rw [radiusHeight_eq, hpos, List.map_map (l := (placeAllDP E D dm [] (sortBy Prod.fst s.1) s.2).1), hax]
    have hcomp : ((fun v => (norm3 v, |dot3 v (vec (col3 (tsMat (drawTiltSpin (F := ℝ) (⟨e, d⟩ : Rand E D)).1)))|)) ∘
        (tsMat (drawTiltSpin (F := ℝ) (⟨e, d⟩ : Rand E D)).1).mulVec) = bodyRH := by
      funext v
      exact rot_body hR v
    rw [hcomp, bodyRH_placeAllDP dm _ (fun p hp => hmem p ((sortBy_perm (F := ℝ) Prod.fst s.1).mem_iff.1 hp)), List.map_nil, List.nil_append,
      List.map_map]
    congr 1
    exact ((sortBy_perm (F := ℝ) Prod.fst s.1).map _).prod_eq

/-- the normalisation of a direction: the mean over all directions -/
noncomputable def Spec.directionMean (f : (Fin 3 → ℝ) → ℝ≥0∞) : ℝ≥0∞ :=
  ENNReal.ofReal (1 / (4 * π)) * ∫⁻ φ in Ioo (-π) π, ∫⁻ c in Ioo (-1:ℝ) 1, f (vec (√(1 - c^2) * Real.cos φ, √(1 - c^2) * Real.sin φ, c))

theorem deformed_mean [LawfulRng E D] (h : IdealSource E D μ) {R a b2 b4 rmax : ℝ} (dm x0 : ℝ) (hr : 0 < rmax) (fuel : ℕ)
    (ns : List (NucleonData ℝ)) (d : D) {f : (Fin 3 → ℝ) → ℝ≥0∞} (hf : Measurable f) {g : ℝ × ℝ → ℝ≥0∞} (hg : Measurable g) :
    ∫⁻ e : E, ifOk (sampleDeformed fuel R a b2 b4 rmax dm x0 ns (⟨e, d⟩ : Rand E D))
        (fun r => f (defAxis E D e) * ((radiusHeight x0 (defAxis E D e) r.1).map g).prod) ∂μ =
      directionMean f * ((∑ i ∈ Finset.range fuel, deformedQ R a b2 b4 rmax ^ i) * (ENNReal.ofReal (3 / rmax^3) * (ENNReal.ofReal (1/2) *
        ∫⁻ r in Ioo (0:ℝ) rmax, ∫⁻ c in Ioo (-1:ℝ) 1, ENNReal.ofReal (deformedWS R a b2 b4 r c) * g (r, |r * c|)))) ^ ns.length := by
  have hp := h.prob
  rw [lintegral_congr fun e => deformed_value R a b2 b4 rmax dm x0 hr.le fuel ns d f g e]
  have hg' : Measurable fun p : ℝ × ℝ => g (p.1, |p.1 * p.2|) := by
    have : Measurable fun p : ℝ × ℝ => (p.1, |p.1 * p.2|) := by fun_prop
    exact hg.comp this
  have hL : IsLoop μ (defLoop E D R a b2 b4 rmax fuel) :=
    ((isDraw_draw3 h).rejIsLoop (deformedAcc_meas R a b2 b4 rmax) fuel).map (defSample_meas rmax)
  have hone : ∫⁻ e, (defLoop E D R a b2 b4 rmax fuel e).elim 0 (fun t => g (t.1.1, |t.1.1 * t.1.2|)) ∂μ =
      (∑ i ∈ Finset.range fuel, deformedQ R a b2 b4 rmax ^ i) * (ENNReal.ofReal (3 / rmax^3) * (ENNReal.ofReal (1/2) *
        ∫⁻ r in Ioo (0:ℝ) rmax, ∫⁻ c in Ioo (-1:ℝ) 1, ENNReal.ofReal (deformedWS R a b2 b4 r c) * g (r, |r * c|))) := by
    rw [← deformed_accepted hr hg', deformedQ,
      ← rejLoop_value (isDraw_draw3 h) (deformedAcc_meas R a b2 b4 rmax) (g := fun u => g ((defSample rmax u).1, |(defSample rmax u).1 * (defSample rmax u).2|))
        (hg'.comp (defSample_meas rmax)) fuel]
    refine lintegral_congr fun e => ?_
    unfold defLoop
    cases rejLoop (draw3 E D) (deformedAcc R a b2 b4 rmax) fuel e <;> rfl
  have hmany := manyVal_prod hL hg' ns.length
  rw [hone] at hmany
  have hdirm : Measurable fun q : ℝ × ℝ => f (vec (dir (2 * q.1 - 1) (2 * π * q.2 - π/2))) := by
    have h1 : Measurable fun q : ℝ × ℝ => dir (2 * q.1 - 1) (2 * π * q.2 - π/2) := by unfold dir; fun_prop
    exact hf.comp (vec_meas.comp h1)
  have hmv : Measurable fun t : (ℝ × ℝ) × E => manyVal (defLoop E D R a b2 b4 rmax fuel) 0 (fun l _ => (l.map fun p => g (p.1, |p.1 * p.2|)).prod)
      ns.length t.2 :=
    manyVal_meas hL ns.length (Y := (ℝ × ℝ) × E) (K := fun _ l _ => (l.map fun p => g (p.1, |p.1 * p.2|)).prod)
      (fun Z _ _ l e _ hl _ => prod_meas hg' hl) measurable_snd
  have hmv1 : Measurable fun e : E => manyVal (defLoop E D R a b2 b4 rmax fuel) 0 (fun l _ => (l.map fun p => g (p.1, |p.1 * p.2|)).prod) ns.length e :=
    hmv.comp (measurable_prodMk_left (x := ((0, 0) : ℝ × ℝ)))
  refine ((isDraw_draw2 h).law (fun t => f (vec (dir (2 * t.1.1 - 1) (2 * π * t.1.2 - π/2))) * manyVal (defLoop E D R a b2 b4 rmax fuel) 0
    (fun l _ => (l.map fun p => g (p.1, |p.1 * p.2|)).prod) ns.length t.2) ((hdirm.comp measurable_fst).mul hmv)).trans ?_
  have e1 : ∀ q : ℝ × ℝ, ∫⁻ e, f (vec (dir (2 * q.1 - 1) (2 * π * q.2 - π/2))) * manyVal (defLoop E D R a b2 b4 rmax fuel) 0
      (fun l _ => (l.map fun p => g (p.1, |p.1 * p.2|)).prod) ns.length e ∂μ = f (vec (dir (2 * q.1 - 1) (2 * π * q.2 - π/2))) *
      ((∑ i ∈ Finset.range fuel, deformedQ R a b2 b4 rmax ^ i) * (ENNReal.ofReal (3 / rmax^3) * (ENNReal.ofReal (1/2) *
        ∫⁻ r in Ioo (0:ℝ) rmax, ∫⁻ c in Ioo (-1:ℝ) 1, ENNReal.ofReal (deformedWS R a b2 b4 r c) * g (r, |r * c|)))) ^ ns.length := by
    intro q
    rw [lintegral_const_mul _ hmv1, hmany]
  simp only [e1]
  rw [lintegral_mul_const _ hdirm]
  congr 1
  rw [lintegral_prod _ hdirm.aemeasurable]
  have hper : ∀ c, Function.Periodic (fun φ => f (vec (dir c (φ - π/2)))) (2*π) := by
    intro c φ
    show f (vec (dir c (φ + 2*π - π/2))) = f (vec (dir c (φ - π/2)))
    have : φ + 2*π - π/2 = (φ - π/2) + 2*π := by ring
    rw [this]
    unfold dir
    rw [Real.cos_add_two_pi, Real.sin_add_two_pi]
  have hper0 : ∀ c, Function.Periodic (fun φ => f (vec (dir c φ))) (2*π) := by
    intro c φ
    simp only [dir, Real.cos_add_two_pi, Real.sin_add_two_pi]
  have e2 : ∀ u : ℝ, ∫⁻ v, f (vec (dir (2 * u - 1) (2 * π * v - π/2))) ∂unif = ENNReal.ofReal (1/(2*π)) * circ fun φ => f (vec (dir (2 * u - 1) φ)) := by
    intro u
    have h1 := lintegral_phiU (hper (2 * u - 1))
    have h2 := circ_shift (hper0 (2 * u - 1)) (-(π/2))
    simp only [← sub_eq_add_neg] at h2
    rw [h2] at h1
    exact h1
  simp only [e2]
  rw [lintegral_const_mul' _ _ ENNReal.ofReal_ne_top]
  have e3 : ∫⁻ u, circ (fun φ => f (vec (dir (2 * u - 1) φ))) ∂unif = ENNReal.ofReal (1/2) * ∫⁻ c in Ioo (-1:ℝ) 1, circ fun φ => f (vec (dir c φ)) :=
    lintegral_cosU fun c => circ fun φ => f (vec (dir c φ))
  rw [e3, ← mul_assoc, ← ENNReal.ofReal_mul (by positivity)]
  unfold directionMean
  have e4 : 1 / (2 * π) * (1 / 2) = 1 / (4 * π) := by field_simp; norm_num
  rw [e4]
  congr 1
  have hmc : Measurable fun q : ℝ × ℝ => f (vec (dir q.1 q.2)) := by
    have h1 : Measurable fun q : ℝ × ℝ => dir q.1 q.2 := by unfold dir; fun_prop
    exact hf.comp (vec_meas.comp h1)
  unfold circ
  exact lintegral_lintegral_swap (f := fun c φ => f (vec (dir c φ))) hmc.aemeasurable

omit [MeasurableSpace E] in
/-- the cut-off radius of a deformed nucleus is positive -/
theorem history_rmax {nuc : Nucleus ℝ} (hh : NucleusHistory E D nuc) {R a b2 b4 rmax dm : ℝ} (hk : nuc.kind = .deformed R a b2 b4 rmax dm) : 0 < rmax := by
  induction hh with
  | create hdf5 disk species dmin nuc hc =>
    rcases createNucleus_cases hc with rfl | ⟨-, rfl⟩ | ⟨A, R, a', -, -, rfl⟩ | ⟨A, R', a', b2', b4', hR, ha, rfl⟩ | ⟨cf, rm, A, -, rfl⟩
    · cases hk
    · cases hk
    · cases hk
    · simp only [mkDeformed, Nucleus.ofKind, Kind.deformed.injEq] at hk
      rw [← hk.2.2.2.2.1]
      simp only [lit_real, fabs_real]
      push_cast
      positivity
    · cases hk
  | sample fuel nuc nuc' b w w' hh hs ih => exact ih (by rw [← hk, (sampleNucleons_reset hh.wf hs).1])
  | collide nuc ns _ _ ih => exact ih hk

/-- **C87, deformed nuclei.** There is a random axis, uniform over all directions, such that given the axis and given that sampling ended the pairs
(distance from the centre, absolute value of the coordinate along the axis) of the nucleons are independent with the documented density
`1 / (1 + exp((r - R(1 + β₂ Y₂₀ + β₄ Y₄₀)) / a))` up to the cut-off radius — whatever the minimum distance between nucleons.  Multiplied out as in
C87_deuteron; the `f` is an arbitrary function of the axis and `g` of one pair. -/
theorem C87_deformed [LawfulRng E D] (h : IdealSource E D μ) (nuc : Nucleus ℝ) (hh : NucleusHistory E D nuc) (R a b2 b4 rmax dm : ℝ)
    (hk : nuc.kind = .deformed R a b2 b4 rmax dm) :
    ∃ axis : E → Fin 3 → ℝ, ∀ (fuel : ℕ) (x0 : ℝ) (d : D) (f : (Fin 3 → ℝ) → ℝ≥0∞) (g : ℝ × ℝ → ℝ≥0∞), Measurable f → Measurable g →
      (∫⁻ e : E, ifOk (nuc.sampleNucleons fuel x0 ⟨e, d⟩) (fun r => f (axis e) * ((radiusHeight x0 (axis e) r.1.nucleons).map g).prod) ∂μ) *
          (∫⁻ r in Ioo (0:ℝ) rmax, ∫⁻ c in Ioo (-1:ℝ) 1, ENNReal.ofReal (deformedWS R a b2 b4 r c)) ^ nuc.nucleons.length =
        (∫⁻ e : E, ifOk (nuc.sampleNucleons fuel x0 ⟨e, d⟩) (fun _ => 1) ∂μ) * directionMean f *
          (∫⁻ r in Ioo (0:ℝ) rmax, ∫⁻ c in Ioo (-1:ℝ) 1, ENNReal.ofReal (deformedWS R a b2 b4 r c) * g (r, |r * c|)) ^ nuc.nucleons.length := by
  have hr : 0 < rmax := history_rmax hh hk
  refine ⟨defAxis E D, ?_⟩
  intro fuel x0 d f g hf hg
  have key := fun e K => ifOk_sample nuc fuel x0 d (fun e : E => sampleDeformed fuel R a b2 b4 rmax dm x0 nuc.nucleons ⟨e, d⟩)
    (fun e => by simp only [Nucleus.sampleNucleons, hk]; cases sampleDeformed fuel R a b2 b4 rmax dm x0 nuc.nucleons ⟨e, d⟩ <;> rfl) e K
  have h1 := deformed_mean h (R := R) (a := a) (b2 := b2) (b4 := b4) dm x0 hr fuel nuc.nucleons d hf hg
  have h2 := deformed_mean h (R := R) (a := a) (b2 := b2) (b4 := b4) dm x0 hr fuel nuc.nucleons d (f := fun _ => 1) measurable_const
    (g := fun _ => 1) measurable_const
  have k1 : ∀ e : E, ifOk (nuc.sampleNucleons fuel x0 ⟨e, d⟩) (fun r => f (defAxis E D e) * ((radiusHeight x0 (defAxis E D e) r.1.nucleons).map g).prod) =
      ifOk (sampleDeformed fuel R a b2 b4 rmax dm x0 nuc.nucleons (⟨e, d⟩ : Rand E D))
        (fun r => f (defAxis E D e) * ((radiusHeight x0 (defAxis E D e) r.1).map g).prod) := fun e =>
    key e (fun ns => f (defAxis E D e) * ((radiusHeight x0 (defAxis E D e) ns).map g).prod)
  have k2 : ∀ e : E, ifOk (nuc.sampleNucleons fuel x0 ⟨e, d⟩) (fun _ => 1) =
      ifOk (sampleDeformed fuel R a b2 b4 rmax dm x0 nuc.nucleons (⟨e, d⟩ : Rand E D))
        (fun r => (1 : ℝ≥0∞) * ((radiusHeight x0 (defAxis E D e) r.1).map fun _ => (1:ℝ≥0∞)).prod) := by
    intro e
    rw [key e (fun _ => 1)]
    simp
  have hdm : directionMean (fun _ => 1) = 1 := by
    unfold directionMean
    simp only [lintegral_const, one_mul, Measure.restrict_apply MeasurableSet.univ, univ_inter, Real.volume_Ioo]
    rw [← ENNReal.ofReal_mul (by norm_num), ← ENNReal.ofReal_mul (by positivity)]
    have : 1 / (4 * π) * ((1 - -1) * (π - -π)) = 1 := by field_simp; norm_num
    rw [this, ENNReal.ofReal_one]
  rw [lintegral_congr k1, lintegral_congr k2, h1, h2, hdm]
  simp only [mul_one, mul_pow]
  ring

/-- The densities can be normalised, so the equations of C87 determine the laws (divide by the normalisation). -/
theorem C87_normalisable {a b : ℝ} (ha : 0 < a) (hab : a < b) :
    ∫⁻ p : ℝ × ℝ × ℝ, hulthen a b p ≠ 0 ∧ ∫⁻ p : ℝ × ℝ × ℝ, hulthen a b p ≠ ∞ := by
  have h1 := deuteron_accepted ha hab.le (G := fun _ => 1) measurable_const
  simp only [mul_one, lintegral_const, Measure.restrict_apply MeasurableSet.univ, univ_inter, one_mul] at h1
  have hρ : Measurable fun r : ℝ => ((Real.exp (-a * r) - Real.exp (-b * r)) / r)^2 := by fun_prop
  have hsp := lintegral_space (f := fun _ => 1) measurable_const hρ
  simp only [one_mul] at hsp
  have e5 : ∫⁻ p : ℝ × ℝ × ℝ, hulthen a b p = _ := hsp
  have hsph : sphereInt (fun _ => 1) = ENNReal.ofReal (2 * (2 * π)) := by
    unfold sphereInt
    simp only [lintegral_const, one_mul, Measure.restrict_apply MeasurableSet.univ, univ_inter, Real.volume_Ioo]
    rw [← ENNReal.ofReal_mul (by norm_num)]
    congr 1; ring
  rw [hsph, lintegral_mul_const' _ _ ENNReal.ofReal_ne_top] at e5
  have e6 : ∫⁻ r in Ioi (0:ℝ), ENNReal.ofReal (r^2 * ((Real.exp (-a * r) - Real.exp (-b * r)) / r)^2) =
      ∫⁻ r in Ioi (0:ℝ), ENNReal.ofReal ((Real.exp (-a * r) - Real.exp (-b * r))^2) := by
    refine setLIntegral_congr_fun measurableSet_Ioi ?_
    intro r hr
    have hr0 : 0 < r := hr
    have : r^2 * ((Real.exp (-a * r) - Real.exp (-b * r)) / r)^2 = (Real.exp (-a * r) - Real.exp (-b * r))^2 := by field_simp
    simp only [this]
  rw [e6] at e5
  have hpos : ENNReal.ofReal (2 * (2 * π)) ≠ 0 := by simp [pi_pos]
  have hq := deuteronQ_lt ha hab
  have hacc0 : (unif.prod unif) (deuteronAcc a b) ≠ 0 := by
    intro h0
    unfold deuteronQ at hq
    rw [prob_compl_eq_one_sub (deuteronAcc_meas a b), h0] at hq
    simp at hq
  rw [e5]
  constructor
  · intro h0
    rcases mul_eq_zero.1 h0 with h0 | h0
    · rw [h0, mul_zero] at h1
      exact hacc0 h1
    · exact hpos h0
  · refine ENNReal.mul_ne_top ?_ ENNReal.ofReal_ne_top
    intro h0
    rw [h0, ENNReal.mul_top (by simp [ha])] at h1
    exact measure_ne_top _ _ h1

theorem C87_normalisable_deformed (R a b2 b4 : ℝ) {rmax : ℝ} (hr : 0 < rmax) :
    ∫⁻ r in Ioo (0:ℝ) rmax, ∫⁻ c in Ioo (-1:ℝ) 1, ENNReal.ofReal (deformedWS R a b2 b4 r c) ≠ 0 ∧
      ∫⁻ r in Ioo (0:ℝ) rmax, ∫⁻ c in Ioo (-1:ℝ) 1, ENNReal.ofReal (deformedWS R a b2 b4 r c) ≠ ∞ := by
  have h1 := deformed_accepted (R := R) (a := a) (b2 := b2) (b4 := b4) hr (G := fun _ => 1) measurable_const
  simp only [mul_one] at h1
  rw [lintegral_const, one_mul, Measure.restrict_apply MeasurableSet.univ, univ_inter] at h1
  have hq := deformedQ_lt R a b2 b4 rmax
  have hacc0 : (unif.prod (unif.prod unif)) (deformedAcc R a b2 b4 rmax) ≠ 0 := by
    intro h0
    unfold deformedQ at hq
    rw [prob_compl_eq_one_sub (deformedAcc_meas R a b2 b4 rmax), h0] at hq
    simp at hq
  constructor
  · intro h0
    rw [h0, mul_zero, mul_zero] at h1
    exact hacc0 h1
  · intro h0
    rw [h0, ENNReal.mul_top (by simp), ENNReal.mul_top (by simp; positivity)] at h1
    exact measure_ne_top _ _ h1

/-- The deuteron of the program with independent uniform numbers: the fraction of accepted samplings with the first nucleon in a set `S`. -/
example (S : Set (Fin 3 → ℝ)) (hS : MeasurableSet S) (fuel : ℕ) (x0 : ℝ) (nuc : Nucleus ℝ)
    (hc : createNucleus false (fun _ => .missing) "d" 0 = .ok nuc) :
    (∫⁻ e : Tape, ifOk (nuc.sampleNucleons fuel x0 (⟨e, ()⟩ : Rand Tape Unit)) (fun r => S.indicator 1 (config x0 r.1.nucleons 0)) ∂idealTape) *
        ∫⁻ p : ℝ × ℝ × ℝ, hulthen 0.457 2.35 p =
      (∫⁻ e : Tape, ifOk (nuc.sampleNucleons fuel x0 (⟨e, ()⟩ : Rand Tape Unit)) (fun _ => 1) ∂idealTape) *
        ∫⁻ p : ℝ × ℝ × ℝ, S.indicator 1 (vec p) * hulthen 0.457 2.35 p := by
  refine C87_deuteron idealTape_ideal nuc (.create _ _ _ _ _ hc) 0.457 2.35 ?_ fuel x0 () _ (measurable_one.indicator hS)
  injection hc with hc
  rw [← hc]
  simp only [mkDeuteron, Nucleus.ofKind, Kind.deuteron.injEq, lit_real]
  norm_num

/-- Uranium: the hypotheses are met. -/
example (nuc : Nucleus ℝ) (hc : createNucleus false (fun _ => .missing) "U" (1/2) = .ok nuc) :
    ∃ R a b2 b4 rmax dm, nuc.kind = .deformed R a b2 b4 rmax dm ∧ NucleusHistory Tape Unit nuc := by
  have hh : NucleusHistory Tape Unit nuc := .create _ _ _ _ _ hc
  injection hc with hc
  exact ⟨_, _, _, _, _, _, by rw [← hc]; rfl, hh⟩

end Trento
