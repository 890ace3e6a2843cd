import Verif.Lemmas.LoopLaw
import Verif.Lemmas.GammaLaw
import Verif.Lemmas.Pwl

/-!
# The draws of the random library from an ideal engine
-/

namespace Trento
open MeasureTheory Set ProbabilityTheory
open scoped ENNReal

/-- The ideal engine: canonical numbers are the numbers of the tape, 64-bit words their first 64 binary digits. -/
noncomputable instance idealEngine : Engine ℝ Tape where
  word e := (BitVec.ofNat 64 ⌊(18446744073709551616:ℝ) * e.val 0⌋₊, e.next)
  canonical e := (e.val 0, e.next)
  seed _ := Tape.const 0 (by norm_num)

/-- the law of the engine -/
noncomputable abbrev tapeLaw (_ : Unit) : Measure Tape := idealTape

theorem canonical_draw : PDraw tapeLaw (fun e : Tape => some (e.val 0, e.next)) unif := by
  refine ⟨measurable_some.comp ((tape_val_meas 0).prodMk tape_next_meas), fun _ _ => 1, fun _ => by simp, fun b g hg => ?_⟩
  have h := congrArg (fun μ => ∫⁻ p, g p ∂μ) tape_law
  rw [lintegral_map hg ((tape_val_meas 0).prodMk tape_next_meas), lintegral_prod_symm _ hg.aemeasurable] at h
  simpa using h

/-! ### Standard normal numbers -/

theorem lit_two : (lit 2 : ℝ) = 2 := by simp
theorem lit_one' : (lit 1 : ℝ) = 1 := by simp
theorem lit_zero' : (lit 0 : ℝ) = 0 := by simp

theorem eqv_real' (x y : ℝ) : eqv x y = decide (x = y) := by
  unfold eqv
  simp only [lt_real]
  rcases lt_trichotomy x y with h | h | h
  · simp [h, h.ne]
  · simp [h]
  · simp [h, h.ne', not_lt.2 h.le]

/-- two canonical numbers -/
noncomputable def twoCanonical (e : Tape) : Option ((ℝ × ℝ) × Tape) :=
  (some (e.val 0, e.next) : Option (ℝ × Tape)).bind fun t => (some (t.2.val 0, t.2.next) : Option (ℝ × Tape)).map fun s => ((t.1, s.1), s.2)

theorem polarStep_eq : polarStep (F := ℝ) (E := Tape) =
    stepOf twoCanonical polarAcc fun p => (2 * p.1 - 1, 2 * p.2 - 1, (2 * p.1 - 1) * (2 * p.1 - 1) + (2 * p.2 - 1) * (2 * p.2 - 1)) := by
  funext e
  show (if (lt (lit 1) _ || eqv _ (lit 0)) = true then some (Sum.inr e.next.next) else _) = (some _).map _
  simp only [lit_two, lit_one', lit_zero', lt_real, eqv_real', Option.map_some, Bool.or_eq_true, decide_eq_true_eq]
  set x := 2 * e.val 0 - 1
  set y := 2 * e.next.val 0 - 1
  have hm : (e.val 0, e.next.val 0) ∈ polarAcc ↔ 0 < x * x + y * y ∧ x * x + y * y ≤ 1 := Iff.rfl
  by_cases h : (e.val 0, e.next.val 0) ∈ polarAcc
  · have h' := hm.1 h
    rw [if_neg (by rintro (h1 | h1) <;> linarith [h'.1, h'.2]), if_pos h]
  · have h' := mt hm.2 h
    rw [if_pos, if_neg h]
    by_contra hc
    push Not at hc
    have : 0 ≤ x * x + y * y := add_nonneg (mul_self_nonneg x) (mul_self_nonneg y)
    exact h' ⟨lt_of_le_of_ne this (Ne.symm hc.2), hc.1⟩

/-- the two normal numbers of one pass of the polar method -/
noncomputable def polarDraw (e : Tape) : Option ((ℝ × ℝ) × Tape) :=
  (loop (polarStep (F := ℝ)) e).map fun t => ((t.1.2.1 * polarMult t.1.2.2, t.1.1 * polarMult t.1.2.2), t.2)

theorem polarDraw_law : PDraw tapeLaw polarDraw (gauss.prod gauss) := by
  have h1 : PDraw tapeLaw twoCanonical (unif.prod unif) := canonical_draw.pair canonical_draw
  have h2 := h1.rejection polarAcc_meas (by rw [polarAcc_prob]; simp [Real.pi_pos])
    (f := fun p => (2 * p.1 - 1, 2 * p.2 - 1, (2 * p.1 - 1) * (2 * p.1 - 1) + (2 * p.2 - 1) * (2 * p.2 - 1))) (by fun_prop)
  rw [← polarStep_eq] at h2
  have hm : Measurable fun t : ℝ × ℝ × ℝ => (t.2.1 * polarMult t.2.2, t.1 * polarMult t.2.2) := by
    have := polarMult_meas
    fun_prop
  have h3 := h2.map hm
  rw [Measure.map_map hm (by fun_prop)] at h3
  have e : (fun t : ℝ × ℝ × ℝ => (t.2.1 * polarMult t.2.2, t.1 * polarMult t.2.2)) ∘
      (fun p : ℝ × ℝ => (2 * p.1 - 1, 2 * p.2 - 1, (2 * p.1 - 1) * (2 * p.1 - 1) + (2 * p.2 - 1) * (2 * p.2 - 1))) =
      fun p => polarPair (2 * p.1 - 1, 2 * p.2 - 1) := rfl
  rw [e, polar_law] at h3
  exact h3

/-- the saved value of a distribution object: none, or a standard normal number -/
noncomputable def savedLaw : Bool → Measure (Option ℝ)
  | false => Measure.dirac none
  | true => gauss.map some

instance (b : Bool) : IsProbabilityMeasure (savedLaw b) := by
  cases b
  · exact Measure.dirac.isProbabilityMeasure
  · exact Measure.isProbabilityMeasure_map measurable_some.aemeasurable

/-- the state of one distribution object and the engine -/
noncomputable def objLaw (b : Bool) : Measure (Option ℝ × Tape) := (savedLaw b).prod idealTape

instance (b : Bool) : IsProbabilityMeasure (objLaw b) := by unfold objLaw; infer_instance

theorem objLaw_false {F : Option ℝ × Tape → ℝ≥0∞} (hF : Measurable F) : ∫⁻ w, F w ∂objLaw false = ∫⁻ e, F (none, e) ∂idealTape := by
  unfold objLaw savedLaw
  rw [lintegral_prod _ hF.aemeasurable, lintegral_dirac' _ hF.lintegral_prod_right']

theorem objLaw_true {F : Option ℝ × Tape → ℝ≥0∞} (hF : Measurable F) : ∫⁻ w, F w ∂objLaw true = ∫⁻ e, ∫⁻ z, F (some z, e) ∂gauss ∂idealTape := by
  unfold objLaw savedLaw
  rw [lintegral_prod_symm _ hF.aemeasurable]
  refine lintegral_congr fun e => ?_
  exact lintegral_map (f := fun z => F (z, e)) (hF.comp (measurable_id.prodMk measurable_const)) measurable_some

theorem standardNormal_none (e : Tape) :
    standardNormal (F := ℝ) none e = (polarDraw e).map fun t => (t.1.1, some t.1.2, t.2) := by
  unfold standardNormal polarDraw polarMult
  rcases loop (polarStep (F := ℝ)) e with _ | ⟨⟨x, y, r2⟩, e'⟩
  · rfl
  · simp only [Option.map_some, lit_real, sqrt_real, log_real]
    push_cast
    rfl

theorem standardNormal_law : PDraw objLaw (fun w : Option ℝ × Tape => standardNormal w.1 w.2) gauss := by
  have hmeas : Measurable fun w : Option ℝ × Tape => standardNormal (F := ℝ) w.1 w.2 := by
    have h := measurable_optElim (Z := Option ℝ × Tape) (o := fun w => w.1) (n := fun w => (polarDraw w.2).map fun t => (t.1.1, some t.1.2, t.2))
      (g := fun w z => (some (z, none, w.2) : Option (ℝ × Option ℝ × Tape))) measurable_fst
      (measurable_optMap (g := fun _ (t : (ℝ × ℝ) × Tape) => (t.1.1, some t.1.2, t.2)) (polarDraw_law.meas.comp measurable_snd) (by
        have := measurable_some (α := ℝ)
        fun_prop))
      (measurable_some.comp (by fun_prop))
    convert h using 2 with w
    obtain ⟨s, e⟩ := w
    cases s with
    | none => exact standardNormal_none e
    | some z => rfl
  refine ⟨hmeas, fun b b' => if b' = !b then 1 else 0, fun b => by simp, fun b g hg => ?_⟩
  have hF : Measurable fun w : Option ℝ × Tape => (standardNormal (F := ℝ) w.1 w.2).elim 0 g :=
    measurable_optElim (n := fun _ => (0:ℝ≥0∞)) (g := fun _ t => g t) hmeas measurable_const (hg.comp measurable_snd)
  have hG : Measurable fun w : Option ℝ × Tape => ∫⁻ a, g (a, w) ∂gauss := by
    have : Measurable fun p : (Option ℝ × Tape) × ℝ => g (p.2, p.1) := hg.comp measurable_swap
    exact this.lintegral_prod_right'
  cases b with
  | false =>
    rw [objLaw_false hF]
    simp only [Bool.not_false, Fintype.sum_bool, if_true, reduceCtorEq, if_false, zero_mul, one_mul, add_zero]
    rw [objLaw_true hG]
    obtain ⟨K, hK, hl⟩ := polarDraw_law.law
    have hK1 : K () () = 1 := by simpa using hK ()
    have hg2 : Measurable fun t : (ℝ × ℝ) × Tape => g (t.1.1, some t.1.2, t.2) := hg.comp (by
      have := measurable_some (α := ℝ)
      exact (measurable_fst.comp measurable_fst).prodMk ((this.comp (measurable_snd.comp measurable_fst)).prodMk measurable_snd))
    have h := hl () _ hg2
    simp only [Finset.univ_unique, Finset.sum_singleton, PUnit.default_eq_unit, hK1, one_mul] at h
    refine Eq.trans (lintegral_congr fun e => ?_) (h.trans ?_)
    · rw [standardNormal_none]
      cases polarDraw e <;> rfl
    · refine lintegral_congr fun e => ?_
      rw [lintegral_prod_symm _ (show Measurable fun p : ℝ × ℝ => g (p.1, some p.2, e) from
        hg2.comp (measurable_id.prodMk measurable_const)).aemeasurable]
  | true =>
    rw [objLaw_true hF]
    simp only [Bool.not_true, Fintype.sum_bool, if_true, if_false, zero_mul, one_mul, zero_add, Bool.true_eq_false]
    rw [objLaw_false hG]
    rfl

/-! ### Gamma numbers -/

theorem PDraw.reindex {α W B B' : Type} [MeasurableSpace α] [MeasurableSpace W] [Fintype B] [Fintype B'] {β : B → Measure W} {T : W → Option (α × W)}
    {ν : Measure α} (h : PDraw β T ν) (e : B' ≃ B) {β' : B' → Measure W} (hβ : ∀ b, β' b = β (e b)) : PDraw β' T ν := by
  obtain ⟨K, hK, hl⟩ := h.law
  refine ⟨h.meas, fun b c => K (e b) (e c), fun b => by rw [Equiv.sum_comp e fun c => K (e b) c]; exact hK _, fun b g hg => ?_⟩
  rw [hβ, hl _ g hg, ← Equiv.sum_comp e]
  exact Finset.sum_congr rfl fun c _ => by rw [hβ]

/-- a draw that uses the engine only -/
theorem PDraw.obj {α : Type} [MeasurableSpace α] {T : Tape → Option (α × Tape)} {ν : Measure α} [SFinite ν] (h : PDraw tapeLaw T ν) :
    PDraw objLaw (fun w : Option ℝ × Tape => (T w.2).map fun t => (t.1, (w.1, t.2))) ν := by
  have h1 := h.lift savedLaw (i := fun p : Tape × Option ℝ => p.swap) (o := fun v : Option ℝ × Tape => v.swap) measurable_swap measurable_swap (fun p => rfl)
  refine h1.reindex (Equiv.punitProd Bool).symm fun b => ?_
  show (savedLaw b).prod idealTape = (idealTape.prod (savedLaw b)).map Prod.swap
  rw [Measure.prod_swap]

theorem gammaMalpha_real (a : ℝ) : gammaMalpha a = if a < 1 then a + 1 else a := by
  unfold gammaMalpha
  simp only [lt_real, lit_one', decide_eq_true_eq]

theorem gammaA1_real (a : ℝ) : gammaA1 a = (if a < 1 then a + 1 else a) - 1 / 3 := by
  unfold gammaA1
  rw [gammaMalpha_real]
  simp

theorem gammaA1_ge {a : ℝ} (ha : 0 < a) : 2 / 3 ≤ gammaA1 a := by
  rw [gammaA1_real]
  split <;> linarith

theorem gammaA2_real (a : ℝ) : gammaA2 a = 1 / Real.sqrt (9 * gammaA1 a) := by
  unfold gammaA2
  simp

/-- the inner loop -/
theorem gammaInner_eq (a : ℝ) : gammaInnerStep (F := ℝ) (E := Tape) a =
    stepOf (fun w : Option ℝ × Tape => standardNormal w.1 w.2) (mtPos (gammaA1 a)) fun n => (n, 1 + 1 / Real.sqrt (9 * gammaA1 a) * n) := by
  funext w
  unfold gammaInnerStep stepOf
  dsimp only
  rcases standardNormal (F := ℝ) w.1 w.2 with _ | ⟨n, s, e⟩
  · rfl
  · simp only [Option.map_some, gammaA2_real, lit_one', lit_zero', lt_real, decide_eq_true_eq]
    have hm : n ∈ mtPos (gammaA1 a) ↔ 0 < 1 + 1 / Real.sqrt (9 * gammaA1 a) * n := Iff.rfl
    by_cases h : n ∈ mtPos (gammaA1 a)
    · rw [if_pos (hm.1 h), if_pos h]
    · rw [if_neg (mt hm.2 h), if_neg h]

/-- the accepted triples -/
def outerAcc (d : ℝ) : Set ((ℝ × ℝ) × ℝ) :=
  {q | ¬(1 - 0.0331 * q.1.1 * q.1.1 * q.1.1 * q.1.1 < q.2 ∧
    0.5 * q.1.1 * q.1.1 + d * (1 - q.1.2 * q.1.2 * q.1.2 + Real.log (q.1.2 * q.1.2 * q.1.2)) < Real.log q.2)}

theorem outerAcc_meas (d : ℝ) : MeasurableSet (outerAcc d) := by
  unfold outerAcc
  refine MeasurableSet.compl (MeasurableSet.inter (s₁ := {q : (ℝ × ℝ) × ℝ | 1 - 0.0331 * q.1.1 * q.1.1 * q.1.1 * q.1.1 < q.2}) ?_ ?_)
  · exact measurableSet_lt (by fun_prop) (by fun_prop)
  · refine measurableSet_lt ?_ (Real.measurable_log.comp measurable_snd)
    fun_prop

/-- a candidate and a canonical number -/
noncomputable def innerCanonical (a : ℝ) (w : Option ℝ × Tape) : Option (((ℝ × ℝ) × ℝ) × (Option ℝ × Tape)) :=
  (loop (gammaInnerStep (F := ℝ) a) w).bind fun t =>
    (((fun e : Tape => (some (e.val 0, e.next) : Option (ℝ × Tape))) t.2.2).map fun s => (s.1, (t.2.1, s.2))).map fun s => ((t.1, s.1), s.2)

theorem gammaOuter_eq (a : ℝ) : gammaOuterStep (F := ℝ) (E := Tape) a =
    stepOf (innerCanonical a) (outerAcc (gammaA1 a)) fun q => q.1.2 * q.1.2 * q.1.2 := by
  funext w
  unfold gammaOuterStep stepOf innerCanonical
  rcases loop (gammaInnerStep (F := ℝ) a) w with _ | ⟨⟨n, v⟩, s, e⟩
  · rfl
  · show (if (lt _ (e.val 0) && lt _ (log (e.val 0))) = true then some (Sum.inr (s, e.next)) else _) = (some (((n, v), e.val 0), (s, e.next))).map _
    simp only [Option.map_some, lit_real, lt_real, log_real, Bool.and_eq_true, decide_eq_true_eq]
    have hm : ((n, v), e.val 0) ∈ outerAcc (gammaA1 a) ↔ ¬(1 - 0.0331 * n * n * n * n < e.val 0 ∧
      0.5 * n * n + gammaA1 a * (1 - v * v * v + Real.log (v * v * v)) < Real.log (e.val 0)) := Iff.rfl
    have h1 : ((1:ℚ):ℝ) - ((0.0331:ℚ):ℝ) * n * n * n * n = 1 - 0.0331 * n * n * n * n := by norm_num
    have h2 : ((0.5:ℚ):ℝ) * n * n + gammaA1 a * (((1:ℚ):ℝ) - v * v * v + Real.log (v * v * v)) =
      0.5 * n * n + gammaA1 a * (1 - v * v * v + Real.log (v * v * v)) := by norm_num
    simp only [h1, h2]
    by_cases h : ((n, v), e.val 0) ∈ outerAcc (gammaA1 a)
    · rw [if_neg (hm.1 h), if_pos h]
    · rw [if_pos (not_not.1 (mt hm.2 h)), if_neg h]

/-- the law of the candidates with a positive base -/
noncomputable def innerLaw (d : ℝ) : Measure (ℝ × ℝ) := (ProbabilityTheory.cond gauss (mtPos d)).map fun n => (n, 1 + 1 / Real.sqrt (9 * d) * n)

theorem core_pos {m : ℝ} (hm : 0 < m) : ∫⁻ x in Ioi (0:ℝ), ENNReal.ofReal (gammaCore m x) * 1 = ENNReal.ofReal (Real.Gamma m) := by
  have p1 : IsProbabilityMeasure (gammaMeasure m 1) := isProbabilityMeasure_gammaMeasure hm one_pos
  have h := lintegral_gamma hm (g := fun _ => 1) measurable_const
  have hG : 0 < Real.Gamma m := Real.Gamma_pos_of_pos hm
  simp only [lintegral_one, measure_univ] at h
  calc _ = ENNReal.ofReal (Real.Gamma m) * (ENNReal.ofReal (Real.Gamma m)⁻¹ * ∫⁻ x in Ioi (0:ℝ), ENNReal.ofReal (gammaCore m x) * 1) := by
        rw [← mul_assoc, ← ENNReal.ofReal_mul hG.le, mul_inv_cancel₀ hG.ne', ENNReal.ofReal_one, one_mul]
    _ = _ := by rw [← h, mul_one]

theorem mtPos_ne_zero {d : ℝ} (hd : 2 / 3 ≤ d) : gauss (mtPos d) ≠ 0 := by
  intro h0
  have h := mt_integral hd (g := fun _ => 1)
  rw [Measure.restrict_eq_zero.2 h0, lintegral_zero_measure, core_pos (by linarith), ← ENNReal.ofReal_mul (mtKappa_pos hd).le] at h
  have := mul_pos (mtKappa_pos hd) (Real.Gamma_pos_of_pos (by linarith : 0 < d + 1 / 3))
  exact absurd h.symm (by simpa using this)

theorem cand_meas (d : ℝ) : Measurable fun n : ℝ => (n, 1 + 1 / Real.sqrt (9 * d) * n) := by fun_prop

theorem innerLaw_prob {d : ℝ} (hd : 2 / 3 ≤ d) : IsProbabilityMeasure (innerLaw d) := by
  have := cond_isProbabilityMeasure (mtPos_ne_zero hd)
  exact Measure.isProbabilityMeasure_map (cand_meas d).aemeasurable

/-- the integral over the accepted triples -/
theorem outer_integral {d : ℝ} (hd : 2 / 3 ≤ d) {g : ℝ → ℝ≥0∞} (hg : Measurable g) :
    ∫⁻ q in outerAcc d, g (d * (q.1.2 * q.1.2 * q.1.2)) ∂((innerLaw d).prod unif) =
      ((gauss (mtPos d))⁻¹ * ENNReal.ofReal (mtKappa d)) * ∫⁻ x in Ioi (0:ℝ), ENNReal.ofReal (gammaCore (d + 1 / 3) x) * g x := by
  have := innerLaw_prob hd
  have hm : Measurable fun q : (ℝ × ℝ) × ℝ => (outerAcc d).indicator (fun q => g (d * (q.1.2 * q.1.2 * q.1.2))) q :=
    Measurable.indicator (hg.comp (by fun_prop)) (outerAcc_meas d)
  rw [← lintegral_indicator (outerAcc_meas d), lintegral_prod _ hm.aemeasurable]
  unfold innerLaw
  rw [lintegral_map hm.lintegral_prod_right' (cand_meas d), ProbabilityTheory.cond, lintegral_smul_measure, mul_assoc, smul_eq_mul, ← mt_integral hd]
  congr 1
  refine setLIntegral_congr_fun (mtPos_meas d) fun n hn => ?_
  have hset : MeasurableSet {u | (n, u) ∈ mtAcc d} := (measurable_const.prodMk measurable_id) (mtAcc_meas d)
  have e : ∀ u, (outerAcc d).indicator (fun q => g (d * (q.1.2 * q.1.2 * q.1.2))) ((n, 1 + 1 / Real.sqrt (9 * d) * n), u) =
      {u | (n, u) ∈ mtAcc d}.indicator (fun _ => g (d * mtCube d n)) u := by
    intro u
    have hmem : ((n, 1 + 1 / Real.sqrt (9 * d) * n), u) ∈ outerAcc d ↔ u ∈ {u | (n, u) ∈ mtAcc d} := Iff.rfl
    by_cases h : u ∈ {u | (n, u) ∈ mtAcc d}
    · rw [indicator_of_mem (hmem.2 h), indicator_of_mem h]
      rfl
    · rw [indicator_of_notMem (mt hmem.1 h), indicator_of_notMem h]
  simp only [e]
  rw [lintegral_indicator_const hset, mtAcc_prob hd hn, mul_comm]

theorem outerAcc_ne_zero {d : ℝ} (hd : 2 / 3 ≤ d) : ((innerLaw d).prod unif) (outerAcc d) ≠ 0 := by
  intro h0
  have h := outer_integral hd (g := fun _ => 1) measurable_const
  rw [Measure.restrict_eq_zero.2 h0, lintegral_zero_measure, core_pos (by linarith)] at h
  have h1 : (gauss (mtPos d))⁻¹ ≠ 0 := ENNReal.inv_ne_zero.2 (measure_ne_top _ _)
  have h2 : ENNReal.ofReal (mtKappa d) ≠ 0 := by simpa using mtKappa_pos hd
  have h3 : ENNReal.ofReal (Real.Gamma (d + 1 / 3)) ≠ 0 := by simpa using Real.Gamma_pos_of_pos (by linarith : 0 < d + 1 / 3)
  exact mul_ne_zero (mul_ne_zero h1 h2) h3 h.symm

/-- the law of the accepted cubes -/
noncomputable def outerLaw (d : ℝ) : Measure ℝ := (ProbabilityTheory.cond ((innerLaw d).prod unif) (outerAcc d)).map fun q => q.1.2 * q.1.2 * q.1.2

theorem cube_meas : Measurable fun q : (ℝ × ℝ) × ℝ => q.1.2 * q.1.2 * q.1.2 := by fun_prop

theorem outerLaw_prob {d : ℝ} (hd : 2 / 3 ≤ d) : IsProbabilityMeasure (outerLaw d) := by
  have := innerLaw_prob hd
  have := cond_isProbabilityMeasure (outerAcc_ne_zero hd)
  exact Measure.isProbabilityMeasure_map cube_meas.aemeasurable

/-- the accepted cubes, scaled, are gamma numbers -/
theorem outerLaw_gamma {d : ℝ} (hd : 2 / 3 ≤ d) : (outerLaw d).map (fun v => d * v) = gammaMeasure (d + 1 / 3) 1 := by
  have := innerLaw_prob hd
  have := outerLaw_prob hd
  have hm : Measurable fun v : ℝ => d * v := by fun_prop
  have p0 : 0 < d + 1 / 3 := by linarith
  have : IsProbabilityMeasure ((outerLaw d).map fun v => d * v) := Measure.isProbabilityMeasure_map hm.aemeasurable
  have : IsProbabilityMeasure (gammaMeasure (d + 1 / 3) 1) := isProbabilityMeasure_gammaMeasure p0 one_pos
  have hG : 0 < Real.Gamma (d + 1 / 3) := Real.Gamma_pos_of_pos p0
  refine prob_eq_of_prop (C := (((innerLaw d).prod unif) (outerAcc d))⁻¹ * (((gauss (mtPos d))⁻¹ * ENNReal.ofReal (mtKappa d)) *
    ENNReal.ofReal (Real.Gamma (d + 1 / 3)))) fun g hg => ?_
  rw [lintegral_map hg hm]
  unfold outerLaw
  rw [lintegral_map (f := fun v => g (d * v)) (hg.comp hm) cube_meas, ProbabilityTheory.cond, lintegral_smul_measure, outer_integral hd hg,
    lintegral_gamma p0 hg, smul_eq_mul]
  have hc : ENNReal.ofReal (Real.Gamma (d + 1 / 3)) * ENNReal.ofReal (Real.Gamma (d + 1 / 3))⁻¹ = 1 := by
    rw [← ENNReal.ofReal_mul hG.le, mul_inv_cancel₀ hG.ne', ENNReal.ofReal_one]
  set I := ∫⁻ x in Ioi (0:ℝ), ENNReal.ofReal (gammaCore (d + 1 / 3) x) * g x
  calc _ = (((innerLaw d).prod unif) (outerAcc d))⁻¹ * ((gauss (mtPos d))⁻¹ * ENNReal.ofReal (mtKappa d) * (1 * I)) := by rw [one_mul]
    _ = _ := by rw [← hc]; ring

theorem gammaOuter_law {a : ℝ} (ha : 0 < a) : PDraw objLaw (loop (gammaOuterStep (F := ℝ) (E := Tape) a)) (outerLaw (gammaA1 a)) := by
  have hd := gammaA1_ge ha
  have := innerLaw_prob hd
  have h1 := standardNormal_law.rejection (mtPos_meas (gammaA1 a)) (mtPos_ne_zero hd) (cand_meas (gammaA1 a))
  rw [← gammaInner_eq] at h1
  have h2 : PDraw objLaw (innerCanonical a) ((innerLaw (gammaA1 a)).prod unif) := PDraw.pair (ν := innerLaw (gammaA1 a)) h1 canonical_draw.obj
  have h3 := h2.rejection (outerAcc_meas _) (outerAcc_ne_zero hd) cube_meas
  rw [← gammaOuter_eq] at h3
  exact h3

/-- a positive canonical number -/
theorem nonzero_law : PDraw tapeLaw (loop (nonzeroStep (F := ℝ) (E := Tape))) unif := by
  have hae : ∀ᵐ u ∂unif, u ∈ ({0}ᶜ : Set ℝ) := by
    unfold unif
    exact ae_restrict_of_ae (by simp [ae_iff])
  have hone : unif ({0}ᶜ : Set ℝ) = 1 := (mem_ae_iff_prob_eq_one (measurableSet_singleton (0:ℝ)).compl).1 hae
  have h := canonical_draw.rejection (measurableSet_singleton (0:ℝ)).compl (by rw [hone]; exact one_ne_zero) (f := fun u => u) measurable_id
  have e : nonzeroStep (F := ℝ) (E := Tape) = stepOf (fun e : Tape => some (e.val 0, e.next)) ({0}ᶜ : Set ℝ) fun u => u := by
    funext e
    unfold stepOf
    show (if eqv (e.val 0) (lit 0) = true then some (Sum.inr e.next) else _) = _
    simp only [eqv_real', lit_zero', decide_eq_true_eq, Option.map_some, mem_compl_iff, mem_singleton_iff]
    by_cases h : e.val 0 = 0
    · simp [h]
    · simp only [h, if_false, not_false_eq_true, if_true]
  rw [← e] at h
  have hc : (ProbabilityTheory.cond unif ({0}ᶜ : Set ℝ)).map (fun u => u) = unif := by
    rw [Measure.map_id', ProbabilityTheory.cond, hone, inv_one, one_smul, Measure.restrict_eq_self_of_ae_mem hae]
  rwa [hc] at h

/-- **`std::gamma_distribution`** with an ideal engine: gamma numbers of the given shape and scale. -/
theorem gammaDraw_law {a b : ℝ} (ha : 0 < a) (hb : 0 < b) :
    PDraw objLaw (fun w : Option ℝ × Tape => gammaDraw a b w.1 w.2) (gammaMeasure a (1 / b)) := by
  have hd := gammaA1_ge ha
  have := outerLaw_prob hd
  have hO := gammaOuter_law ha
  rcases lt_or_ge a 1 with h1 | h1
  · have hne : eqv a (gammaMalpha a) = false := by
      rw [gammaMalpha_real, if_pos h1, eqv_real']
      simp
    have hd1 : gammaA1 a + 1 / 3 = a + 1 := by rw [gammaA1_real, if_pos h1]; ring
    have hp := hO.pair nonzero_law.obj
    have hm : Measurable fun p : ℝ × ℝ => p.2 ^ (1 / a) * gammaA1 a * p.1 * b := by fun_prop
    have hq := hp.map hm
    have hlaw : ((outerLaw (gammaA1 a)).prod unif).map (fun p : ℝ × ℝ => p.2 ^ (1 / a) * gammaA1 a * p.1 * b) = gammaMeasure a (1 / b) := by
      rw [← gamma_scale ha hb, ← gamma_boost ha, ← hd1, ← outerLaw_gamma hd]
      have hdm : Measurable fun v : ℝ => gammaA1 a * v := by fun_prop
      have e2 : unif.prod ((outerLaw (gammaA1 a)).map fun v => gammaA1 a * v) = ((outerLaw (gammaA1 a)).prod unif).map fun p => (p.2, gammaA1 a * p.1) := by
        have h3 := (Measure.map_prod_map unif (outerLaw (gammaA1 a)) measurable_id hdm)
        rw [Measure.map_id] at h3
        rw [h3, ← Measure.prod_swap, Measure.map_map (measurable_id.prodMap hdm) measurable_swap]
        rfl
      rw [e2, Measure.map_map (by fun_prop) (by fun_prop), Measure.map_map (by fun_prop) (by fun_prop)]
      congr 1
      funext p
      simp only [Function.comp_apply]
      ring
    rw [hlaw] at hq
    convert hq using 2 with w
    unfold gammaDraw
    obtain ⟨s0, e0⟩ := w
    rcases loop (gammaOuterStep (F := ℝ) a) (s0, e0) with _ | ⟨v, s, e⟩
    · rfl
    · simp only [hne, Option.bind_some]
      rcases loop (nonzeroStep (F := ℝ)) e with _ | ⟨u, e'⟩
      · rfl
      · simp only [Option.map_some, lit_one', pow_real]
        rfl
  · have heq : eqv a (gammaMalpha a) = true := by
      rw [gammaMalpha_real, if_neg (not_lt.2 h1), eqv_real']
      simp
    have hd1 : gammaA1 a + 1 / 3 = a := by rw [gammaA1_real, if_neg (not_lt.2 h1)]; ring
    have hm : Measurable fun v : ℝ => gammaA1 a * v * b := by fun_prop
    have hq := hO.map hm
    have hlaw : (outerLaw (gammaA1 a)).map (fun v => gammaA1 a * v * b) = gammaMeasure a (1 / b) := by
      rw [← gamma_scale ha hb]
      have hg := outerLaw_gamma hd
      rw [hd1] at hg
      rw [← hg]
      rw [Measure.map_map (by fun_prop) (by fun_prop)]
      rfl
    rw [hlaw] at hq
    convert hq using 2 with w
    unfold gammaDraw
    obtain ⟨s0, e0⟩ := w
    rcases loop (gammaOuterStep (F := ℝ) a) (s0, e0) with _ | ⟨v, s, e⟩
    · rfl
    · simp only [heq, if_true, Option.map_some]

end Trento
