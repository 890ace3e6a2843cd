import Verif.Props.Finite
import Verif.Props.Isotropy
import Verif.Lemmas.IdealTape

/-!
# C86: the rejection loops end

With an ideal source of random numbers the number of rejected proposals of a nucleus has a geometric tail, so sampling ends with probability one.
-/

namespace Trento
open MeasureTheory Set Spec Filter
open scoped ENNReal Classical Topology

variable {E D : Type} [Rng ℝ E D] [MeasurableSpace E] {μ : Measure E}

theorem unif_le_pos {c : ℝ} (hc : 0 < c) : unif {u | ¬ c < u} ≠ 0 := by
  have hm : MeasurableSet {u : ℝ | ¬ c < u} := (measurableSet_lt measurable_const measurable_id).compl
  unfold unif
  rw [Measure.restrict_apply hm]
  have hsub : Ioo (0:ℝ) (min c 1) ⊆ {u : ℝ | ¬ c < u} ∩ Ico 0 1 := by
    intro u hu
    have h1 := lt_min_iff.1 hu.2
    exact ⟨not_lt.2 h1.1.le, hu.1.le, h1.2⟩
  intro h0
  have := measure_mono_null hsub h0
  rw [Real.volume_Ioo] at this
  have hp : 0 < min c 1 - 0 := by rw [sub_zero]; exact lt_min hc one_pos
  simp at this
  linarith

theorem unif_ae_pos : ∀ᵐ u ∂unif, 0 < u ∧ u < 1 := by
  unfold unif
  rw [Measure.restrict_congr_set Ioo_ae_eq_Ico.symm]
  exact ae_restrict_mem measurableSet_Ioo

theorem compl_lt_one {α : Type} [MeasurableSpace α] {ν : Measure α} [IsProbabilityMeasure ν] {S : Set α} (hS : MeasurableSet S) (h : ν S ≠ 0) :
    ν Sᶜ < 1 := by
  rw [prob_compl_eq_one_sub hS]
  exact ENNReal.sub_lt_self ENNReal.one_ne_top one_ne_zero h

/-- the probability that a proposal of the deuteron is rejected -/
noncomputable def deuteronQ (a b : ℝ) : ℝ≥0∞ := (unif.prod unif) (deuteronAcc a b)ᶜ

theorem deuteronQ_lt {a b : ℝ} (ha : 0 < a) (hab : a < b) : deuteronQ a b < 1 := by
  refine compl_lt_one (deuteronAcc_meas a b) ?_
  intro h0
  rw [Measure.measure_prod_null (deuteronAcc_meas a b)] at h0
  obtain ⟨u, hu, hp⟩ := (h0.and unif_ae_pos).exists
  refine unif_le_pos (c := deuteronProb a b u (deuteronRadius a u)) ?_ hu
  have hr : 0 < deuteronRadius a u := by
    simp only [deuteronRadius, log_real, lit_real]
    have := Real.log_neg hp.1 hp.2
    push_cast
    apply div_pos <;> linarith
  have hlt : Real.exp (-b * deuteronRadius a u) < Real.exp (-a * deuteronRadius a u) := by
    apply Real.exp_lt_exp.2; nlinarith
  simp only [deuteronProb, exp_real, pow_real, lit_real]
  exact div_pos (Real.rpow_pos_of_pos (by linarith) _) hp.1

/-- the probability that a proposal of the deformed nucleus is rejected -/
noncomputable def deformedQ (R a b2 b4 rmax : ℝ) : ℝ≥0∞ := (unif.prod (unif.prod unif)) (deformedAcc R a b2 b4 rmax)ᶜ

theorem deformedQ_lt (R a b2 b4 rmax : ℝ) : deformedQ R a b2 b4 rmax < 1 := by
  refine compl_lt_one (deformedAcc_meas R a b2 b4 rmax) ?_
  intro h0
  rw [Measure.measure_prod_null (deformedAcc_meas R a b2 b4 rmax)] at h0
  obtain ⟨u, hu⟩ := h0.exists
  simp only [Pi.zero_apply] at hu
  rw [Measure.measure_prod_null ((deformedAcc_meas R a b2 b4 rmax).preimage measurable_prodMk_left)] at hu
  obtain ⟨v, hv⟩ := hu.exists
  refine unif_le_pos (c := deformedDist R a b2 b4 (defSample rmax (u, v, 0)).1 (defSample rmax (u, v, 0)).2) ?_ hv
  simp only [deformedDist, exp_real, lit_real]
  push_cast
  positivity

/-- the probability that one of `k` loops fails -/
theorem manyVal_fail [IsProbabilityMeasure μ] {α : Type} [MeasurableSpace α] [Zero α] {L : E → Option (α × E)} (hL : IsLoop μ L) {p : ℝ≥0∞}
    (hp : ∫⁻ e, (L e).elim 1 (fun _ => 0) ∂μ = p) (k : ℕ) : ∫⁻ e, manyVal L 1 (fun _ _ => 0) k e ∂μ ≤ k * p := by
  have hK : MeasK fun (_ : Unit) (_ : List α) (_ : E) => (0:ℝ≥0∞) := fun Z _ g l e hg hl he => measurable_const
  induction k with
  | zero => simp [manyVal, rejMany]
  | succ k ih =>
    simp only [manyVal_succ]
    set I := ∫⁻ e, manyVal L 1 (fun _ _ => 0) k e ∂μ
    have hm1 : Measurable fun t : α × E => manyVal L 1 (fun _ _ => 0) k t.2 :=
      manyVal_meas hL k (Y := α × E) (K := fun _ _ _ => 0) (fun Z _ g l e hg hl he => measurable_const) measurable_snd
    have e1 := hL.congr (c := 1) hm1 (measurable_const (a := I)) (fun a => by simp [I])
    rw [e1]
    have hle : ∀ e, (L e).elim 1 (fun _ => I) ≤ (L e).elim 1 (fun _ => 0) + I := by
      intro e
      cases L e with
      | none => exact le_self_add
      | some t => simp
    calc ∫⁻ e, (L e).elim 1 (fun _ => I) ∂μ ≤ ∫⁻ e, ((L e).elim 1 (fun _ => 0) + I) ∂μ := lintegral_mono hle
      _ = p + I := by rw [lintegral_add_right _ measurable_const, hp]; simp
      _ ≤ ((k + 1 : ℕ) : ℝ≥0∞) * p := by push_cast; rw [add_mul, one_mul, add_comm]; gcongr

/-- sampling succeeds or runs out of fuel -/
theorem deuteron_tail (h : IdealSource E D μ) (a b x0 : ℝ) (fuel : ℕ) (ns : List (NucleonData ℝ)) (hl : ns.length = 2) (d : D) :
    μ {e | ∀ r, sampleDeuteron fuel a b x0 ns ⟨e, d⟩ ≠ .ok r} = deuteronQ a b ^ fuel := by
  have hp := h.prob
  have := rejLoop_fail (isDraw_draw2 h) (deuteronAcc_meas a b) fuel
  unfold deuteronQ
  rw [← this]
  congr 1
  ext e
  show (∀ r, sampleDeuteron fuel a b x0 ns ⟨e, d⟩ ≠ .ok r) ↔ rejLoop (draw2 E D) (deuteronAcc a b) fuel e = none
  unfold sampleDeuteron
  rw [deuteronLoop_rej]
  match ns, hl with
  | [n1, n2], _ =>
    dsimp only
    cases rejLoop (draw2 E D) (deuteronAcc a b) fuel e with
    | none => simp
    | some t => simp

theorem deformed_tail (h : IdealSource E D μ) (R a b2 b4 rmax dm x0 : ℝ) (fuel : ℕ) (ns : List (NucleonData ℝ)) (d : D) :
    μ {e | ∀ r, sampleDeformed fuel R a b2 b4 rmax dm x0 ns ⟨e, d⟩ ≠ .ok r} ≤ ns.length * deformedQ R a b2 b4 rmax ^ fuel := by
  have hp := h.prob
  set L := defLoop E D R a b2 b4 rmax fuel with hLdef
  have hL0 := (isDraw_draw3 h).rejIsLoop (deformedAcc_meas R a b2 b4 rmax) fuel
  have hL : IsLoop μ L := hL0.map (defSample_meas rmax)
  have hq : ∫⁻ e, (L e).elim 1 (fun _ => 0) ∂μ = deformedQ R a b2 b4 rmax ^ fuel := by
    have := rejLoop_fail (isDraw_draw3 h) (deformedAcc_meas R a b2 b4 rmax) fuel
    unfold deformedQ
    rw [← this]
    have hm : Measurable fun e => (L e).elim (1:ℝ≥0∞) (fun _ => 0) := hL.meas (Y := E) (k := fun _ _ => 0) measurable_const measurable_id
    have hs : {e | rejLoop (draw3 E D) (deformedAcc R a b2 b4 rmax) fuel e = none} = (fun e => (L e).elim (1:ℝ≥0∞) (fun _ => 0)) ⁻¹' {1} := by
      ext e
      show rejLoop (draw3 E D) (deformedAcc R a b2 b4 rmax) fuel e = none ↔ (L e).elim (1:ℝ≥0∞) (fun _ => 0) = 1
      rw [hLdef, defLoop]
      cases rejLoop (draw3 E D) (deformedAcc R a b2 b4 rmax) fuel e <;> simp
    rw [hs, ← lintegral_indicator_one (hm (measurableSet_singleton 1))]
    apply lintegral_congr
    intro e
    cases hLe : L e <;> simp [indicator, hLe]
  have hm : Measurable fun e => manyVal L 1 (fun _ _ => 0) ns.length (draw2 E D e).2 := by
    exact manyVal_meas hL ns.length (Y := E) (K := fun _ _ _ => 0) (fun Z _ g l e hg hl he => measurable_const)
      (measurable_snd.comp h.draw2_meas)
  have hset : {e | ∀ r, sampleDeformed fuel R a b2 b4 rmax dm x0 ns ⟨e, d⟩ ≠ .ok r} =
      (fun e => manyVal L 1 (fun _ _ => 0) ns.length (draw2 E D e).2) ⁻¹' {1} := by
    ext e
    show (∀ r, sampleDeformed fuel R a b2 b4 rmax dm x0 ns ⟨e, d⟩ ≠ .ok r) ↔ manyVal L 1 (fun _ _ => 0) ns.length (draw2 E D e).2 = 1
    have hw : (drawTiltSpin (F := ℝ) (⟨e, d⟩ : Rand E D)).2 = ⟨(draw2 E D e).2, d⟩ := rfl
    unfold sampleDeformed manyVal
    dsimp only
    rw [drawDeformed_many, hw]
    dsimp only
    rw [← hLdef]
    cases rejMany L ns.length (draw2 E D e).2 with
    | none => simp
    | some s => simp
  rw [hset, ← lintegral_indicator_one (hm (measurableSet_singleton 1))]
  have e1 : ∀ e, ((fun e => manyVal L 1 (fun _ _ => 0) ns.length (draw2 E D e).2) ⁻¹' {1}).indicator 1 e =
      manyVal L 1 (fun _ _ => 0) ns.length (draw2 E D e).2 := by
    intro e
    simp only [manyVal, indicator, mem_preimage, mem_singleton_iff]
    cases rejMany L ns.length (draw2 E D e).2 <;> simp
  rw [lintegral_congr e1]
  have hm2 : Measurable fun t : (ℝ × ℝ) × E => manyVal L 1 (fun _ _ => 0) ns.length t.2 :=
    manyVal_meas hL ns.length (Y := (ℝ × ℝ) × E) (K := fun _ _ _ => 0) (fun Z _ g l e hg hl he => measurable_const) measurable_snd
  rw [(isDraw_draw2 h).law _ hm2]
  simp only [lintegral_const, measure_univ, mul_one]
  exact manyVal_fail hL hq ns.length

/-- Parameters for which a nucleus can be sampled: two different inverse lengths for the deuteron, at least one configuration in the file. -/
def Spec.Samplable : Kind ℝ → Prop
  | .deuteron a b => 0 < a ∧ a < b
  | .manual configs _ => configs ≠ []
  | _ => True

/-- **C86, tail.** The probability that a nucleus is not sampled within `fuel` rejections is at most `A q^fuel` with `q < 1` (`A` nucleons). -/
theorem C86_tail [LawfulRng E D] (h : IdealSource E D μ) (nuc : Nucleus ℝ) (hh : NucleusHistory E D nuc) (hs : Samplable nuc.kind) :
    ∃ q : ℝ≥0∞, q < 1 ∧ ∀ (fuel : ℕ) (b : ℝ) (d : D),
      μ {e | ∀ r, nuc.sampleNucleons fuel b ⟨e, d⟩ ≠ .ok r} ≤ nuc.nucleons.length * q ^ fuel := by
  have hw := hh.wf
  unfold Nucleus.WF at hw
  have hp := h.prob
  have key : ∀ (fuel : ℕ) (b : ℝ) (d : D) (S : E → Res (List (NucleonData ℝ) × Rand E D)),
      (∀ e, nuc.sampleNucleons fuel b ⟨e, d⟩ = match S e with
        | .error e => .error e
        | .ok (ns, w) => .ok ({ nuc with nucleons := ns, offset := b }, w)) →
      {e | ∀ r, nuc.sampleNucleons fuel b ⟨e, d⟩ ≠ .ok r} = {e | ∀ r, S e ≠ .ok r} := by
    intro fuel b d S hS
    ext e
    show (∀ r, nuc.sampleNucleons fuel b ⟨e, d⟩ ≠ .ok r) ↔ (∀ r, S e ≠ .ok r)
    rw [hS e]
    cases S e with
    | error er => simp
    | ok r => simp
  cases hk : nuc.kind with
  | proton =>
    refine ⟨0, by simp, fun fuel b d => ?_⟩
    have : {e : E | ∀ r, nuc.sampleNucleons fuel b ⟨e, d⟩ ≠ .ok r} = ∅ := by
      rw [key fuel b d (fun e => .ok (sampleProton b nuc.nucleons, ⟨e, d⟩)) (fun e => by simp only [Nucleus.sampleNucleons, hk])]
      simp
    rw [this]; simp
  | deuteron a b' =>
    rw [hk] at hw hs
    refine ⟨deuteronQ a b', deuteronQ_lt hs.1 hs.2, fun fuel b d => ?_⟩
    rw [key fuel b d (fun e => sampleDeuteron fuel a b' b nuc.nucleons ⟨e, d⟩)
      (fun e => by simp only [Nucleus.sampleNucleons, hk]; cases sampleDeuteron fuel a b' b nuc.nucleons ⟨e, d⟩ <;> rfl),
      deuteron_tail h a b' b fuel nuc.nucleons hw d]
    have h2 : (1:ℝ≥0∞) ≤ nuc.nucleons.length := by
      have : nuc.nucleons.length = 2 := hw
      rw [this]; norm_num
    calc deuteronQ a b' ^ fuel = 1 * deuteronQ a b' ^ fuel := (one_mul _).symm
      _ ≤ _ := by gcongr
  | woodsSaxon R a dm =>
    refine ⟨0, by simp, fun fuel b d => ?_⟩
    have : {e : E | ∀ r, nuc.sampleNucleons fuel b ⟨e, d⟩ ≠ .ok r} = ∅ := by
      rw [key fuel b d (fun e => .ok (sampleWS R a dm b nuc.nucleons ⟨e, d⟩)) (fun e => by simp only [Nucleus.sampleNucleons, hk])]
      simp
    rw [this]; simp
  | deformed R a b2 b4 rmax dm =>
    refine ⟨deformedQ R a b2 b4 rmax, deformedQ_lt R a b2 b4 rmax, fun fuel b d => ?_⟩
    rw [key fuel b d (fun e => sampleDeformed fuel R a b2 b4 rmax dm b nuc.nucleons ⟨e, d⟩)
      (fun e => by simp only [Nucleus.sampleNucleons, hk]; cases sampleDeformed fuel R a b2 b4 rmax dm b nuc.nucleons ⟨e, d⟩ <;> rfl)]
    exact deformed_tail h R a b2 b4 rmax dm b fuel nuc.nucleons d
  | manual configs rmax =>
    rw [hk] at hs
    refine ⟨0, by simp, fun fuel b d => ?_⟩
    have : {e : E | ∀ r, nuc.sampleNucleons fuel b ⟨e, d⟩ ≠ .ok r} = ∅ := by
      ext e
      simp only [mem_empty_iff_false, iff_false]
      intro hno
      obtain ⟨r, hr⟩ := C16_manual_total configs hs rmax nuc hh hk fuel b (⟨e, d⟩ : Rand E D)
      exact hno r hr
    rw [this]; simp

/-- **C86.** Sampling a nucleus ends with probability one: almost every state of the engine allows some finite number of rejections after which
the nucleus is complete. -/
theorem C86_almost_surely [LawfulRng E D] (h : IdealSource E D μ) (nuc : Nucleus ℝ) (hh : NucleusHistory E D nuc) (hs : Samplable nuc.kind)
    (b : ℝ) (d : D) : ∀ᵐ e ∂μ, ∃ (fuel : ℕ) (r : Nucleus ℝ × Rand E D), nuc.sampleNucleons fuel b ⟨e, d⟩ = .ok r := by
  obtain ⟨q, hq, ht⟩ := C86_tail h nuc hh hs
  rw [ae_iff]
  have hsub : ∀ fuel, μ {e | ¬ ∃ (fuel : ℕ) (r : Nucleus ℝ × Rand E D), nuc.sampleNucleons fuel b ⟨e, d⟩ = .ok r} ≤
      nuc.nucleons.length * q ^ fuel := by
    intro fuel
    refine (measure_mono ?_).trans (ht fuel b d)
    intro e he r hr
    exact he ⟨fuel, r, hr⟩
  have hlim : Tendsto (fun fuel => (nuc.nucleons.length : ℝ≥0∞) * q ^ fuel) atTop (𝓝 0) := by
    have := ENNReal.Tendsto.const_mul (ENNReal.tendsto_pow_atTop_nhds_zero_of_lt_one hq) (b := 0) (a := (nuc.nucleons.length : ℝ≥0∞))
      (Or.inr (ENNReal.natCast_ne_top _))
    simpa using this
  exact le_antisymm (ge_of_tendsto' hlim hsub) bot_le

omit [MeasurableSpace E] in
/-- The nuclei of the program: every species other than a file of configurations, and every file with at least one configuration, is samplable. -/
theorem history_samplable {nuc : Nucleus ℝ} (hh : NucleusHistory E D nuc) (hm : ∀ configs rmax, nuc.kind = .manual configs rmax → configs ≠ []) :
    Samplable nuc.kind := by
  have key : ∀ a b, nuc.kind = .deuteron a b → 0 < a ∧ a < b := by
    clear hm
    induction hh with
    | create hdf5 disk species dmin nuc hc =>
      intro a b hk
      rcases createNucleus_cases hc with rfl | ⟨-, rfl⟩ | ⟨A, R, a', -, -, rfl⟩ | ⟨A, R, a', b2, b4, -, -, rfl⟩ | ⟨cf, rm, A, -, rfl⟩
      · cases hk
      · simp only [mkDeuteron, Nucleus.ofKind, Kind.deuteron.injEq] at hk
        rw [← hk.1, ← hk.2, lit_real, lit_real]
        norm_num
      · cases hk
      · cases hk
      · cases hk
    | sample fuel nuc nuc' b w w' hh hs ih =>
      intro a' b' hk
      exact ih a' b' (by rw [← hk, (sampleNucleons_reset hh.wf hs).1])
    | collide nuc ns _ _ ih => exact ih
  cases hk : nuc.kind with
  | deuteron a b => exact key a b hk
  | manual configs rmax => exact hm configs rmax hk
  | _ => trivial

/-- **C86, every documented nucleus.** A nucleus of any of the built-in species is complete after finitely many rejections, with probability one. -/
theorem C86_documented [LawfulRng E D] (h : IdealSource E D μ) (hdf5 : Bool) (disk : String → H5View ℝ) (species : String) (dmin : ℝ)
    (hs : species ∈ speciesTable.map Prod.fst) (nuc : Nucleus ℝ) (hc : createNucleus hdf5 disk species dmin = .ok nuc) (b : ℝ) (d : D) :
    ∀ᵐ e ∂μ, ∃ (fuel : ℕ) (r : Nucleus ℝ × Rand E D), nuc.sampleNucleons fuel b ⟨e, d⟩ = .ok r := by
  refine C86_almost_surely h nuc (.create hdf5 disk species dmin nuc hc) (history_samplable (E := E) (D := D) (.create hdf5 disk species dmin nuc hc) ?_) b d
  intro configs rmax hk
  exfalso
  simp only [speciesTable, List.map_cons, List.map_nil, List.mem_cons, List.not_mem_nil, or_false] at hs
  rcases hs with rfl | rfl | rfl | rfl | rfl | rfl | rfl | rfl | rfl | rfl | rfl | rfl <;>
    (injection hc with hc; subst hc; cases hk)

/-- The hypotheses are met: independent uniform numbers; a deuteron, a uranium nucleus and a file with one configuration. -/
example (b : ℝ) : ∀ᵐ e ∂idealTape, ∃ (fuel : ℕ) (r : Nucleus ℝ × Rand Tape Unit),
    (mkDeuteron (lit 0.457) (lit 2.35) : Nucleus ℝ).sampleNucleons fuel b ⟨e, ()⟩ = .ok r :=
  C86_documented idealTape_ideal false (fun _ => .missing) "d" 0 (by simp [speciesTable]) _ rfl b ()

example (b : ℝ) : ∀ᵐ e ∂idealTape, ∃ (fuel : ℕ) (r : Nucleus ℝ × Rand Tape Unit),
    (mkDeformed 238 (lit 6.81) (lit 0.600) (lit 0.280) (lit 0.093) (1/2) : Nucleus ℝ).sampleNucleons fuel b ⟨e, ()⟩ = .ok r :=
  C86_documented idealTape_ideal false (fun _ => .missing) "U" (1/2) (by simp [speciesTable]) _ rfl b ()

/-- C85 for uranium with independent uniform numbers: a quarter turn about the x axis does not change the law. -/
example (f : (ℕ → Fin 3 → ℝ) → ℝ≥0∞) (hf : Measurable f) (fuel : ℕ) (b : ℝ) (nuc : Nucleus ℝ)
    (hc : createNucleus false (fun _ => .missing) "U" (1/2) = .ok nuc) :
    ∫⁻ e : Tape, ifOk (nuc.sampleNucleons fuel b (⟨e, ()⟩ : Rand Tape Unit))
        (fun r => f (fun i => (!![1, 0, 0; 0, 0, -1; 0, 1, 0] : Matrix (Fin 3) (Fin 3) ℝ).mulVec (config b r.1.nucleons i))) ∂idealTape =
      ∫⁻ e : Tape, ifOk (nuc.sampleNucleons fuel b (⟨e, ()⟩ : Rand Tape Unit)) (fun r => f (config b r.1.nucleons)) ∂idealTape := by
  refine C85_isotropic idealTape_ideal nuc (.create false (fun _ => .missing) "U" (1/2) _ hc) fuel b () (!![1, 0, 0; 0, 0, -1; 0, 1, 0] : Matrix (Fin 3) (Fin 3) ℝ) ?_ f hf
  rw [Matrix.mem_specialOrthogonalGroup_iff, Matrix.mem_orthogonalGroup_iff]
  constructor
  · ext i j
    fin_cases i <;> fin_cases j <;> simp [Matrix.mul_apply, Fin.sum_univ_three, Matrix.star_eq_conjTranspose]
  · simp [Matrix.det_fin_three]

end Trento
