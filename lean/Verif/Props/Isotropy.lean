import Verif.Lemmas.Body

/-!
# C85: no preferred direction

With an ideal source of random numbers, the joint law of the positions of the nucleons of a nucleus, relative to its centre, is invariant under
every rotation.
-/

namespace Trento
open MeasureTheory Set Real Spec
open scoped ENNReal Classical

local notation "SO3" => Matrix.specialOrthogonalGroup (Fin 3) ℝ

variable {E D : Type} [Rng ℝ E D] [MeasurableSpace E] {μ : Measure E}

/-- The positions of the nucleons relative to the centre `(b, 0, 0)` of the nucleus, as a function of the index (0 past the end). -/
noncomputable def Spec.config (b : ℝ) (ns : List (NucleonData ℝ)) : ℕ → Fin 3 → ℝ := fun i => (ns.map (relPos b)).getD i 0

theorem config_eq (b : ℝ) (ns : List (NucleonData ℝ)) : config b ns = cfg (ns.map (relPos b)) := rfl

theorem IsDraw.isLoop {α : Type} [MeasurableSpace α] {T : E → α × E} {ν : Measure α} (h : IsDraw μ T ν) : IsLoop μ fun e => some (T e) := by
  constructor
  · intro Y _ c k hk e he
    exact hk.comp (measurable_id.prodMk (h.meas.comp he))
  · intro c k1 k2 h1 h2 hk
    have e1 := h.law _ h1
    have e2 := h.law _ h2
    simp only [hk] at e1
    exact e1.trans e2.symm

theorem IsDraw.rejIsLoop {α : Type} [MeasurableSpace α] {T : E → α × E} {ν : Measure α} (h : IsDraw μ T ν) {acc : Set α} (ha : MeasurableSet acc)
    (n : ℕ) : IsLoop μ (rejLoop T acc n) := by
  constructor
  · intro Y _ c k hk e he
    exact rejLoop_meas h ha measurable_const hk n he
  · intro c k1 k2 h1 h2 hk
    exact rejLoop_congr h ha h1 h2 hk n

/-- a loop followed by a measurable relabelling -/
theorem IsLoop.map {α β : Type} [MeasurableSpace α] [MeasurableSpace β] {L : E → Option (α × E)} (h : IsLoop μ L)
    {g : α → β} (hg : Measurable g) : IsLoop μ fun e => (L e).map fun t => (g t.1, t.2) := by
  have hel : ∀ (c : ℝ≥0∞) (k : β × E → ℝ≥0∞) e, ((L e).map fun t => (g t.1, t.2)).elim c k = (L e).elim c fun t => k (g t.1, t.2) := by
    intro c k e
    cases L e <;> rfl
  have hgE : Measurable fun t : α × E => (g t.1, t.2) := (hg.comp measurable_fst).prodMk measurable_snd
  constructor
  · intro Y _ c k hk e he
    simp only [hel]
    refine h.meas (k := fun y t => k y (g t.1, t.2)) ?_ he
    exact hk.comp (measurable_fst.prodMk (hgE.comp measurable_snd))
  · intro c k1 k2 h1 h2 hk
    simp only [hel]
    exact h.congr (h1.comp hgE) (h2.comp hgE) (fun a => hk (g a))

/-! ### Spherical nuclei -/

/-- one radius -/
noncomputable def radDraw (t : List (ℝ × ℝ)) (d : D) (e : E) : ℝ × E := ((Rng.piecewiseLinear t d e).1, (Rng.piecewiseLinear t d e).2.2)

theorem Spec.IdealSource.isDraw_rad (h : IdealSource E D μ) (t : List (ℝ × ℝ)) (d : D) : ∃ ν, IsDraw μ (radDraw t d) ν := by
  obtain ⟨ν, hν, hl⟩ := h.radius_lintegral t d
  exact ⟨ν, hν, h.radius_meas t d, hl⟩

theorem drawRadii_many (h : IdealSource E D μ) (R a : ℝ) (k : ℕ) (w : Rand E D) :
    rejMany (fun e => some (radDraw (woodsSaxonTable R a) w.dist e)) k w.eng =
      some ((drawRadii R a k w).1, (drawRadii R a k w).2.eng) ∧ (drawRadii R a k w).2.dist = w.dist := by
  induction k generalizing w with
  | zero => exact ⟨rfl, rfl⟩
  | succ k ih =>
    have hw : (drawPiecewiseLinear (F := ℝ) (woodsSaxonTable R a) w).2 = ⟨(radDraw (woodsSaxonTable R a) w.dist w.eng).2, w.dist⟩ := by
      have hd := h.radius_state (woodsSaxonTable R a) w.dist w.eng
      show (⟨(Rng.piecewiseLinear (woodsSaxonTable R a) w.dist w.eng).2.2, (Rng.piecewiseLinear (woodsSaxonTable R a) w.dist w.eng).2.1⟩ : Rand E D) = _
      rw [hd]
      rfl
    rw [rejMany, drawRadii]
    simp only [hw]
    obtain ⟨h1, h2⟩ := ih ⟨(radDraw (woodsSaxonTable R a) w.dist w.eng).2, w.dist⟩
    simp only at h1 h2
    simp only [Option.elim, h1]
    exact ⟨rfl, h2⟩

theorem ws_isotropic (h : IdealSource E D μ) (R a dm b : ℝ) (ns : List (NucleonData ℝ)) (d : D) {Q : Matrix (Fin 3) (Fin 3) ℝ} (hQ : Q ∈ SO3)
    {f : (ℕ → Fin 3 → ℝ) → ℝ≥0∞} (hf : Measurable f) :
    ∫⁻ e : E, f (fun i => Q.mulVec (config b (sampleWS R a dm b ns ⟨e, d⟩).1 i)) ∂μ =
      ∫⁻ e : E, f (config b (sampleWS R a dm b ns ⟨e, d⟩).1) ∂μ := by
  obtain ⟨ν, hν⟩ := h.isDraw_rad (woodsSaxonTable R a) d
  have hval : ∀ (K : (ℕ → Fin 3 → ℝ) → ℝ≥0∞) (e : E), K (config b (sampleWS R a dm b ns ⟨e, d⟩).1) =
      manyVal (fun e => some (radDraw (woodsSaxonTable R a) d e)) 0 (fun l e => K (cfg (placeAllP E D dm [] (sortBy id l) e).1)) ns.length e := by
    intro K e
    obtain ⟨h1, h2⟩ := drawRadii_many h R a ns.length ⟨e, d⟩
    unfold manyVal
    rw [h1]
    simp only [Option.elim]
    rw [config_eq, sampleWS]
    dsimp only
    rw [placeAllWS_P, List.map_nil]
    rw [(sortBy_perm (F := ℝ) id _).length_eq, drawRadii_length]
  have hm : ∀ {K : (ℕ → Fin 3 → ℝ) → ℝ≥0∞}, Measurable K →
      MeasK fun (_ : Unit) (l : List ℝ) (e : E) => K (cfg (placeAllP E D dm [] (sortBy id l) e).1) := by
    intro K hK Z _ g l e hg hl he
    exact hK.comp (cfg_meas (placeAllP_meas h dm (MeasL.const []) (hl.sortBy measurable_id) he))
  rw [lintegral_congr (hval f), lintegral_congr (hval fun c => f (fun i => Q.mulVec (c i)))]
  refine manyVal_congr hν.isLoop _ (hm (hf.comp (rot_meas Q))) (hm hf) ?_
  intro l
  exact (placeAllP_rot h dm [] (sortBy id l) hQ hf).symm

/-! ### The deuteron -/

/-- the accepted proposals of the deuteron -/
def deuteronAcc (a b : ℝ) : Set (ℝ × ℝ) := {u | ¬ deuteronProb a b u.1 (deuteronRadius a u.1) < u.2}

theorem deuteronAcc_meas (a b : ℝ) : MeasurableSet (deuteronAcc a b) := by
  have h1 : Measurable fun u : ℝ × ℝ => deuteronRadius a u.1 := by
    simp only [deuteronRadius, log_real, lit_real]
    fun_prop
  have h2 : Measurable fun u : ℝ × ℝ => deuteronProb a b u.1 (deuteronRadius a u.1) := by
    simp only [deuteronProb, exp_real, pow_real, lit_real]
    exact (((measurable_exp.comp (h1.const_mul _)).sub (measurable_exp.comp (h1.const_mul _))).pow_const _).div measurable_fst
  exact (measurableSet_lt h2 measurable_snd).compl

omit [MeasurableSpace E] in
theorem deuteronLoop_rej (a b : ℝ) (fuel : ℕ) (w : Rand E D) :
    deuteronLoop a b fuel w = match rejLoop (draw2 E D) (deuteronAcc a b) fuel w.eng with
      | none => .error .fuel
      | some t => .ok (deuteronRadius a t.1.1, ⟨t.2, w.dist⟩) := by
  induction fuel generalizing w with
  | zero => rfl
  | succ fuel ih =>
    rw [deuteronLoop, rejLoop]
    dsimp only
    by_cases hc : (draw2 E D w.eng).1 ∈ deuteronAcc a b
    · have hc' : ¬ (deuteronProb a b (canonical (F := ℝ) w).1 (deuteronRadius a (canonical (F := ℝ) w).1) <
          (canonical (F := ℝ) (canonical (F := ℝ) w).2).1) := hc
      simp only [lt_real, hc', decide_false, hc, if_true]
      rfl
    · have hc' : (deuteronProb a b (canonical (F := ℝ) w).1 (deuteronRadius a (canonical (F := ℝ) w).1) <
          (canonical (F := ℝ) (canonical (F := ℝ) w).2).1) := by
        by_contra h; exact hc h
      simp only [lt_real, hc', decide_true, hc, if_true, if_false]
      exact ih _

theorem isDraw_draw2 (h : IdealSource E D μ) : IsDraw μ (draw2 E D) (unif.prod unif) := by
  have := h.prob
  exact h.isDraw_can.pair h.isDraw_can

theorem deuteron_isotropic (h : IdealSource E D μ) (a b x0 : ℝ) (fuel : ℕ) (ns : List (NucleonData ℝ)) (hl : ns.length = 2) (d : D)
    {Q : Matrix (Fin 3) (Fin 3) ℝ} (hQ : Q ∈ SO3) {f : (ℕ → Fin 3 → ℝ) → ℝ≥0∞} (hf : Measurable f) :
    ∫⁻ e : E, (match sampleDeuteron fuel a b x0 ns ⟨e, d⟩ with
      | .ok r => f (fun i => Q.mulVec (config x0 r.1 i)) | .error _ => 0) ∂μ =
    ∫⁻ e : E, (match sampleDeuteron fuel a b x0 ns ⟨e, d⟩ with | .ok r => f (config x0 r.1) | .error _ => 0) ∂μ := by
  have hp := h.prob
  obtain ⟨n1, n2, rfl⟩ : ∃ n1 n2, ns = [n1, n2] := by
    match ns, hl with
    | [n1, n2], _ => exact ⟨n1, n2, rfl⟩
  have hval : ∀ (K : (ℕ → Fin 3 → ℝ) → ℝ≥0∞) (e : E),
      (match sampleDeuteron fuel a b x0 [n1, n2] ⟨e, d⟩ with | .ok r => K (config x0 r.1) | .error _ => 0) =
      (rejLoop (draw2 E D) (deuteronAcc a b) fuel e).elim 0 fun t =>
        K (cfg [dirP (deuteronRadius a t.1.1) (draw2 E D t.2).1, -dirP (deuteronRadius a t.1.1) (draw2 E D t.2).1]) := by
    intro K e
    unfold sampleDeuteron
    rw [deuteronLoop_rej]
    dsimp only
    cases rejLoop (draw2 E D) (deuteronAcc a b) fuel e with
    | none => rfl
    | some t =>
      simp only [Option.elim]
      have e1 : (cosTheta (F := ℝ) (⟨t.2, d⟩ : Rand E D)).1 = 2 * (draw2 E D t.2).1.1 - 1 := by
        simp [cosTheta, canonical, draw2, can]
      have e2 : (phi (F := ℝ) (cosTheta (F := ℝ) (⟨t.2, d⟩ : Rand E D)).2).1 = 2 * π * (draw2 E D t.2).1.2 := by
        simp [phi, cosTheta, canonical, draw2, can]
      rw [config_eq, e1, e2]
      simp only [List.map_cons, List.map_nil]
      have hneg : ∀ p : V3, relPos x0 (setNucleonPosition x0 n2 (-p.1) (-p.2.1) (-p.2.2)) = -vec p := by
        intro p
        have := relPos_set x0 n2 (-p.1, -p.2.1, -p.2.2)
        rw [this]
        ext i; fin_cases i <;> simp [vec]
      rw [relPos_set, hneg]
      rfl
  rw [lintegral_congr (hval f), lintegral_congr (hval fun c => f (fun i => Q.mulVec (c i)))]
  have hpairm : Measurable fun v : P3 => cfg [v, -v] := by
    refine cfg_meas (L := fun v : P3 => [v, -v]) ?_
    exact ((MeasL.const []).cons measurable_neg).cons measurable_id
  have hrad : Measurable fun u : ℝ => deuteronRadius a u := by
    simp only [deuteronRadius, log_real, lit_real]; fun_prop
  have hvm : Measurable fun t : (ℝ × ℝ) × E => dirP (deuteronRadius a t.1.1) (draw2 E D t.2).1 :=
    dirP_meas (hrad.comp (measurable_fst.comp measurable_fst)) (measurable_fst.comp (h.draw2_meas.comp measurable_snd))
  refine rejLoop_congr (isDraw_draw2 h) (deuteronAcc_meas a b) (((hf.comp (rot_meas Q)).comp hpairm).comp hvm) ((hf.comp hpairm).comp hvm) ?_ fuel
  rintro ⟨u1, u2⟩
  set r := deuteronRadius a u1
  have hvecm : Measurable fun n : V3 => r • vec n := vec_meas.const_smul r
  have hdir : ∀ K : (ℕ → Fin 3 → ℝ) → ℝ≥0∞, Measurable K →
      ∫⁻ e, K (cfg [dirP r (draw2 E D e).1, -dirP r (draw2 E D e).1]) ∂μ =
      sphereConst * sphereInt fun n => K (cfg [r • vec n, -(r • vec n)]) := by
    intro K hK
    have := h.dir_lintegral (k := fun t => K (cfg [r • vec t.1, -(r • vec t.1)])) (((hK.comp hpairm).comp hvecm).comp measurable_fst)
    simp only [lintegral_const, measure_univ, mul_one] at this
    simp only [dirP_eq]
    exact this
  refine (hdir _ (hf.comp (rot_meas Q))).trans (Eq.trans ?_ (hdir _ hf).symm)
  refine congrArg (sphereConst * ·) (Eq.trans ?_ (sphereInt_act (isRotation_of_mem hQ) ((hf.comp hpairm).comp hvecm)))
  unfold sphereInt
  refine lintegral_congr fun φ => lintegral_congr fun c => ?_
  generalize dir c φ = n
  show f (fun i => Q.mulVec (cfg [r • vec n, -(r • vec n)] i)) = f (cfg [r • vec (act Q n), -(r • vec (act Q n))])
  rw [← cfg_rot]
  simp only [List.map_cons, List.map_nil, Matrix.mulVec_neg]
  rw [vec_act, Matrix.mulVec_smul]

/-! ### Deformed nuclei -/

/-- a function of a rotation as a function of its columns -/
theorem eulerInt_cols {B : Matrix (Fin 3) (Fin 3) ℝ → ℝ≥0∞} (hB : Measurable fun c : Fin 3 → Fin 3 → ℝ => B (Matrix.of fun i j => c j i))
    {Q : Matrix (Fin 3) (Fin 3) ℝ} (hQ : Q ∈ SO3) : eulerInt (fun M => B (Q * M)) = eulerInt B := by
  have := eulerInt_act (fun j : Fin 3 => Pi.single (M := fun _ => ℝ) j 1) hB hQ
  have e : ∀ M : Matrix (Fin 3) (Fin 3) ℝ, (Matrix.of fun i j => conf (fun j : Fin 3 => Pi.single (M := fun _ => ℝ) j 1) M j i) = M := by
    intro M
    ext i j
    simp [conf]
  simpa only [e] using this

/-- three canonical numbers in a row -/
noncomputable def draw3 (E D : Type) [Rng ℝ E D] (e : E) : (ℝ × (ℝ × ℝ)) × E := pairDraw (can E D) (draw2 E D) e

theorem isDraw_draw3 (h : IdealSource E D μ) : IsDraw μ (draw3 E D) (unif.prod (unif.prod unif)) := by
  have := h.prob
  exact h.isDraw_can.pair (isDraw_draw2 h)

/-- the sample `(r, cos θ)` of three canonical numbers -/
noncomputable def defSample (rmax : ℝ) (u : ℝ × (ℝ × ℝ)) : ℝ × ℝ := (rmax * cbrt u.1, 2 * u.2.1 - 1)

/-- the accepted proposals of the deformed nucleus -/
def deformedAcc (R a b2 b4 rmax : ℝ) : Set (ℝ × (ℝ × ℝ)) :=
  {u | ¬ deformedDist R a b2 b4 (defSample rmax u).1 (defSample rmax u).2 < u.2.2}

theorem cbrt_meas : Measurable (cbrt : ℝ → ℝ) := by
  have : (cbrt : ℝ → ℝ) = fun x => if 0 ≤ x then x ^ ((1:ℝ)/3) else -((-x) ^ ((1:ℝ)/3)) := by
    funext x
    show (if 0 ≤ x then x ^ ((1:ℝ)/3) else -((-x) ^ ((1:ℝ)/3))) = _
    congr
  rw [this]
  exact Measurable.ite (measurableSet_le measurable_const measurable_id) (measurable_id.pow_const _) ((measurable_neg.pow_const _).neg)

theorem defSample_meas (rmax : ℝ) : Measurable (defSample rmax) :=
  ((cbrt_meas.comp measurable_fst).const_mul _).prodMk (((measurable_fst.comp measurable_snd).const_mul _).sub_const _)

theorem deformedAcc_meas (R a b2 b4 rmax : ℝ) : MeasurableSet (deformedAcc R a b2 b4 rmax) := by
  have h1 : Measurable fun p : ℝ × ℝ => deformedDist R a b2 b4 p.1 p.2 := by
    simp only [deformedDist, exp_real, lit_real, sqrt_real]
    fun_prop
  exact (measurableSet_lt (h1.comp (defSample_meas rmax)) (measurable_snd.comp measurable_snd)).compl

omit [MeasurableSpace E] in
theorem deformedReject_rej (R a b2 b4 rmax : ℝ) (fuel : ℕ) (w : Rand E D) :
    deformedReject R a b2 b4 rmax fuel w = match rejLoop (draw3 E D) (deformedAcc R a b2 b4 rmax) fuel w.eng with
      | none => .error .fuel
      | some t => .ok (defSample rmax t.1, ⟨t.2, w.dist⟩) := by
  induction fuel generalizing w with
  | zero => rfl
  | succ fuel ih =>
    have e2 : (cosTheta (F := ℝ) (canonical (F := ℝ) w).2).1 = 2 * (draw3 E D w.eng).1.2.1 - 1 := by
      simp [cosTheta, canonical, draw3, pairDraw, draw2, can]
    have e1 : rmax * cbrt (canonical (F := ℝ) w).1 = (defSample rmax (draw3 E D w.eng).1).1 := rfl
    rw [deformedReject, rejLoop]
    dsimp only
    rw [e1, e2]
    by_cases hc : (draw3 E D w.eng).1 ∈ deformedAcc R a b2 b4 rmax
    · have hc' : ¬ (deformedDist R a b2 b4 (defSample rmax (draw3 E D w.eng).1).1 (2 * (draw3 E D w.eng).1.2.1 - 1) <
          (canonical (F := ℝ) (cosTheta (F := ℝ) (canonical (F := ℝ) w).2).2).1) := hc
      simp only [lt_real, hc', decide_false, hc, if_true]
      rfl
    · have hc' : (deformedDist R a b2 b4 (defSample rmax (draw3 E D w.eng).1).1 (2 * (draw3 E D w.eng).1.2.1 - 1) <
          (canonical (F := ℝ) (cosTheta (F := ℝ) (canonical (F := ℝ) w).2).2).1) := by
        by_contra h; exact hc h
      simp only [lt_real, hc', decide_true, hc, if_true, if_false]
      exact ih _

/-- the rejection loop with its sample -/
noncomputable def defLoop (E D : Type) [Rng ℝ E D] (R a b2 b4 rmax : ℝ) (fuel : ℕ) (e : E) : Option ((ℝ × ℝ) × E) :=
  (rejLoop (draw3 E D) (deformedAcc R a b2 b4 rmax) fuel e).map fun t => (defSample rmax t.1, t.2)

omit [MeasurableSpace E] in
theorem drawDeformed_many (R a b2 b4 rmax : ℝ) (fuel k : ℕ) (w : Rand E D) :
    drawDeformed fuel R a b2 b4 rmax k w = match rejMany (defLoop E D R a b2 b4 rmax fuel) k w.eng with
      | none => .error .fuel
      | some s => .ok (s.1, ⟨s.2, w.dist⟩) := by
  induction k generalizing w with
  | zero => rfl
  | succ k ih =>
    rw [drawDeformed, rejMany, deformedReject_rej, defLoop]
    cases rejLoop (draw3 E D) (deformedAcc R a b2 b4 rmax) fuel w.eng with
    | none => rfl
    | some t =>
      simp only [Option.map_some, Option.elim]
      rw [ih]
      cases rejMany (defLoop E D R a b2 b4 rmax fuel) k t.2 <;> rfl

omit [MeasurableSpace E] in
theorem rejMany_length {α : Type} (L : E → Option (α × E)) (k : ℕ) (e : E) (s : List α × E) (h : rejMany L k e = some s) : s.1.length = k := by
  induction k generalizing e s with
  | zero => simp [rejMany] at h; rw [← h]; rfl
  | succ k ih =>
    rw [rejMany] at h
    cases hL : L e with
    | none => rw [hL] at h; cases h
    | some t =>
      rw [hL] at h
      simp only [Option.elim] at h
      cases hr : rejMany L k t.2 with
      | none => rw [hr] at h; cases h
      | some s' =>
        rw [hr] at h
        cases h
        simp [ih _ _ hr]

theorem deformed_isotropic [LawfulRng E D] (h : IdealSource E D μ) (R a b2 b4 rmax dm x0 : ℝ) (fuel : ℕ) (ns : List (NucleonData ℝ)) (d : D)
    {Q : Matrix (Fin 3) (Fin 3) ℝ} (hQ : Q ∈ SO3) {f : (ℕ → Fin 3 → ℝ) → ℝ≥0∞} (hf : Measurable f) :
    ∫⁻ e : E, (match sampleDeformed fuel R a b2 b4 rmax dm x0 ns ⟨e, d⟩ with
      | .ok r => f (fun i => Q.mulVec (config x0 r.1 i)) | .error _ => 0) ∂μ =
    ∫⁻ e : E, (match sampleDeformed fuel R a b2 b4 rmax dm x0 ns ⟨e, d⟩ with | .ok r => f (config x0 r.1) | .error _ => 0) ∂μ := by
  have hp := h.prob
  set L := defLoop E D R a b2 b4 rmax fuel with hLdef
  have hL : IsLoop μ L := ((isDraw_draw3 h).rejIsLoop (deformedAcc_meas R a b2 b4 rmax) fuel).map (defSample_meas rmax)
  -- the value for a given orientation
  set V : Matrix (Fin 3) (Fin 3) ℝ → E → ℝ≥0∞ := fun M e => manyVal L 0
    (fun l e => f (fun i => M.mulVec (cfg (placeAllDP E D dm [] (sortBy Prod.fst l) e).1 i))) ns.length e with hV
  set B : Matrix (Fin 3) (Fin 3) ℝ → ℝ≥0∞ := fun M => ∫⁻ e, V M e ∂μ with hB
  have hmK : ∀ {Y : Type} [MeasurableSpace Y] {M : Y → Matrix (Fin 3) (Fin 3) ℝ}, (∀ i j, Measurable fun y => M y i j) →
      MeasK fun (y : Y) (l : List (ℝ × ℝ)) (e : E) => f (fun i => (M y).mulVec (cfg (placeAllDP E D dm [] (sortBy Prod.fst l) e).1 i)) := by
    intro Y _ M hM Z _ g l e hg hl he
    have hc := cfg_meas (placeAllDP_meas h dm (MeasL.const []) (hl.sortBy measurable_fst) he)
    refine hf.comp (measurable_pi_iff.2 fun i => measurable_pi_iff.2 fun j => ?_)
    simp only [Matrix.mulVec, dotProduct, Fin.sum_univ_three]
    have h3 : ∀ k, Measurable fun z => cfg (placeAllDP E D dm [] (sortBy Prod.fst (l z)) (e z)).1 i k := fun k =>
      (measurable_pi_apply k).comp ((measurable_pi_apply i).comp hc)
    exact ((((hM _ _).comp hg).mul (h3 _)).add (((hM _ _).comp hg).mul (h3 _))).add (((hM _ _).comp hg).mul (h3 _))
  have hVm : ∀ {Y : Type} [MeasurableSpace Y] {M : Y → Matrix (Fin 3) (Fin 3) ℝ}, (∀ i j, Measurable fun y => M y i j) →
      Measurable fun t : Y × E => V (M t.1) t.2 := by
    intro Y _ M hM
    exact manyVal_meas hL ns.length (hmK (M := fun t : Y × E => M t.1) (fun i j => (hM i j).comp measurable_fst)) measurable_snd
  -- symmetry about the body axis
  have hsym : ∀ M γ, B (M * RZ γ) = B M := by
    intro M γ
    have hM : ∀ N : Matrix (Fin 3) (Fin 3) ℝ, MeasK fun (_ : Unit) (l : List (ℝ × ℝ)) (e : E) =>
        f (fun i => N.mulVec (cfg (placeAllDP E D dm [] (sortBy Prod.fst l) e).1 i)) :=
      fun N => hmK (Y := Unit) (M := fun _ => N) (fun i j => measurable_const)
    refine manyVal_congr hL ns.length (hM _) (hM _) ?_
    intro l
    have hfM : Measurable fun c : ℕ → P3 => f (fun i => M.mulVec (c i)) := hf.comp (rot_meas M)
    have := placeAllDP_rot h dm [] (sortBy Prod.fst l) γ hfM
    simp only [List.map_nil, Matrix.mulVec_mulVec] at this
    exact this.symm
  have hval : ∀ (N : Matrix (Fin 3) (Fin 3) ℝ) (e : E), (match sampleDeformed fuel R a b2 b4 rmax dm x0 ns ⟨e, d⟩ with
      | .ok r => f (fun i => N.mulVec (config x0 r.1 i)) | .error _ => 0) =
      V (N * (RZ (2 * π * (draw2 E D e).1.2) * RX (2 * (draw2 E D e).1.1 - 1))) (draw2 E D e).2 := by
    intro N e
    have ht : tsMat (drawTiltSpin (F := ℝ) (⟨e, d⟩ : Rand E D)).1 =
        RZ (2 * π * (draw2 E D e).1.2) * RX (2 * (draw2 E D e).1.1 - 1) := by
      simp [tsMat, drawTiltSpin, cosTheta, phi, canonical, draw2, can, RZ, RX, pow_two]
    have hR : tsMat (drawTiltSpin (F := ℝ) (⟨e, d⟩ : Rand E D)).1 ∈ SO3 := drawTiltSpin_rotation _
    have hw : (drawTiltSpin (F := ℝ) (⟨e, d⟩ : Rand E D)).2 = ⟨(draw2 E D e).2, d⟩ := rfl
    rw [hV]
    unfold sampleDeformed manyVal
    dsimp only
    rw [drawDeformed_many, hw]
    dsimp only
    rw [← hLdef]
    cases hs : rejMany L ns.length (draw2 E D e).2 with
    | none => rfl
    | some s =>
      simp only [Option.elim]
      have hlen : (sortBy Prod.fst s.1).length = ns.length := by
        rw [(sortBy_perm (F := ℝ) Prod.fst s.1).length_eq]; exact rejMany_length L _ _ _ hs
      have hpos := placeAllDef_P (E := E) (D := D) x0 dm (drawTiltSpin (F := ℝ) (⟨e, d⟩ : Rand E D)).1 hR [] [] rfl (sortBy Prod.fst s.1) ns
        ⟨s.2, d⟩ hlen
      rw [config_eq, hpos, cfg_rot, ht]
      simp only [Matrix.mulVec_mulVec]
  have hmat : ∀ N : Matrix (Fin 3) (Fin 3) ℝ, ∀ i j, Measurable fun t : ℝ × ℝ => (N * (RZ t.2 * RX t.1)) i j := fun N =>
    mul_meas (fun i j => measurable_const) (mul_meas (RZ_meas measurable_snd) (RX_meas measurable_fst))
  -- the integral over the two angles
  have hint : ∀ N : Matrix (Fin 3) (Fin 3) ℝ, ∫⁻ e, V (N * (RZ (2 * π * (draw2 E D e).1.2) * RX (2 * (draw2 E D e).1.1 - 1))) (draw2 E D e).2 ∂μ =
      sphereConst * ∫⁻ α in Ioo (-π) π, ∫⁻ c in Ioo (-1) 1, B (N * (RZ α * RX c)) := by
    intro N
    have hm : Measurable fun t : (ℝ × ℝ) × E => V (N * (RZ (2 * π * t.1.2) * RX (2 * t.1.1 - 1))) t.2 :=
      hVm (M := fun t : ℝ × ℝ => N * (RZ (2 * π * t.2) * RX (2 * t.1 - 1)))
        (mul_meas (fun i j => measurable_const) (mul_meas (RZ_meas (measurable_snd.const_mul _)) (RX_meas ((measurable_fst.const_mul _).sub_const _))))
    refine (h.draw2_lintegral hm).trans ?_
    rw [lintegral_cosU (fun c => ∫⁻ v in Ico (0:ℝ) 1, B (N * (RZ (2 * π * v) * RX c)))]
    have e2 : ∀ c, ∫⁻ v in Ico (0:ℝ) 1, B (N * (RZ (2 * π * v) * RX c)) = ENNReal.ofReal (1/(2*π)) * circ fun α => B (N * (RZ α * RX c)) := by
      intro c
      exact lintegral_phiU (k := fun α => B (N * (RZ α * RX c))) (fun φ => by simp only [RZ_periodic])
    simp only [e2]
    rw [lintegral_const_mul' _ _ ENNReal.ofReal_ne_top, ← mul_assoc]
    unfold sphereConst circ
    congr 1
    rw [lintegral_lintegral_swap]
    exact (Measurable.lintegral_prod_right' (hVm (hmat N))).aemeasurable
  have heul : ∀ N : Matrix (Fin 3) (Fin 3) ℝ, eulerInt (fun M => B (N * M)) =
      (∫⁻ α in Ioo (-π) π, ∫⁻ c in Ioo (-1) 1, B (N * (RZ α * RX c))) * ENNReal.ofReal (2*π) := by
    intro N
    unfold eulerInt
    have : ∀ α c γ, B (N * (RZ α * RX c * RZ γ)) = B (N * (RZ α * RX c)) := by
      intro α c γ; rw [← Matrix.mul_assoc, hsym]
    simp only [this, lintegral_const, Measure.restrict_apply MeasurableSet.univ, univ_inter, Real.volume_Ioo, sub_neg_eq_add, ← two_mul]
    simp only [lintegral_mul_const' _ _ ENNReal.ofReal_ne_top]
  have hcols : Measurable fun c : Fin 3 → Fin 3 → ℝ => B (Matrix.of fun i j => c j i) :=
    Measurable.lintegral_prod_right' (hVm (M := fun c : Fin 3 → Fin 3 → ℝ => Matrix.of fun i j => c j i)
      (fun i j => (measurable_pi_apply i).comp (measurable_pi_apply j)))
  have hrot := eulerInt_cols hcols hQ
  have hone := heul 1
  simp only [Matrix.one_mul] at hone
  rw [heul Q, hone, ENNReal.mul_left_inj (by simp [pi_pos]) ENNReal.ofReal_ne_top] at hrot
  have hv1 := hval 1
  simp only [Matrix.one_mulVec] at hv1
  rw [lintegral_congr (hval Q), lintegral_congr hv1, hint, hint, hrot]
  simp only [Matrix.one_mul]

/-! ### Nuclei read from a file -/

theorem cols_meas {B : Matrix (Fin 3) (Fin 3) ℝ → ℝ≥0∞} (hB : Measurable fun c : Fin 3 → Fin 3 → ℝ => B (Matrix.of fun i j => c j i))
    {Y : Type} [MeasurableSpace Y] {M : Y → Matrix (Fin 3) (Fin 3) ℝ} (hM : ∀ i j, Measurable fun y => M y i j) : Measurable fun y => B (M y) := by
  have h1 : Measurable fun y => (fun j i => M y i j : Fin 3 → Fin 3 → ℝ) := measurable_pi_iff.2 fun j => measurable_pi_iff.2 fun i => hM i j
  exact hB.comp h1

/-- the three angles of the manual nucleus, in the order in which they are drawn -/
theorem euler_lintegral {B : Matrix (Fin 3) (Fin 3) ℝ → ℝ≥0∞} (hB : Measurable fun c : Fin 3 → Fin 3 → ℝ => B (Matrix.of fun i j => c j i))
    (N : Matrix (Fin 3) (Fin 3) ℝ) :
    ∫⁻ t : ℝ × ℝ × ℝ, B (N * (RZ (2 * π * t.2.2) * RX (2 * t.2.1 - 1) * RZ (2 * π * t.1))) ∂(unif.prod (unif.prod unif)) =
      ENNReal.ofReal (1/(2*π)) * sphereConst * eulerInt (fun M => B (N * M)) := by
  have hBm : ∀ {Y : Type} [MeasurableSpace Y] {g c a : Y → ℝ}, Measurable g → Measurable c → Measurable a →
      Measurable fun y => B (N * (RZ (a y) * RX (c y) * RZ (g y))) := by
    intro Y _ g c a hg hc ha
    exact cols_meas hB (mul_meas (fun i j => measurable_const) (mul_meas (mul_meas (RZ_meas ha) (RX_meas hc)) (RZ_meas hg)))
  have hBu : Measurable fun t : ℝ × ℝ × ℝ => B (N * (RZ (2 * π * t.2.2) * RX (2 * t.2.1 - 1) * RZ (2 * π * t.1))) :=
    hBm (measurable_fst.const_mul _) (((measurable_fst.comp measurable_snd).const_mul _).sub_const _) ((measurable_snd.comp measurable_snd).const_mul _)
  rw [lintegral_prod _ hBu.aemeasurable]
  have e0 : ∀ u1 : ℝ, ∫⁻ t : ℝ × ℝ, B (N * (RZ (2 * π * t.2) * RX (2 * t.1 - 1) * RZ (2 * π * u1))) ∂(unif.prod unif) =
      sphereConst * ∫⁻ c in Ioo (-1) 1, ∫⁻ α in Ioo (-π) π, B (N * (RZ α * RX c * RZ (2 * π * u1))) := by
    intro u1
    have hm : Measurable fun t : ℝ × ℝ => B (N * (RZ (2 * π * t.2) * RX (2 * t.1 - 1) * RZ (2 * π * u1))) :=
      hBm measurable_const ((measurable_fst.const_mul _).sub_const _) (measurable_snd.const_mul _)
    rw [lintegral_prod _ hm.aemeasurable]
    unfold unif
    rw [lintegral_cosU (fun c => ∫⁻ v in Ico (0:ℝ) 1, B (N * (RZ (2 * π * v) * RX c * RZ (2 * π * u1))))]
    have e2 : ∀ c, ∫⁻ v in Ico (0:ℝ) 1, B (N * (RZ (2 * π * v) * RX c * RZ (2 * π * u1))) =
        ENNReal.ofReal (1/(2*π)) * circ fun α => B (N * (RZ α * RX c * RZ (2 * π * u1))) := by
      intro c
      exact lintegral_phiU (k := fun α => B (N * (RZ α * RX c * RZ (2 * π * u1)))) (fun φ => by simp only [RZ_periodic])
    simp only [e2]
    rw [lintegral_const_mul' _ _ ENNReal.ofReal_ne_top, ← mul_assoc]
    rfl
  simp only [e0]
  rw [lintegral_const_mul' sphereConst _ (ENNReal.mul_ne_top ENNReal.ofReal_ne_top ENNReal.ofReal_ne_top)]
  have e1 : ∫⁻ u1, (∫⁻ c in Ioo (-1) 1, ∫⁻ α in Ioo (-π) π, B (N * (RZ α * RX c * RZ (2 * π * u1)))) ∂unif =
      ENNReal.ofReal (1/(2*π)) * circ fun γ => ∫⁻ c in Ioo (-1) 1, ∫⁻ α in Ioo (-π) π, B (N * (RZ α * RX c * RZ γ)) :=
    lintegral_phiU (k := fun γ => ∫⁻ c in Ioo (-1) 1, ∫⁻ α in Ioo (-π) π, B (N * (RZ α * RX c * RZ γ))) (fun γ => by simp only [RZ_periodic])
  rw [e1, ← mul_assoc, mul_comm sphereConst]
  congr 1
  unfold circ eulerInt
  have s1 : ∀ γ, ∫⁻ c in Ioo (-1:ℝ) 1, ∫⁻ α in Ioo (-π) π, B (N * (RZ α * RX c * RZ γ)) =
      ∫⁻ α in Ioo (-π) π, ∫⁻ c in Ioo (-1:ℝ) 1, B (N * (RZ α * RX c * RZ γ)) := by
    intro γ
    exact lintegral_lintegral_swap (hBm (Y := ℝ × ℝ) measurable_const measurable_fst measurable_snd).aemeasurable
  simp only [s1]
  rw [lintegral_lintegral_swap]
  · apply lintegral_congr
    intro α
    exact lintegral_lintegral_swap (hBm (Y := ℝ × ℝ) measurable_fst measurable_snd measurable_const).aemeasurable
  · have : Measurable fun t : (ℝ × ℝ) × ℝ => B (N * (RZ t.1.2 * RX t.2 * RZ t.1.1)) :=
      hBm (measurable_fst.comp measurable_fst) measurable_snd (measurable_snd.comp measurable_fst)
    exact this.lintegral_prod_right'.aemeasurable

theorem manual_isotropic [LawfulRng E D] (h : IdealSource E D μ) (configs : List (List (ℝ × ℝ × ℝ))) (x0 : ℝ) (ns : List (NucleonData ℝ))
    (hl : ∀ c ∈ configs, c.length = ns.length) (d : D)
    {Q : Matrix (Fin 3) (Fin 3) ℝ} (hQ : Q ∈ SO3) {f : (ℕ → Fin 3 → ℝ) → ℝ≥0∞} (hf : Measurable f) :
    ∫⁻ e : E, (match sampleManual configs x0 ns ⟨e, d⟩ with
      | .ok r => f (fun i => Q.mulVec (config x0 r.1 i)) | .error _ => 0) ∂μ =
    ∫⁻ e : E, (match sampleManual configs x0 ns ⟨e, d⟩ with | .ok r => f (config x0 r.1) | .error _ => 0) ∂μ := by
  have hp := h.prob
  set bound := if configs.length = 0 then 18446744073709551615 else configs.length - 1 with hbound
  set idx : E → ℕ := fun e => (Rng.uniformInt ℝ bound d e).1 with hidx
  have hidxm : Measurable idx := by
    have h1 := h.index_meas bound d
    have h2 : idx = Prod.fst ∘ fun e => ((Rng.uniformInt ℝ bound d e).1, (Rng.uniformInt ℝ bound d e).2.2) := rfl
    rw [h2]
    exact measurable_fst.comp h1
  -- the value of the configuration number `k` in a given orientation
  set V : ℕ → Matrix (Fin 3) (Fin 3) ℝ → ℝ≥0∞ := fun k M => match configs[k]? with
    | none => 0
    | some ps => f (conf (cfg (ps.map vec)) M) with hV
  set B : Matrix (Fin 3) (Fin 3) ℝ → ℝ≥0∞ := fun M => ∫⁻ e, V (idx e) M ∂μ with hB
  have hVm : ∀ {Y : Type} [MeasurableSpace Y] {M : Y → Matrix (Fin 3) (Fin 3) ℝ}, (∀ i j, Measurable fun y => M y i j) →
      Measurable fun t : Y × E => V (idx t.2) (M t.1) := by
    intro Y _ M hM
    have h1 : Measurable fun t : Y × ℕ => V t.2 (M t.1) := by
      apply measurable_from_prod_countable_left
      intro k
      rw [hV]
      dsimp only
      cases configs[k]? with
      | none => exact measurable_const
      | some ps => exact hf.comp (conf_meas _ hM)
    exact h1.comp (measurable_fst.prodMk (hidxm.comp measurable_snd))
  have hval : ∀ (N : Matrix (Fin 3) (Fin 3) ℝ) (e : E), (match sampleManual configs x0 ns ⟨e, d⟩ with
      | .ok r => f (fun i => N.mulVec (config x0 r.1 i)) | .error _ => 0) =
      V (idx (draw3 E D e).2) (N * (RZ (2 * π * (draw3 E D e).1.2.2) * RX (2 * (draw3 E D e).1.2.1 - 1) * RZ (2 * π * (draw3 E D e).1.1))) := by
    intro N e
    have ht : rotZ (drawEuler (F := ℝ) (⟨e, d⟩ : Rand E D)).1.c3 (drawEuler (F := ℝ) (⟨e, d⟩ : Rand E D)).1.s3 *
        rotX (drawEuler (F := ℝ) (⟨e, d⟩ : Rand E D)).1.c2 (drawEuler (F := ℝ) (⟨e, d⟩ : Rand E D)).1.s2 *
        rotZ (drawEuler (F := ℝ) (⟨e, d⟩ : Rand E D)).1.c1 (drawEuler (F := ℝ) (⟨e, d⟩ : Rand E D)).1.s1 =
        RZ (2 * π * (draw3 E D e).1.2.2) * RX (2 * (draw3 E D e).1.2.1 - 1) * RZ (2 * π * (draw3 E D e).1.1) := by
      simp [drawEuler, cosTheta, phi, canonical, draw3, pairDraw, draw2, can, RZ, RX, pow_two]
    have hi : (drawIndex ℝ bound (drawEuler (F := ℝ) (⟨e, d⟩ : Rand E D)).2).1 = idx (draw3 E D e).2 := rfl
    rw [hV]
    unfold sampleManual
    dsimp only
    rw [← hbound, hi]
    cases hc : configs[idx (draw3 E D e).2]? with
    | none => rfl
    | some ps =>
      have hmem : ps ∈ configs := List.mem_of_getElem? hc
      dsimp only
      cases hpm : placeManual x0 (drawEuler (F := ℝ) (⟨e, d⟩ : Rand E D)).1 ps ns with
      | error er =>
        exfalso
        have htot : ∀ (ps : List (ℝ × ℝ × ℝ)) (ns : List (NucleonData ℝ)) (e : Euler ℝ), ps.length = ns.length →
            ∃ ns', placeManual x0 e ps ns = .ok ns' := by
          intro ps ns e
          induction ns generalizing ps with
          | nil => intro _; cases ps <;> exact ⟨_, rfl⟩
          | cons n ns ih =>
            intro hl
            cases ps with
            | nil => simp at hl
            | cons p ps =>
              obtain ⟨ns', h'⟩ := ih ps (by simpa using hl)
              obtain ⟨x, y, z⟩ := p
              rw [placeManual, h']
              exact ⟨_, rfl⟩
        obtain ⟨ns', hns⟩ := htot ps ns (drawEuler (F := ℝ) (⟨e, d⟩ : Rand E D)).1 (hl ps hmem)
        rw [hns] at hpm
        cases hpm
      | ok ns' =>
        dsimp only
        have hpos := placeManual_positions (hl ps hmem) hpm
        rw [ht] at hpos
        have hmap : ns'.map (relPos x0) = (ps.map vec).map
            (RZ (2 * π * (draw3 E D e).1.2.2) * RX (2 * (draw3 E D e).1.2.1 - 1) * RZ (2 * π * (draw3 E D e).1.1)).mulVec := by
          rw [hpos, List.map_map]; rfl
        rw [config_eq, hmap, cfg_rot]
        simp only [Matrix.mulVec_mulVec]
        rfl
  have hcols : Measurable fun c : Fin 3 → Fin 3 → ℝ => B (Matrix.of fun i j => c j i) :=
    Measurable.lintegral_prod_right' (hVm (M := fun c : Fin 3 → Fin 3 → ℝ => Matrix.of fun i j => c j i)
      (fun i j => (measurable_pi_apply i).comp (measurable_pi_apply j)))
  have hint : ∀ N : Matrix (Fin 3) (Fin 3) ℝ, ∫⁻ e, V (idx (draw3 E D e).2) (N * (RZ (2 * π * (draw3 E D e).1.2.2) *
      RX (2 * (draw3 E D e).1.2.1 - 1) * RZ (2 * π * (draw3 E D e).1.1))) ∂μ =
      ENNReal.ofReal (1/(2*π)) * sphereConst * eulerInt (fun M => B (N * M)) := by
    intro N
    rw [← euler_lintegral hcols N]
    exact (isDraw_draw3 h).law (fun t => V (idx t.2) (N * (RZ (2 * π * t.1.2.2) * RX (2 * t.1.2.1 - 1) * RZ (2 * π * t.1.1))))
      (hVm (M := fun t : ℝ × ℝ × ℝ => N * (RZ (2 * π * t.2.2) * RX (2 * t.2.1 - 1) * RZ (2 * π * t.1)))
        (mul_meas (fun i j => measurable_const) (mul_meas (mul_meas (RZ_meas ((measurable_snd.comp measurable_snd).const_mul _))
          (RX_meas (((measurable_fst.comp measurable_snd).const_mul _).sub_const _))) (RZ_meas (measurable_fst.const_mul _)))))
  have hv1 := hval 1
  simp only [Matrix.one_mulVec] at hv1
  rw [lintegral_congr (hval Q), lintegral_congr hv1, hint, hint, eulerInt_cols hcols hQ]
  simp only [Matrix.one_mul]

/-! ### All nuclei -/

theorem isotropic_all [LawfulRng E D] (h : IdealSource E D μ) (nuc : Nucleus ℝ) (hh : NucleusHistory E D nuc) (fuel : ℕ) (b : ℝ) (d : D)
    (Q : Matrix (Fin 3) (Fin 3) ℝ) (hQ : Q ∈ Matrix.specialOrthogonalGroup (Fin 3) ℝ) (f : (ℕ → Fin 3 → ℝ) → ℝ≥0∞) (hf : Measurable f) :
    ∫⁻ e : E, (match nuc.sampleNucleons fuel b ⟨e, d⟩ with
      | .ok r => f (fun i => Q.mulVec (config b r.1.nucleons i)) | .error _ => 0) ∂μ =
    ∫⁻ e : E, (match nuc.sampleNucleons fuel b ⟨e, d⟩ with
      | .ok r => f (config b r.1.nucleons) | .error _ => 0) ∂μ := by
  have hw := hh.wf
  unfold Nucleus.WF at hw
  have key : ∀ S : E → Res (List (NucleonData ℝ) × Rand E D), (∀ e, nuc.sampleNucleons fuel b ⟨e, d⟩ = match S e with
        | .error e => .error e
        | .ok (ns, w) => .ok ({ nuc with nucleons := ns, offset := b }, w)) →
      (∫⁻ e : E, (match S e with | .ok r => f (fun i => Q.mulVec (config b r.1 i)) | .error _ => 0) ∂μ =
        ∫⁻ e : E, (match S e with | .ok r => f (config b r.1) | .error _ => 0) ∂μ) →
      ∫⁻ e : E, (match nuc.sampleNucleons fuel b ⟨e, d⟩ with
        | .ok r => f (fun i => Q.mulVec (config b r.1.nucleons i)) | .error _ => 0) ∂μ =
      ∫⁻ e : E, (match nuc.sampleNucleons fuel b ⟨e, d⟩ with
        | .ok r => f (config b r.1.nucleons) | .error _ => 0) ∂μ := by
    intro S hS hi
    have p : ∀ (K : List (NucleonData ℝ) → ℝ≥0∞) (e : E), (match nuc.sampleNucleons fuel b ⟨e, d⟩ with
        | .ok r => K r.1.nucleons | .error _ => 0) = match S e with | .ok r => K r.1 | .error _ => 0 := by
      intro K e
      rw [hS e]
      cases S e <;> rfl
    rw [lintegral_congr (p fun ns => f (fun i => Q.mulVec (config b ns i))), lintegral_congr (p fun ns => f (config b ns))]
    exact hi
  cases hk : nuc.kind with
  | proton =>
    rw [hk] at hw
    refine key (fun e => .ok (sampleProton b nuc.nucleons, ⟨e, d⟩)) (fun e => by simp only [Nucleus.sampleNucleons, hk]) ?_
    dsimp only at hw ⊢
    match hn : nuc.nucleons, hw with
    | [n], _ =>
      have : config b (sampleProton b [n]) = cfg [0] := by
        rw [config_eq, sampleProton]
        simp only [List.map_cons, List.map_nil]
        rw [relPos_set b n (lit 0, lit 0, lit 0)]
        have h0 : vec ((lit 0, lit 0, lit 0) : V3) = 0 := by
          ext i; fin_cases i <;> simp [vec]
        rw [h0]
      simp only [this, ← cfg_rot, List.map_cons, List.map_nil, Matrix.mulVec_zero]
  | deuteron a b' =>
    rw [hk] at hw
    exact key (fun e => sampleDeuteron fuel a b' b nuc.nucleons ⟨e, d⟩)
      (fun e => by simp only [Nucleus.sampleNucleons, hk]; cases sampleDeuteron fuel a b' b nuc.nucleons ⟨e, d⟩ <;> rfl)
      (deuteron_isotropic h a b' b fuel nuc.nucleons hw d hQ hf)
  | woodsSaxon R a dm =>
    exact key (fun e => .ok (sampleWS R a dm b nuc.nucleons ⟨e, d⟩)) (fun e => by simp only [Nucleus.sampleNucleons, hk])
      (ws_isotropic h R a dm b nuc.nucleons d hQ hf)
  | deformed R a b2 b4 rmax dm =>
    exact key (fun e => sampleDeformed fuel R a b2 b4 rmax dm b nuc.nucleons ⟨e, d⟩)
      (fun e => by simp only [Nucleus.sampleNucleons, hk]; cases sampleDeformed fuel R a b2 b4 rmax dm b nuc.nucleons ⟨e, d⟩ <;> rfl)
      (deformed_isotropic h R a b2 b4 rmax dm b fuel nuc.nucleons d hQ hf)
  | manual configs rmax =>
    rw [hk] at hw
    exact key (fun e => sampleManual configs b nuc.nucleons ⟨e, d⟩)
      (fun e => by simp only [Nucleus.sampleNucleons, hk]; cases sampleManual configs b nuc.nucleons ⟨e, d⟩ <;> rfl)
      (manual_isotropic h configs b nuc.nucleons hw d hQ hf)

/-- `f` of the result of a sampling that ends, 0 for one that does not -/
noncomputable def Spec.ifOk {α : Type} (r : Res α) (f : α → ℝ≥0∞) : ℝ≥0∞ := match r with
  | .ok a => f a
  | .error _ => 0

/-- **C85.** Let `f` be any measurable function of the positions of all nucleons relative to the centre of the nucleus and `Q` any rotation.  With
an ideal source of random numbers the mean of `f` over the sampled nuclei is the mean of `f` over the sampled nuclei turned by `Q`: no direction is
preferred.  (Samplings that do not end within `fuel` rejections count as 0 on both sides; see C86 for their probability.) -/
theorem C85_isotropic [LawfulRng E D] (h : IdealSource E D μ) (nuc : Nucleus ℝ) (hh : NucleusHistory E D nuc) (fuel : ℕ) (b : ℝ) (d : D)
    (Q : Matrix (Fin 3) (Fin 3) ℝ) (hQ : Q ∈ Matrix.specialOrthogonalGroup (Fin 3) ℝ) (f : (ℕ → Fin 3 → ℝ) → ℝ≥0∞) (hf : Measurable f) :
    ∫⁻ e : E, ifOk (nuc.sampleNucleons fuel b ⟨e, d⟩) (fun r => f (fun i => Q.mulVec (config b r.1.nucleons i))) ∂μ =
      ∫⁻ e : E, ifOk (nuc.sampleNucleons fuel b ⟨e, d⟩) (fun r => f (config b r.1.nucleons)) ∂μ := by
  refine Eq.trans (lintegral_congr fun e => ?_) ((isotropic_all h nuc hh fuel b d Q hQ f hf).trans (lintegral_congr fun e => ?_))
  · unfold ifOk; cases nuc.sampleNucleons fuel b ⟨e, d⟩ <;> rfl
  · unfold ifOk; cases nuc.sampleNucleons fuel b ⟨e, d⟩ <;> rfl

end Trento
