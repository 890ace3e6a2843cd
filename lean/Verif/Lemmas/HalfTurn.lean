import Verif.Lemmas.Turn

/-! # Half a turn about the beam axis -/

namespace Trento
open MeasureTheory Set Spec Real
open scoped ENNReal

/-- A constituent turned by half a turn about the beam axis. -/
noncomputable def Spec.halfC (q : Constituent ℝ) : Constituent ℝ := { q with x := -q.x, y := -q.y }

/-- A nucleon turned by half a turn about the beam axis, with its constituents (which it has only if `constituentsExist`). -/
noncomputable def Spec.half (n : NucleonData ℝ) : NucleonData ℝ :=
  { n with x := -n.x, y := -n.y, constituents := if n.constituentsExist then n.constituents.map halfC else n.constituents }

variable {E D : Type} [Rng ℝ E D] [MeasurableSpace E] [MeasurableSpace D] {I : Type} {μ : I → Measure (Rand E D)}
variable {Y Z : Type} [MeasurableSpace Y] [MeasurableSpace Z]

/-! ### Measurability -/

theorem halfC_meas : Measurable halfC := constituent_mk constituent_x.neg constituent_y.neg constituent_fl

theorem mapHalfC_meas : Measurable fun l : List (Constituent ℝ) => l.map halfC :=
  Measurable.listMap (Y := Unit) (g := fun _ q => halfC q) (halfC_meas.comp measurable_snd) (y := fun _ => ()) measurable_const measurable_id

theorem half_meas : Measurable half := by
  unfold half
  exact nucleon_mk nucleon_x.neg nucleon_y.neg nucleon_z nucleon_part nucleon_exist
    (Measurable.ite (nucleon_exist (measurableSet_singleton true)) (mapHalfC_meas.comp nucleon_cs) nucleon_cs)

theorem mapHalf_meas : Measurable fun l : List (NucleonData ℝ) => l.map half :=
  Measurable.listMap (Y := Unit) (g := fun _ q => half q) (half_meas.comp measurable_snd) (y := fun _ => ()) measurable_const measurable_id

section
variable (h : FreshSource E D μ)
include h

theorem keep_phi {σ : Y → Y} : Equi μ (fun (_ : Y) (w : Rand E D) => .ok (phi (F := ℝ) w)) σ id := Equi.fixed (renews_phi h) fun _ _ => rfl

theorem keep_cosTheta {σ : Y → Y} : Equi μ (fun (_ : Y) (w : Rand E D) => .ok (cosTheta (F := ℝ) w)) σ id := Equi.fixed (renews_cosTheta h) fun _ _ => rfl

/-! ### Nuclei -/

omit h in
omit [MeasurableSpace E] [MeasurableSpace D] in
theorem spherical_half (r c φ : ℝ) : spherical r c (red (1 * φ + π)) = (-(spherical r c φ).1, -(spherical r c φ).2.1, (spherical r c φ).2.2) := by
  simp only [spherical, cos_real, sin_real, cos_red, sin_red, one_mul, Real.cos_add_pi, Real.sin_add_pi, mul_neg]

omit h in
theorem half_setPos (o : ℝ) (n : NucleonData ℝ) (x y z : ℝ) : half (setNucleonPosition o n x y z) = setNucleonPosition (-o) n (-x) (-y) z := by
  simp [half, setNucleonPosition, NucleonData.setPosition, add_comm]

theorem half_sampleDeuteron (a b : ℝ) (fuel : ℕ) (n1 n2 : NucleonData ℝ) :
    Equi μ (fun (o : ℝ) (w : Rand E D) => sampleDeuteron fuel a b o [n1, n2] w) (fun o => -o) fun l => l.map half := by
  have := h.prob
  have hf : Measurable fun p : ((ℝ × ℝ) × ℝ) × ℝ => spherical p.1.1.2 p.1.2 p.2 :=
    spherical_meas (measurable_snd.comp (measurable_fst.comp measurable_fst)) (measurable_snd.comp measurable_fst) measurable_snd
  have ho : Measurable fun p : ((ℝ × ℝ) × ℝ) × ℝ => p.1.1.1 := measurable_fst.comp (measurable_fst.comp measurable_fst)
  have hfx := measurable_fst.comp hf
  have hfy := measurable_fst.comp (measurable_snd.comp hf)
  have hfz := measurable_snd.comp (measurable_snd.comp hf)
  have hm := Measurable.cons (setPos_meas ho (measurable_const (a := n1)) hfx hfy hfz)
    (Measurable.cons (setPos_meas ho (measurable_const (a := n2)) hfx.neg hfy.neg hfz.neg) (measurable_const (a := ([] : List (NucleonData ℝ)))))
  have h1 := Equi.fixed (renews_deuteronLoop h a b fuel) (σ := fun o : ℝ => -o) fun _ _ => rfl
  refine (h1.bind ((keep_cosTheta h).bind ((equi_phi h (s := 1) (Or.inl rfl) π).map hm mapHalf_meas ?_))).congr fun o w => ?_
  · rintro ⟨⟨o, r⟩, c⟩ φ
    simp only [Pi.neg_apply, Function.comp, id, spherical_half, List.map_cons, List.map_nil, half_setPos, neg_neg]
  · unfold sampleDeuteron
    cases deuteronLoop a b fuel w <;> rfl

omit h in
theorem isTooClose_half (dm : ℝ) (l : List (NucleonData ℝ)) (n : NucleonData ℝ) : isTooClose dm (l.map half) (half n) = isTooClose dm l n := by
  unfold isTooClose
  split
  · rfl
  · rw [List.any_map]
    congr 1
    funext n2
    simp only [Function.comp, half, lt_real]
    congr 2
    ring

/-- all but the (old) nucleon turned -/
noncomputable def halfPW (p : PW) : PW := (((-p.1.1.1, p.1.1.2), p.1.2.map half), p.2)

theorem half_placeWS (dm : ℝ) (left : ℕ) : Equi μ (fun (p : PW) (w : Rand E D) => .ok (placeWS p.1.1.1 dm p.1.1.2 p.1.2 (left+1) p.2 w)) halfPW half := by
  have := h.prob
  induction left with
  | zero =>
    have hn : Measurable fun q : (PW × ℝ) × ℝ =>
        setNucleonPosition q.1.1.1.1.1 q.1.1.2 (spherical q.1.1.1.1.2 q.1.2 q.2).1 (spherical q.1.1.1.1.2 q.1.2 q.2).2.1 (spherical q.1.1.1.1.2 q.1.2 q.2).2.2 := by
      have hs : Measurable fun q : (PW × ℝ) × ℝ => spherical q.1.1.1.1.2 q.1.2 q.2 := spherical_meas (by fun_prop) (by fun_prop) (by fun_prop)
      exact setPos_meas (by fun_prop) (by fun_prop) (measurable_fst.comp hs) (measurable_fst.comp (measurable_snd.comp hs)) (measurable_snd.comp (measurable_snd.comp hs))
    refine ((keep_cosTheta h).bind ((equi_phi h (s := 1) (Or.inl rfl) π).map hn half_meas ?_)).congr fun p w => ?_
    · rintro ⟨p, c⟩ φ
      simp only [halfPW, spherical_half, half_setPos, id]
    · rw [placeWS]
      simp only [bindR]
      rfl
  | succ left ih =>
    have hn : Measurable fun q : (PW × ℝ) × ℝ =>
        setNucleonPosition q.1.1.1.1.1 q.1.1.2 (spherical q.1.1.1.1.2 q.1.2 q.2).1 (spherical q.1.1.1.1.2 q.1.2 q.2).2.1 (spherical q.1.1.1.1.2 q.1.2 q.2).2.2 := by
      have hs : Measurable fun q : (PW × ℝ) × ℝ => spherical q.1.1.1.1.2 q.1.2 q.2 := spherical_meas (by fun_prop) (by fun_prop) (by fun_prop)
      exact setPos_meas (by fun_prop) (by fun_prop) (measurable_fst.comp hs) (measurable_fst.comp (measurable_snd.comp hs)) (measurable_snd.comp (measurable_snd.comp hs))
    have hl : Measurable fun q : (PW × ℝ) × ℝ => q.1.1.1.2 := by fun_prop
    have hkey : ∀ q : (PW × ℝ) × ℝ, setNucleonPosition (halfPW q.1.1).1.1.1 (halfPW q.1.1).2 (spherical (halfPW q.1.1).1.1.2 (id q.1.2) (red (1 * q.2 + π))).1
          (spherical (halfPW q.1.1).1.1.2 (id q.1.2) (red (1 * q.2 + π))).2.1 (spherical (halfPW q.1.1).1.1.2 (id q.1.2) (red (1 * q.2 + π))).2.2 =
        half (setNucleonPosition q.1.1.1.1.1 q.1.1.2 (spherical q.1.1.1.1.2 q.1.2 q.2).1 (spherical q.1.1.1.1.2 q.1.2 q.2).2.1 (spherical q.1.1.1.1.2 q.1.2 q.2).2.2) := by
      intro q
      simp only [halfPW, spherical_half, half_setPos, id]
    -- retry with the untouched nucleon
    have hr := ih.comp (f := fun q : (PW × ℝ) × ℝ => q.1.1) (ρ := fun q => ((halfPW q.1.1, id q.1.2), red (1 * q.2 + π))) (by fun_prop) fun q => rfl
    have h3 := Equi.bite hr (Equi.pure (μ := μ) (σ := fun q : (PW × ℝ) × ℝ => ((halfPW q.1.1, id q.1.2), red (1 * q.2 + π))) hn half_meas hkey)
      (c := fun q => isTooClose dm q.1.1.1.2
        (setNucleonPosition q.1.1.1.1.1 q.1.1.2 (spherical q.1.1.1.1.2 q.1.2 q.2).1 (spherical q.1.1.1.1.2 q.1.2 q.2).2.1 (spherical q.1.1.1.1.2 q.1.2 q.2).2.2))
      (isTooClose_meas dm hl hn) (fun q => by
        show isTooClose dm (halfPW q.1.1).1.2 _ = _
        rw [hkey q]
        exact isTooClose_half _ _ _)
    refine ((keep_cosTheta h).bind ((equi_phi h (s := 1) (Or.inl rfl) π).bind h3)).congr fun p w => ?_
    rw [placeWS]
    simp only [bindR, Nat.succ_pos', decide_true, Bool.true_and]
    split
    · rename_i hc
      refine congrArg _ (placeWS_old _ _ _ _ left (by simp [setNucleonPosition, NucleonData.setPosition]) _)
    · rfl


omit h in
theorem half_append (l : List (NucleonData ℝ)) (n : NucleonData ℝ) : l.map half ++ [half n] = (l ++ [n]).map half := by simp

theorem half_placeAllWS (dm : ℝ) (ns : List (NucleonData ℝ)) :
    Equi μ (fun (p : PA × List ℝ) (w : Rand E D) => if p.2.length = ns.length then .ok (placeAllWS p.1.1 dm p.1.2 p.2 ns w) else .error .fuel)
      (fun p => ((-p.1.1, p.1.2.map half), p.2.map id)) fun l => l.map half := by
  have := h.prob
  induction ns with
  | nil =>
    refine ((Equi.pure (σ := fun p : PA × List ℝ => ((-p.1.1, p.1.2.map half), p.2.map id)) (q := fun p : PA × List ℝ => p.1.2)
      (measurable_snd.comp measurable_fst) mapHalf_meas fun p => rfl).ite (Equi.fail .fuel mapHalf_meas)
      (c := fun p => p.2.length = 0) (length_meas 0 measurable_snd) fun p => by simp).congr fun p w => ?_
    split
    · rename_i h0
      rw [placeAllWS]
      · simp at h0 ⊢; simp [h0]
      · rintro _ _ _ _ _ h0; cases h0
    · rename_i h0; simp at h0 ⊢; simp [h0]
  | cons n ns ih =>
    refine Equi.listCases (σ := fun y : PA => (-y.1, y.2.map half)) (s := (id : ℝ → ℝ))
      (P := fun (y : PA) rs w => if rs.length = (n :: ns).length then .ok (placeAllWS y.1 dm y.2 rs (n :: ns) w) else .error .fuel) ?_ ?_
    · refine (Equi.fail .fuel mapHalf_meas).congr fun y w => ?_
      simp
    · have h1 := (half_placeWS h dm 999).comp (f := fun p : PA × ℝ × List ℝ => (((p.1.1, p.2.1), p.1.2), n))
        (ρ := fun p : PA × ℝ × List ℝ => ((-p.1.1, p.1.2.map half), id p.2.1, p.2.2.map id)) (by fun_prop) fun p => by simp [halfPW]
      have h2 := ih.comp (f := fun p : (PA × ℝ × List ℝ) × NucleonData ℝ => ((p.1.1.1, p.1.1.2 ++ [p.2]), p.1.2.2))
        (ρ := fun p => (((-p.1.1.1, p.1.1.2.map half), id p.1.2.1, p.1.2.2.map id), half p.2))
        (((measurable_fst.comp (measurable_fst.comp measurable_fst)).prodMk
          ((measurable_snd.comp (measurable_fst.comp measurable_fst)).append (measurable_snd.cons measurable_const))).prodMk
          (measurable_snd.comp (measurable_snd.comp measurable_fst))) fun p => by simp
      refine (h1.bind h2).congr fun p w => ?_
      simp only [bindR, List.length_cons, Nat.add_right_cancel_iff]
      rw [placeAllWS]

theorem half_sampleWS (R a dm : ℝ) (ns : List (NucleonData ℝ)) : Equi μ (fun (o : ℝ) (w : Rand E D) => .ok (sampleWS R a dm o ns w)) (fun o => -o) fun l => l.map half := by
  have := h.prob
  have h1 := Equi.fixed (renews_drawRadii h R a ns.length) (σ := fun o : ℝ => -o) fun _ _ => rfl
  have h2 := (half_placeAllWS h dm ns).comp (f := fun p : ℝ × List ℝ => ((p.1, ([] : List (NucleonData ℝ))), sortBy id p.2)) (ρ := fun p => (-p.1, id p.2))
    ((measurable_fst.prodMk measurable_const).prodMk (sortBy_meas measurable_id measurable_snd)) fun p => by simp
  refine (h1.bind h2).congr fun o w => ?_
  simp only [bindR]
  rw [if_pos (by rw [(sortBy_perm (F := ℝ) id _).length_eq, drawRadii_length])]
  rfl

/-! ### Deformed nuclei -/

/-- the tilt and spin of the turned nucleus -/
noncomputable def halfTS (t : TiltSpin ℝ) : TiltSpin ℝ := ⟨t.cosA, t.sinA, -t.cosB, -t.sinB⟩

omit h in
theorem halfTS_meas : Measurable halfTS :=
  tilt_mk (measurable_fst.comp tilt_tuple) ((measurable_fst.comp measurable_snd).comp tilt_tuple)
    ((measurable_fst.comp (measurable_snd.comp measurable_snd)).comp tilt_tuple).neg ((measurable_snd.comp (measurable_snd.comp measurable_snd)).comp tilt_tuple).neg

theorem half_drawTiltSpin {σ : Y → Y} : Equi μ (fun (_ : Y) (w : Rand E D) => .ok (drawTiltSpin (F := ℝ) w)) σ halfTS := by
  have := h.prob
  refine ((keep_cosTheta h).bind ((equi_phi h (s := 1) (Or.inl rfl) π).map
    (f := fun p : (Y × ℝ) × ℝ => (⟨p.1.2, sqrt (lit 1 - p.1.2 * p.1.2), cos p.2, sin p.2⟩ : TiltSpin ℝ)) ?_ halfTS_meas ?_)).congr fun y w => rfl
  · refine measurable_comap_iff.mpr ?_
    show Measurable fun p : (Y × ℝ) × ℝ => (p.1.2, Real.sqrt (((1:ℚ):ℝ) - p.1.2 * p.1.2), Real.cos p.2, Real.sin p.2)
    fun_prop
  · rintro ⟨y, c⟩ φ
    simp only [halfTS, cos_real, sin_real, cos_red, sin_red, one_mul, Real.cos_add_pi, Real.sin_add_pi, id]

omit h in
theorem rotateTS_half (t : TiltSpin ℝ) (x y z : ℝ) :
    rotateTS (halfTS t) x y z = (-(rotateTS t x y z).1, -(rotateTS t x y z).2.1, (rotateTS t x y z).2.2) := by
  simp only [rotateTS, halfTS, Prod.mk.injEq]
  refine ⟨by ring, by ring, trivial⟩

/-- parameters turned but for the old nucleon -/
noncomputable def halfPD (p : PD) : PD := ((((((-p.1.1.1.1.1, halfTS p.1.1.1.1.2), p.1.1.1.2), p.1.1.2.map half), p.1.2), p.2))

omit h in
theorem newDef_half (q : PD × ℝ) : newDef (halfPD q.1, id q.2) = half (newDef q) := by
  simp only [newDef, halfPD, rotateTS_half, half_setPos, id]

theorem half_placeDef (dm : ℝ) (left : ℕ) : Equi μ (fun (p : PD) (w : Rand E D) =>
    .ok (placeDef p.1.1.1.1.1 dm p.1.1.1.1.2 p.1.1.1.2 p.1.1.2 (left+1) p.1.2 p.2 w)) halfPD half := by
  have := h.prob
  induction left with
  | zero =>
    refine ((keep_phi h).map newDef_meas half_meas ?_).congr fun p w => ?_
    · intro p φ
      exact newDef_half (p, φ)
    · rw [placeDef]
      simp only [bindR, cos_real, sin_real]
      rfl
  | succ left ih =>
    have hl : Measurable fun q : PD × ℝ => q.1.1.1.2 := by fun_prop
    have hr := ih.comp (f := fun q : PD × ℝ => ((q.1.1.1, q.1.1.2 * lit (-1)), q.1.2)) (ρ := fun q => (halfPD q.1, id q.2))
      (by simp only [lit_real]; fun_prop) fun q => rfl
    have h3 := Equi.bite hr (Equi.pure (μ := μ) (σ := fun q : PD × ℝ => (halfPD q.1, id q.2)) newDef_meas half_meas newDef_half)
      (c := fun q => isTooClose dm q.1.1.1.2 (newDef q)) (isTooClose_meas dm hl newDef_meas) (fun q => by
        rw [newDef_half]
        exact isTooClose_half _ _ _)
    refine ((keep_phi h).bind h3).congr fun p w => ?_
    rw [placeDef]
    simp only [bindR, cos_real, sin_real, Nat.succ_pos', decide_true, Bool.true_and]
    show Except.ok (if isTooClose dm p.1.1.2 (newDef (p, (phi (F := ℝ) w).1)) = true then _ else _) = _
    split
    · refine congrArg _ (placeDef_old _ _ _ _ _ left _ (by simp [setNucleonPosition, NucleonData.setPosition]) _)
    · rfl

theorem half_placeAllDef (dm : ℝ) (ns : List (NucleonData ℝ)) :
    Equi μ (fun (p : PE × List (ℝ × ℝ)) (w : Rand E D) => if p.2.length = ns.length then .ok (placeAllDef p.1.1.1 dm p.1.1.2 p.1.2 p.2 ns w) else .error .fuel)
      (fun p => (((-p.1.1.1, halfTS p.1.1.2), p.1.2.map half), p.2.map id)) fun l => l.map half := by
  have := h.prob
  induction ns with
  | nil =>
    refine ((Equi.pure (σ := fun p : PE × List (ℝ × ℝ) => (((-p.1.1.1, halfTS p.1.1.2), p.1.2.map half), p.2.map id)) (q := fun p : PE × List (ℝ × ℝ) => p.1.2)
      (measurable_snd.comp measurable_fst) mapHalf_meas fun p => rfl).ite (Equi.fail .fuel mapHalf_meas)
      (c := fun p => p.2.length = 0) (length_meas 0 measurable_snd) fun p => by simp).congr fun p w => ?_
    split
    · rename_i h0
      rw [placeAllDef]
      · simp at h0 ⊢; simp [h0]
      · rintro _ _ _ _ _ h0; cases h0
    · rename_i h0; simp at h0 ⊢; simp [h0]
  | cons n ns ih =>
    refine Equi.listCases (σ := fun y : PE => ((-y.1.1, halfTS y.1.2), y.2.map half)) (s := (id : ℝ × ℝ → ℝ × ℝ))
      (P := fun (y : PE) rs w => if rs.length = (n :: ns).length then .ok (placeAllDef y.1.1 dm y.1.2 y.2 rs (n :: ns) w) else .error .fuel) ?_ ?_
    · refine (Equi.fail .fuel mapHalf_meas).congr fun y w => ?_
      simp
    · have h1 := (half_placeDef h dm 999).comp (f := fun p : PE × (ℝ × ℝ) × List (ℝ × ℝ) =>
          (((((p.1.1.1, p.1.1.2), p.2.1.1 * Real.sqrt (((1:ℚ):ℝ) - p.2.1.2 * p.2.1.2)), p.1.2), p.2.1.1 * p.2.1.2), n))
        (ρ := fun p => (((-p.1.1.1, halfTS p.1.1.2), p.1.2.map half), id p.2.1, p.2.2.map id)) (by fun_prop) fun p => by simp [halfPD]
      have h2 := ih.comp (f := fun p : (PE × (ℝ × ℝ) × List (ℝ × ℝ)) × NucleonData ℝ => ((p.1.1.1, p.1.1.2 ++ [p.2]), p.1.2.2))
        (ρ := fun p => ((((-p.1.1.1.1, halfTS p.1.1.1.2), p.1.1.2.map half), id p.1.2.1, p.1.2.2.map id), half p.2))
        (((measurable_fst.comp (measurable_fst.comp measurable_fst)).prodMk
          ((measurable_snd.comp (measurable_fst.comp measurable_fst)).append (measurable_snd.cons measurable_const))).prodMk
          (measurable_snd.comp (measurable_snd.comp measurable_fst))) fun p => by simp
      refine (h1.bind h2).congr fun p w => ?_
      simp only [bindR, List.length_cons, Nat.add_right_cancel_iff]
      rw [placeAllDef]
      rfl

theorem half_sampleDeformed (fuel : ℕ) (R a b2 b4 rmax dm : ℝ) (ns : List (NucleonData ℝ)) :
    Equi μ (fun (o : ℝ) (w : Rand E D) => sampleDeformed fuel R a b2 b4 rmax dm o ns w) (fun o => -o) fun l => l.map half := by
  have := h.prob
  have h2 := Equi.fixed (renews_drawDeformed h fuel R a b2 b4 rmax ns.length) (σ := fun p : ℝ × TiltSpin ℝ => (-p.1, halfTS p.2)) fun _ _ => rfl
  have h3 := (half_placeAllDef h dm ns).comp (f := fun p : (ℝ × TiltSpin ℝ) × List (ℝ × ℝ) => (((p.1.1, p.1.2), ([] : List (NucleonData ℝ))), sortBy Prod.fst p.2))
    (ρ := fun p => ((-p.1.1, halfTS p.1.2), id p.2))
    ((((measurable_fst.comp measurable_fst).prodMk (measurable_snd.comp measurable_fst)).prodMk measurable_const).prodMk (sortBy_meas measurable_fst measurable_snd))
    fun p => by simp
  refine ((half_drawTiltSpin h).bind (h2.bind h3)).congr fun o w => ?_
  unfold sampleDeformed
  simp only [bindR]
  cases hd : drawDeformed fuel R a b2 b4 rmax ns.length (drawTiltSpin (F := ℝ) w).2 with
  | error e => rfl
  | ok t =>
    dsimp only
    rw [if_pos (by rw [sortBy_length, drawDeformed_length hd])]

/-! ### Nuclei from files -/

/-- the Euler angles of the turned nucleus -/
noncomputable def halfEuler (e : Euler ℝ) : Euler ℝ := ⟨e.c1, e.s1, e.c2, e.s2, -e.c3, -e.s3⟩

theorem half_drawEuler {σ : Y → Y} : Equi μ (fun (_ : Y) (w : Rand E D) => .ok (drawEuler (F := ℝ) w)) σ halfEuler := by
  have := h.prob
  refine ((keep_phi h).bind ((keep_cosTheta h).bind ((equi_phi h (s := 1) (Or.inl rfl) π).map
    (f := fun p : ((Y × ℝ) × ℝ) × ℝ => (⟨cos p.1.1.2, sin p.1.1.2, p.1.2, sqrt (lit 1 - p.1.2 * p.1.2), cos p.2, sin p.2⟩ : Euler ℝ)) ?_ ?_ ?_))).congr fun y w => rfl
  · refine measurable_comap_iff.mpr ?_
    show Measurable fun p : ((Y × ℝ) × ℝ) × ℝ => (Real.cos p.1.1.2, Real.sin p.1.1.2, p.1.2, Real.sqrt (((1:ℚ):ℝ) - p.1.2 * p.1.2), Real.cos p.2, Real.sin p.2)
    fun_prop
  · refine measurable_comap_iff.mpr ?_
    have : Measurable fun t : ℝ × ℝ × ℝ × ℝ × ℝ × ℝ => (t.1, t.2.1, t.2.2.1, t.2.2.2.1, -t.2.2.2.2.1, -t.2.2.2.2.2) := by fun_prop
    exact this.comp euler_tuple
  · rintro ⟨⟨y, a⟩, c⟩ φ
    simp only [halfEuler, cos_real, sin_real, cos_red, sin_red, one_mul, Real.cos_add_pi, Real.sin_add_pi, id]

omit h in
theorem rotateEuler_half (e : Euler ℝ) (x y z : ℝ) :
    rotateEuler (halfEuler e) x y z = (-(rotateEuler e x y z).1, -(rotateEuler e x y z).2.1, (rotateEuler e x y z).2.2) := by
  simp only [rotateEuler, halfEuler, Prod.mk.injEq]
  refine ⟨by ring, by ring, trivial⟩

omit h in
theorem placeManual_half (o : ℝ) (e : Euler ℝ) (ps : List (ℝ × ℝ × ℝ)) (ns : List (NucleonData ℝ)) :
    placeManual (-o) (halfEuler e) ps ns = (placeManual o e ps ns).map fun l => l.map half := by
  induction ns generalizing ps with
  | nil => cases ps <;> rfl
  | cons n ns ih =>
    cases ps with
    | nil => rfl
    | cons p ps =>
      obtain ⟨x, y, z⟩ := p
      rw [placeManual, placeManual, ih ps]
      cases placeManual o e ps ns with
      | error e => rfl
      | ok l => simp only [Except.map, rotateEuler_half, List.map_cons, half_setPos]

theorem half_sampleManual (configs : List (List (ℝ × ℝ × ℝ))) (ns : List (NucleonData ℝ)) :
    Equi μ (fun (o : ℝ) (w : Rand E D) => sampleManual configs o ns w) (fun o => -o) fun l => l.map half := by
  have := h.prob
  have h3 : Equi μ (fun (p : (ℝ × Euler ℝ) × ℕ) (w : Rand E D) => match configs[p.2]? with
      | none => (.error (.throw .h5Exception "selection outside the dataset") : Res (List (NucleonData ℝ) × Rand E D))
      | some ps => exElim (placeManual p.1.1 p.1.2 ps ns) Except.error fun ns => .ok (ns, w)) (fun p => ((-p.1.1, halfEuler p.1.2), id p.2)) fun l => l.map half := by
    refine Equi.countable (N := ℕ) (σ := fun p : ℝ × Euler ℝ => (-p.1, halfEuler p.2)) mapHalf_meas fun k => ?_
    dsimp only
    cases configs[k]? with
    | none => exact Equi.fail _ mapHalf_meas
    | some ps => exact Equi.ofRes (placeManual_meas ps ns measurable_fst measurable_snd) mapHalf_meas fun p => placeManual_half _ _ _ _
  have h2 := Equi.fixed (renews_index h (if configs.length = 0 then 18446744073709551615 else configs.length - 1))
    (σ := fun p : ℝ × Euler ℝ => (-p.1, halfEuler p.2)) fun _ _ => rfl
  refine ((half_drawEuler h).bind (h2.bind h3)).congr fun o w => ?_
  unfold sampleManual
  simp only [bindR]
  split
  · rename_i h0; rw [h0]
  · rename_i ps h0
    rw [h0]
    dsimp only
    cases placeManual o (drawEuler (F := ℝ) w).1 ps ns <;> rfl

/-- sampling a nucleus: its nucleons -/
theorem half_sampleNucleons (fuel : ℕ) (nuc : Nucleus ℝ) (hh : NucleusHistory E D nuc) :
    Equi μ (fun (o : ℝ) (w : Rand E D) => (nuc.sampleNucleons fuel o w).map fun t => (t.1.nucleons, t.2)) (fun o => -o) fun l => l.map half := by
  have := h.prob
  have hw := hh.wf
  unfold Nucleus.WF at hw
  have key : ∀ S : ℝ → Rand E D → Res (List (NucleonData ℝ) × Rand E D), Equi μ S (fun o => -o) (fun l => l.map half) →
      (∀ o w, nuc.sampleNucleons fuel o w = match S o w with | .error e => .error e | .ok (ns, w) => .ok ({ nuc with nucleons := ns, offset := o }, w)) →
      Equi μ (fun (o : ℝ) (w : Rand E D) => (nuc.sampleNucleons fuel o w).map fun t => (t.1.nucleons, t.2)) (fun o => -o) fun l => l.map half := by
    intro S hS he
    refine hS.congr fun o w => ?_
    rw [he]
    cases S o w <;> rfl
  cases hk : nuc.kind with
  | proton =>
    rw [hk] at hw
    dsimp only at hw
    match hn : nuc.nucleons, hw with
    | [n], _ =>
      refine key (fun o w => .ok (sampleProton o [n], w)) (Equi.pure ?_ mapHalf_meas ?_) (fun o w => by simp only [Nucleus.sampleNucleons, hk, hn])
      · exact (setPos_meas measurable_id measurable_const measurable_const measurable_const measurable_const).cons measurable_const
      · intro o
        simp [sampleProton, half_setPos]
  | deuteron a b =>
    rw [hk] at hw
    dsimp only at hw
    match hn : nuc.nucleons, hw with
    | [n1, n2], _ =>
      exact key _ (half_sampleDeuteron h a b fuel n1 n2) (fun o w => by simp only [Nucleus.sampleNucleons, hk, hn]; cases sampleDeuteron fuel a b o [n1, n2] w <;> rfl)
  | woodsSaxon R a dm => exact key _ (half_sampleWS h R a dm nuc.nucleons) (fun o w => by simp only [Nucleus.sampleNucleons, hk])
  | deformed R a b2 b4 rmax dm => exact key _ (half_sampleDeformed h fuel R a b2 b4 rmax dm nuc.nucleons) (fun o w => by simp only [Nucleus.sampleNucleons, hk]; cases sampleDeformed fuel R a b2 b4 rmax dm o nuc.nucleons w <;> rfl)
  | manual configs rmax => exact key _ (half_sampleManual h configs nuc.nucleons) (fun o w => by simp only [Nucleus.sampleNucleons, hk]; cases sampleManual configs o nuc.nucleons w <;> rfl)

end

end Trento
