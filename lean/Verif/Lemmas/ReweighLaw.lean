import Verif.Lemmas.Reweigh
import Verif.Props.Substructure

/-!
# Drawing a weight anew

With the distributions of libstdc++ and an ideal engine the weights of the constituents are independent of everything else.
-/

namespace Trento
open MeasureTheory Set Spec ProbabilityTheory
open scoped ENNReal

/-- one entry of a vector of independent values drawn anew -/
theorem pi_resample {α : Type} [MeasurableSpace α] {ρ : Measure α} [IsProbabilityMeasure ρ] {G : Measure ℝ} [IsProbabilityMeasure G] {R : α → ℝ → α}
    (hR : Measurable fun p : α × ℝ => R p.1 p.2) (law : ∀ h : α → ℝ≥0∞, Measurable h → ∫⁻ f, ∫⁻ a, h (R a f) ∂ρ ∂G = ∫⁻ a, h a ∂ρ)
    {m : ℕ} (j : Fin m) {Φ : (Fin m → α) → ℝ≥0∞} (hΦ : Measurable Φ) :
    ∫⁻ f, ∫⁻ v, Φ (Function.update v j (R (v j) f)) ∂(Measure.pi fun _ : Fin m => ρ) ∂G = ∫⁻ v, Φ v ∂(Measure.pi fun _ : Fin m => ρ) := by
  cases m with
  | zero => exact j.elim0
  | succ m =>
    have mp := (measurePreserving_piFinSuccAbove (fun _ : Fin (m+1) => ρ) j).symm
    have e : ∀ p : α × (Fin m → α), (MeasurableEquiv.piFinSuccAbove (fun _ : Fin (m+1) => α) j).symm p = j.insertNth p.1 p.2 := fun p => rfl
    have hins : Measurable fun p : α × (Fin m → α) => (j.insertNth p.1 p.2 : Fin (m+1) → α) := by
      have := (MeasurableEquiv.piFinSuccAbove (fun _ : Fin (m+1) => α) j).symm.measurable
      simpa only [funext e] using this
    have key : ∀ Ψ : (Fin (m+1) → α) → ℝ≥0∞, Measurable Ψ → ∫⁻ v, Ψ v ∂(Measure.pi fun _ : Fin (m+1) => ρ) =
        ∫⁻ r, ∫⁻ a, Ψ (j.insertNth a r) ∂ρ ∂(Measure.pi fun _ : Fin m => ρ) := by
      intro Ψ hΨ
      rw [← mp.lintegral_comp hΨ]
      simp only [e]
      exact lintegral_prod_symm (fun p : α × (Fin m → α) => Ψ (j.insertNth p.1 p.2)) ((hΨ.comp hins).aemeasurable)
    have hup : ∀ f : ℝ, Measurable fun v : Fin (m+1) → α => Φ (Function.update v j (R (v j) f)) := by
      intro f
      refine hΦ.comp ?_
      refine measurable_pi_iff.mpr fun i => ?_
      by_cases h : i = j
      · subst h
        simp only [Function.update_self]
        exact hR.comp (f := fun v : Fin (m+1) → α => (v i, f)) (by fun_prop)
      · simp only [Function.update_of_ne h]
        exact measurable_pi_apply i
    have e2 : ∀ f : ℝ, ∫⁻ v, Φ (Function.update v j (R (v j) f)) ∂(Measure.pi fun _ : Fin (m+1) => ρ) =
        ∫⁻ r, ∫⁻ a, Φ (j.insertNth (R a f) r) ∂ρ ∂(Measure.pi fun _ : Fin m => ρ) := by
      intro f
      rw [key _ (hup f)]
      simp only [Fin.insertNth_apply_same, Fin.update_insertNth]
    simp only [e2]
    have hM : Measurable fun p : (ℝ × (Fin m → α)) × α => Φ (j.insertNth (R p.2 p.1.1) p.1.2) := by
      refine hΦ.comp (hins.comp (f := fun p : (ℝ × (Fin m → α)) × α => (R p.2 p.1.1, p.1.2)) ?_)
      exact (hR.comp (f := fun p : (ℝ × (Fin m → α)) × α => (p.2, p.1.1)) (by fun_prop)).prodMk (by fun_prop)
    rw [lintegral_lintegral_swap (f := fun f r => ∫⁻ a, Φ (j.insertNth (R a f) r) ∂ρ) (hM.lintegral_prod_right'.aemeasurable), key Φ hΦ]
    refine lintegral_congr fun r => ?_
    exact law (fun a => Φ (j.insertNth a r)) (hΦ.comp (hins.comp (f := fun a : α => (a, r)) (by fun_prop)))

/-- a nucleon with these constituents -/
noncomputable def fromVec {m : ℕ} (n : NucleonData ℝ) (v : Fin m → ℝ × ℝ × ℝ) : NucleonData ℝ :=
  { n with
    constituents := List.ofFn fun i => (⟨n.x + (relative v i).1, n.y + (relative v i).2.1, (relative v i).2.2⟩ : Constituent ℝ)
    constituentsExist := true }

theorem sampleConstituents_fromVec (nc : NucleonCommon ℝ) (n : NucleonData ℝ) (hn : n.constituentsExist = false) (w : LibState) :
    (nc.sampleConstituents n w).1 = fromVec n (vecDraw (oneConstituent nc) nc.constituentNumber w).1 := by
  have h := sampleConstituents_vec nc n hn w
  have e : ∀ a b : NucleonData ℝ, a.x = b.x → a.y = b.y → a.z = b.z → a.isParticipant = b.isParticipant → a.constituentsExist = b.constituentsExist →
      a.constituents = b.constituents → a = b := by
    rintro ⟨⟩ ⟨⟩ rfl rfl rfl rfl rfl rfl; rfl
  refine e _ _ (sampleConstituents_x _ _ _) (sampleConstituents_y _ _ _) ?_ (sampleConstituents_part _ _ _) (sampleConstituents_has _ _ _) h
  unfold NucleonCommon.sampleConstituents
  split <;> rfl

/-- set the weight -/
def setWeight3 (p : ℝ × ℝ × ℝ) (f : ℝ) : ℝ × ℝ × ℝ := (p.1, p.2.1, f)

theorem relative_weight {m : ℕ} (v : Fin m → ℝ × ℝ × ℝ) (j : Fin m) (f : ℝ) (i : Fin m) :
    relative (Function.update v j (setWeight3 (v j) f)) i = ((relative v i).1, (relative v i).2.1, if i = j then f else (relative v i).2.2) := by
  have h1 : ∀ i, (Function.update v j (setWeight3 (v j) f) i).1 = (v i).1 := by
    intro i
    by_cases h : i = j
    · subst h; simp [setWeight3]
    · simp [Function.update_of_ne h]
  have h2 : ∀ i, (Function.update v j (setWeight3 (v j) f) i).2.1 = (v i).2.1 := by
    intro i
    by_cases h : i = j
    · subst h; simp [setWeight3]
    · simp [Function.update_of_ne h]
  simp only [relative, h1, h2, Prod.mk.injEq, true_and]
  by_cases h : i = j
  · subst h; simp [setWeight3]
  · simp [h]

theorem reweigh_fromVec {m : ℕ} (n : NucleonData ℝ) (v : Fin m → ℝ × ℝ × ℝ) (j : ℕ) (hj : j < m) (f : ℝ) :
    (fromVec n v).reweigh j f = fromVec n (Function.update v ⟨j, hj⟩ (setWeight3 (v ⟨j, hj⟩) f)) := by
  unfold NucleonData.reweigh NucleonData.revise fromVec
  simp only [relative_weight]
  congr 1
  refine List.ext_getElem (by simp) fun k h1 h2 => ?_
  rw [List.getElem_modify]
  simp only [List.getElem_ofFn, Fin.mk.injEq]
  by_cases h : j = k
  · subst h; simp
  · simp [h, Ne.symm h]

theorem reweigh_fromVec_out {m : ℕ} (n : NucleonData ℝ) (v : Fin m → ℝ × ℝ × ℝ) (j : ℕ) (hj : ¬ j < m) (f : ℝ) : (fromVec n v).reweigh j f = fromVec n v := by
  unfold NucleonData.reweigh NucleonData.revise fromVec
  congr 1
  refine List.ext_getElem (by simp) fun k h1 h2 => ?_
  rw [List.getElem_modify]
  have : k < m := by simpa using h2
  rw [if_neg (by omega)]

theorem fromVec_meas (n : NucleonData ℝ) (m : ℕ) : Measurable fun v : Fin m → ℝ × ℝ × ℝ => fromVec n v := by
  unfold fromVec
  refine nucleon_mk measurable_const measurable_const measurable_const measurable_const measurable_const ((measurable_ofFn m).comp ?_)
  refine measurable_pi_iff.mpr fun i => ?_
  have h := relative_meas i
  exact constituent_mk ((measurable_fst.comp h).const_add _) ((measurable_fst.comp (measurable_snd.comp h)).const_add _) (measurable_snd.comp (measurable_snd.comp h))

theorem modify_meas {Y α : Type} [MeasurableSpace Y] [MeasurableSpace α] {g : Y → α → α} (hg : Measurable fun p : Y × α => g p.1 p.2) (j : ℕ) :
    Measurable fun p : Y × List α => p.2.modify j (g p.1) := by
  induction j with
  | zero =>
    refine measurable_list_cases (f := fun p : Y × List α => p.2.modify 0 (g p.1)) measurable_const ?_
    simp only [List.modify_zero_cons]
    exact (hg.comp (f := fun p : Y × α × List α => (p.1, p.2.1)) (by fun_prop)).cons (by fun_prop)
  | succ j ih =>
    refine measurable_list_cases (f := fun p : Y × List α => p.2.modify (j+1) (g p.1)) measurable_const ?_
    simp only [List.modify_succ_cons]
    exact Measurable.cons (by fun_prop) (ih.comp (f := fun p : Y × α × List α => (p.1, p.2.2)) (by fun_prop))

theorem reweigh_meas (j : ℕ) : Measurable fun p : ℝ × NucleonData ℝ => p.2.reweigh j p.1 := by
  unfold NucleonData.reweigh NucleonData.revise
  have hg : Measurable fun p : ℝ × Constituent ℝ => ({ p.2 with fluctuation := p.1 } : Constituent ℝ) :=
    constituent_mk (constituent_x.comp measurable_snd) (constituent_y.comp measurable_snd) measurable_fst
  have h1 := (modify_meas (g := fun (f : ℝ) (c : Constituent ℝ) => { c with fluctuation := f }) hg j).comp
    (f := fun p : ℝ × NucleonData ℝ => (p.1, p.2.constituents)) (measurable_fst.prodMk (nucleon_cs.comp measurable_snd))
  exact nucleon_mk (nucleon_x.comp measurable_snd) (nucleon_y.comp measurable_snd) (nucleon_z.comp measurable_snd) (nucleon_part.comp measurable_snd)
    (nucleon_exist.comp measurable_snd) h1

variable {ι : Type} [DecidableEq ι]

/-- the same for slots -/
noncomputable abbrev reweighS (m : ι) (j : ℕ) (f : ℝ) (x : Slots ι) : Slots ι := reviseS m (fun cs => cs.modify j fun c => { c with fluctuation := f }) x

theorem reweighS_meas (m : ι) (j : ℕ) : Measurable fun p : ℝ × Slots ι => reweighS m j p.1 p.2 := by
  have hap : Measurable fun p : ℝ × Slots ι => p.2.1 m := (measurable_pi_apply m).comp (by fun_prop)
  have h1 : Measurable fun p : ℝ × Slots ι => (p.2.1 m).reweigh j p.1 := (reweigh_meas j).comp (measurable_fst.prodMk hap)
  exact (measurable_update'.comp (Measurable.prodMk (f := fun p : ℝ × Slots ι => p.2.1) (by fun_prop) h1)).prodMk (by fun_prop)

section
variable {nc : NucleonCommon ℝ} {k : ℝ}

/-- the weights of the constituents are drawn with mean 1 (what the program asks for) -/
def GammaUnit (nc : NucleonCommon ℝ) (k : ℝ) : Prop := 0 < k ∧ nc.gammaAlpha = k ∧ nc.gammaBeta = 1 / k

theorem vec_law (hk : GammaUnit nc k) : LDraw (vecDraw (oneConstituent nc) nc.constituentNumber) (Measure.pi fun _ : Fin nc.constituentNumber => constituentLaw nc.samplingWidth k) := by
  have := constituentLaw_prob nc.samplingWidth hk.1
  exact (oneConstituent_law nc hk.1 hk.2.1 hk.2.2).vec _

theorem vec_mean (hk : GammaUnit nc k) (i : LibMix) {Φ : (Fin nc.constituentNumber → ℝ × ℝ × ℝ) → ℝ≥0∞} (hΦ : Measurable Φ) :
    ∫⁻ r, Φ (vecDraw (oneConstituent nc) nc.constituentNumber r).1 ∂libMix i = ∫⁻ v, Φ v ∂(Measure.pi fun _ : Fin nc.constituentNumber => constituentLaw nc.samplingWidth k) := by
  obtain ⟨l, hl⟩ := (vec_law hk).law i
  have hm := (vec_law hk).meas
  have hp : IsProbabilityMeasure (gammaMeasure k k) := isProbabilityMeasure_gammaMeasure hk.1 hk.1
  have hc := constituentLaw_prob nc.samplingWidth hk.1
  have hG : Measurable fun p : (Fin nc.constituentNumber → ℝ × ℝ × ℝ) × LibState => Φ p.1 := hΦ.comp measurable_fst
  have h1 := congrArg (fun μ => ∫⁻ p, Φ p.1 ∂μ) hl
  rw [lintegral_map hG hm, lintegral_prod _ hG.aemeasurable] at h1
  simpa only [lintegral_const, measure_univ, mul_one] using h1

theorem constituent_resample (s : ℝ) (hk : 0 < k) {h : ℝ × ℝ × ℝ → ℝ≥0∞} (hh : Measurable h) :
    ∫⁻ f, ∫⁻ a, h (setWeight3 a f) ∂constituentLaw s k ∂gammaMeasure k k = ∫⁻ a, h a ∂constituentLaw s k := by
  have hp : IsProbabilityMeasure (gammaMeasure k k) := isProbabilityMeasure_gammaMeasure hk hk
  unfold constituentLaw setWeight3
  have e1 : ∀ f : ℝ, ∫⁻ a : ℝ × ℝ × ℝ, h (a.1, a.2.1, f) ∂((gaussianReal 0 (s^2).toNNReal).prod ((gaussianReal 0 (s^2).toNNReal).prod (gammaMeasure k k))) =
      ∫⁻ x, ∫⁻ y, h (x, y, f) ∂gaussianReal 0 (s^2).toNNReal ∂gaussianReal 0 (s^2).toNNReal := by
    intro f
    rw [lintegral_prod _ (by fun_prop)]
    refine lintegral_congr fun x => ?_
    rw [lintegral_prod _ (by fun_prop)]
    simp
  simp only [e1]
  rw [lintegral_prod _ hh.aemeasurable]
  have hm : Measurable fun p : (ℝ × ℝ) × ℝ => h (p.1.2, p.2, p.1.1) := by fun_prop
  have hm' : Measurable fun p : ℝ × ℝ => ∫⁻ y, h (p.2, y, p.1) ∂gaussianReal 0 (s^2).toNNReal := hm.lintegral_prod_right'
  rw [lintegral_lintegral_swap (f := fun f x => ∫⁻ y, h (x, y, f) ∂gaussianReal 0 (s^2).toNNReal) hm'.aemeasurable]
  refine lintegral_congr fun x => ?_
  rw [lintegral_prod _ (by fun_prop), lintegral_lintegral_swap (by fun_prop)]

/-- **One draw.** A weight just drawn can be drawn anew. -/
theorem draw_resample (hk : GammaUnit nc k) {m : ι} {x : Slots ι} (hx : (x.1 m).constituentsExist = false) (j : ℕ) {H : Slots ι → ℝ≥0∞} (hH : Measurable H) (i : LibMix) :
    ∫⁻ f, meanDraw (libMix i) nc m (fun y => H (reweighS m j f y)) x ∂gammaMeasure k k = meanDraw (libMix i) nc m H x := by
  have hp : IsProbabilityMeasure (gammaMeasure k k) := isProbabilityMeasure_gammaMeasure hk.1 hk.1
  have hc := constituentLaw_prob nc.samplingWidth hk.1
  set Φ : (Fin nc.constituentNumber → ℝ × ℝ × ℝ) → ℝ≥0∞ := fun v => H (Function.update x.1 m (fromVec (x.1 m) v), x.2) with hΦd
  have hΦ : Measurable Φ := by
    refine hH.comp (Measurable.prodMk ?_ measurable_const)
    exact measurable_update'.comp (Measurable.prodMk measurable_const (fromVec_meas _ _))
  have e0 : ∀ r : LibState, H (drawSlot nc m x r) = Φ (vecDraw (oneConstituent nc) nc.constituentNumber r).1 := by
    intro r
    simp only [drawSlot, hΦd, sampleConstituents_fromVec nc _ hx]
  have e1 : ∀ (f : ℝ) (r : LibState), reweighS m j f (drawSlot nc m x r) =
      (Function.update x.1 m ((fromVec (x.1 m) (vecDraw (oneConstituent nc) nc.constituentNumber r).1).reweigh j f), x.2) := by
    intro f r
    simp only [reweighS, reviseS, drawSlot, Function.update_self, Function.update_idem, sampleConstituents_fromVec nc _ hx]
    rfl
  unfold meanDraw
  simp only [e0, e1]
  rw [vec_mean hk i hΦ]
  by_cases hj : j < nc.constituentNumber
  · simp only [reweigh_fromVec _ _ j hj]
    have hup : ∀ f : ℝ, Measurable fun v : Fin nc.constituentNumber → ℝ × ℝ × ℝ => Φ (Function.update v ⟨j, hj⟩ (setWeight3 (v ⟨j, hj⟩) f)) := by
      intro f
      refine hΦ.comp (measurable_pi_iff.mpr fun i => ?_)
      by_cases h : i = ⟨j, hj⟩
      · rw [h]
        simp only [Function.update_self, setWeight3]
        fun_prop
      · simp only [Function.update_of_ne h]
        exact measurable_pi_apply i
    have e2 : ∀ f : ℝ, ∫⁻ r, H (Function.update x.1 m (fromVec (x.1 m) (Function.update (vecDraw (oneConstituent nc) nc.constituentNumber r).1 ⟨j, hj⟩
        (setWeight3 ((vecDraw (oneConstituent nc) nc.constituentNumber r).1 ⟨j, hj⟩) f))), x.2) ∂libMix i =
        ∫⁻ v, Φ (Function.update v ⟨j, hj⟩ (setWeight3 (v ⟨j, hj⟩) f)) ∂(Measure.pi fun _ : Fin nc.constituentNumber => constituentLaw nc.samplingWidth k) :=
      fun f => vec_mean hk i (hup f)
    simp only [e2]
    exact pi_resample (R := setWeight3) (by unfold setWeight3; fun_prop) (fun h hh => constituent_resample nc.samplingWidth hk.1 hh) ⟨j, hj⟩ hΦ
  · simp only [reweigh_fromVec_out _ _ j hj, lintegral_const, measure_univ, mul_one]
    exact vec_mean hk i hΦ

/-- **One draw, positions.** The law of the positions does not depend on the fluctuation parameter. -/
theorem draw_positions (hk : GammaUnit nc k) {k' : ℝ} (hk' : 0 < k') {m : ι} {x : Slots ι} (hx : (x.1 m).constituentsExist = false) {H : Slots ι → ℝ≥0∞} (hH : Measurable H)
    (hu : ∀ y : Slots ι, (y.1 m).constituentsExist = true → H (reviseS m (fun cs => cs.map fun c => { c with fluctuation := 1 }) y) = H y) (i : LibMix) :
    meanDraw (libMix i) { nc with gammaAlpha := k', gammaBeta := 1 / k' } m H x = meanDraw (libMix i) nc m H x := by
  set N := (gaussianReal 0 (nc.samplingWidth^2).toNNReal).prod (gaussianReal 0 (nc.samplingWidth^2).toNNReal) with hN
  have key : ∀ (nc' : NucleonCommon ℝ) (k : ℝ), GammaUnit nc' k → nc'.constituentNumber = nc.constituentNumber → nc'.samplingWidth = nc.samplingWidth →
      meanDraw (libMix i) nc' m H x = ∫⁻ v : Fin nc.constituentNumber → ℝ × ℝ, H (Function.update x.1 m (fromVec (x.1 m) fun i => ((v i).1, (v i).2, 1)), x.2) ∂Measure.pi fun _ => N := by
    intro nc' k hk h1 h2
    have hp : IsProbabilityMeasure (gammaMeasure k k) := isProbabilityMeasure_gammaMeasure hk.1 hk.1
    rw [hN, ← h1, ← h2]
    set Φ : (Fin nc'.constituentNumber → ℝ × ℝ × ℝ) → ℝ≥0∞ := fun v => H (Function.update x.1 m (fromVec (x.1 m) v), x.2) with hΦd
    have hΦ : Measurable Φ := by
      refine hH.comp (Measurable.prodMk ?_ measurable_const)
      exact measurable_update'.comp (Measurable.prodMk measurable_const (fromVec_meas _ _))
    have e0 : ∀ r : LibState, H (drawSlot nc' m x r) = Φ (vecDraw (oneConstituent nc') nc'.constituentNumber r).1 := by
      intro r
      simp only [drawSlot, hΦd, sampleConstituents_fromVec nc' _ hx]
    have e1 : ∀ v : Fin nc'.constituentNumber → ℝ × ℝ × ℝ, Φ v = Φ fun i => ((v i).1, (v i).2.1, 1) := by
      intro v
      simp only [hΦd]
      rw [← hu (Function.update x.1 m (fromVec (x.1 m) v), x.2) (by simp [fromVec])]
      congr 1
      simp only [reviseS, Function.update_self, Function.update_idem, NucleonData.revise, fromVec, List.map_ofFn]
      rfl
    unfold meanDraw
    simp only [e0]
    rw [vec_mean hk i hΦ]
    have hmap : (Measure.pi fun _ : Fin nc'.constituentNumber => constituentLaw nc'.samplingWidth k).map (fun v i => ((v i).1, (v i).2.1)) =
        Measure.pi fun _ : Fin nc'.constituentNumber => (gaussianReal 0 (nc'.samplingWidth^2).toNNReal).prod (gaussianReal 0 (nc'.samplingWidth^2).toNNReal) := by
      have hc := constituentLaw_prob nc'.samplingWidth hk.1
      have h3 : (constituentLaw nc'.samplingWidth k).map (fun a : ℝ × ℝ × ℝ => (a.1, a.2.1)) =
          (gaussianReal 0 (nc'.samplingWidth^2).toNNReal).prod (gaussianReal 0 (nc'.samplingWidth^2).toNNReal) := by
        unfold constituentLaw
        have e : (fun a : ℝ × ℝ × ℝ => (a.1, a.2.1)) = Prod.map id Prod.fst := rfl
        rw [e, ← Measure.map_prod_map _ _ measurable_id measurable_fst, Measure.map_id]
        congr 1
        rw [← Measure.fst, Measure.fst_prod]
      rw [← h3]
      have hp' : ∀ _ : Fin nc'.constituentNumber, IsProbabilityMeasure (Measure.map (fun a : ℝ × ℝ × ℝ => (a.1, a.2.1)) (constituentLaw nc'.samplingWidth k)) :=
        fun _ => Measure.isProbabilityMeasure_map (by fun_prop)
      exact Measure.pi_map_pi (ι := Fin nc'.constituentNumber) (X := fun _ => ℝ × ℝ × ℝ) (Y := fun _ => ℝ × ℝ) (μ := fun _ => constituentLaw nc'.samplingWidth k)
        (f := fun _ (a : ℝ × ℝ × ℝ) => (a.1, a.2.1)) (fun _ => by fun_prop)
    rw [← hmap, lintegral_map (f := fun u : Fin nc'.constituentNumber → ℝ × ℝ => H (Function.update x.1 m (fromVec (x.1 m) fun i => ((u i).1, (u i).2, 1)), x.2))
      (g := fun (v : Fin nc'.constituentNumber → ℝ × ℝ × ℝ) i => ((v i).1, (v i).2.1)) (hΦ.comp (by fun_prop)) (by fun_prop)]
    exact lintegral_congr e1
  exact (key { nc with gammaAlpha := k', gammaBeta := 1 / k' } k' ⟨hk', rfl, rfl⟩ rfl rfl).trans (key nc k hk rfl rfl).symm

end

end Trento
