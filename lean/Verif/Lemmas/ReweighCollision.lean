import Verif.Lemmas.ReweighLoop
import Verif.Props.Exchange
import Verif.Props.Record

/-! # Drawing a weight anew after a collision of nuclei -/

namespace Trento
open MeasureTheory Set Spec ProbabilityTheory
open scoped ENNReal

/-- A constituent of a collision: whether it belongs to the projectile (else to the target), the number of its nucleon, its number in the nucleon. -/
abbrev Spec.Label := Bool × ℕ × ℕ

/-- The collision with weight `f` given to one constituent (unchanged if there is no such constituent). -/
noncomputable def Spec.setWeight (q : Label) (f : ℝ) (x : Collided) : Collided :=
  if q.1 then (x.1, x.2.1, x.2.2.1.modify q.2.1 (NucleonData.reweigh q.2.2 f), x.2.2.2)
  else (x.1, x.2.1, x.2.2.1, x.2.2.2.modify q.2.1 (NucleonData.reweigh q.2.2 f))

/-- The collision with weight 1 given to every constituent. -/
noncomputable def Spec.unitWeights (x : Collided) : Collided := (x.1, x.2.1, x.2.2.1.map NucleonData.unweigh, x.2.2.2.map NucleonData.unweigh)

theorem setWeight_meas (q : Label) : Measurable fun p : ℝ × Collided => setWeight q p.1 p.2 := by
  have hr := modify_meas (g := fun (f : ℝ) (n : NucleonData ℝ) => n.reweigh q.2.2 f) (reweigh_meas q.2.2) q.2.1
  unfold setWeight
  cases q.1
  · simp only [Bool.false_eq_true, if_false]
    exact Measurable.prodMk (by fun_prop) (Measurable.prodMk (by fun_prop) (Measurable.prodMk (by fun_prop)
      (hr.comp (f := fun p : ℝ × Collided => (p.1, p.2.2.2.2)) (by fun_prop))))
  · simp only [if_true]
    exact Measurable.prodMk (by fun_prop) (Measurable.prodMk (by fun_prop) (Measurable.prodMk
      (hr.comp (f := fun p : ℝ × Collided => (p.1, p.2.2.2.1)) (by fun_prop)) (by fun_prop)))

theorem unweigh_meas : Measurable (NucleonData.unweigh : NucleonData ℝ → NucleonData ℝ) := by
  unfold NucleonData.unweigh NucleonData.revise
  have h1 : Measurable fun n : NucleonData ℝ => n.constituents.map fun c => ({ c with fluctuation := 1 } : Constituent ℝ) :=
    Measurable.listMap (Y := Unit) (g := fun _ c => ({ c with fluctuation := 1 } : Constituent ℝ))
      ((constituent_mk constituent_x constituent_y measurable_const).comp measurable_snd) (y := fun _ => ()) measurable_const nucleon_cs
  exact nucleon_mk nucleon_x nucleon_y nucleon_z nucleon_part nucleon_exist h1

theorem unitWeights_meas : Measurable unitWeights := by
  have h : ∀ {l : Collided → List (NucleonData ℝ)}, Measurable l → Measurable fun z => (l z).map NucleonData.unweigh := fun hl =>
    Measurable.listMap (Y := Unit) (g := fun _ n => NucleonData.unweigh n) (unweigh_meas.comp measurable_snd) (y := fun _ => ()) measurable_const hl
  exact Measurable.prodMk (by fun_prop) (Measurable.prodMk (by fun_prop) (Measurable.prodMk (h (by fun_prop)) (h (by fun_prop))))

/-- a map over a list with one entry changed -/
theorem map_modify {α β : Type} (l : List α) (a : ℕ) (g : α → β) (h : α → α) (h' : β → β) (e : ∀ x, g (h x) = h' (g x)) : (l.modify a h).map g = (l.map g).modify a h' := by
  induction l generalizing a with
  | nil => cases a <;> rfl
  | cons x l ih => cases a <;> simp [e, ih]

theorem clear_reweigh (j : ℕ) (f : ℝ) (n : NucleonData ℝ) : (n.reweigh j f).clear = n.clear.reweigh j f := clear_revise (keeps_modify j f) n

theorem clear_reweigh_none (j : ℕ) (f : ℝ) {n : NucleonData ℝ} (h : n.constituentsExist = false) : n.clear.reweigh j f = n.clear := by
  unfold NucleonData.clear NucleonData.reweigh NucleonData.revise
  simp [h]

section
variable {A B : ℕ}

theorem map_inl_update (y : Fin A ⊕ Fin B → NucleonData ℝ) (a : Fin A) (φ : NucleonData ℝ → NucleonData ℝ) :
    ((List.finRange A).map Sum.inl).map (Function.update y (Sum.inl a) (φ (y (Sum.inl a)))) = (((List.finRange A).map Sum.inl).map y).modify a.val φ := by
  refine List.ext_getElem (by simp) fun k h1 h2 => ?_
  rw [List.getElem_modify]
  simp only [List.getElem_map, List.getElem_finRange, Function.update_apply, Sum.inl.injEq]
  by_cases h : a.val = k
  · subst h; simp
  · rw [if_neg, if_neg h]
    intro e
    exact h (by rw [← e]; simp)

theorem map_inr_update (y : Fin A ⊕ Fin B → NucleonData ℝ) (a : Fin B) (φ : NucleonData ℝ → NucleonData ℝ) :
    ((List.finRange B).map Sum.inr).map (Function.update y (Sum.inr a) (φ (y (Sum.inr a)))) = (((List.finRange B).map Sum.inr).map y).modify a.val φ := by
  refine List.ext_getElem (by simp) fun k h1 h2 => ?_
  rw [List.getElem_modify]
  simp only [List.getElem_map, List.getElem_finRange, Function.update_apply, Sum.inr.injEq]
  by_cases h : a.val = k
  · subst h; simp
  · rw [if_neg, if_neg h]
    intro e
    exact h (by rw [← e]; simp)

theorem map_inl_other (y : Fin A ⊕ Fin B → NucleonData ℝ) (a : Fin B) (n : NucleonData ℝ) :
    ((List.finRange A).map Sum.inl).map (Function.update y (Sum.inr a) n) = ((List.finRange A).map Sum.inl).map y := by
  simp only [List.map_map]
  refine List.map_congr_left fun k _ => ?_
  simp

theorem map_inr_other (y : Fin A ⊕ Fin B → NucleonData ℝ) (a : Fin A) (n : NucleonData ℝ) :
    ((List.finRange B).map Sum.inr).map (Function.update y (Sum.inl a) n) = ((List.finRange B).map Sum.inr).map y := by
  simp only [List.map_map]
  refine List.map_congr_left fun k _ => ?_
  simp

end

theorem modify_out {α : Type} (l : List α) (a : ℕ) (h : l.length ≤ a) (φ : α → α) : l.modify a φ = l := by
  refine List.ext_getElem (by simp) fun k h1 h2 => ?_
  rw [List.getElem_modify, if_neg (by omega)]

section
variable {nc : NucleonCommon ℝ} {k : ℝ}

theorem kept_reweigh_inl (b : ℝ) {A B : ℕ} (y : Slots (Fin A ⊕ Fin B)) (a : Fin A) (j : ℕ) (f : ℝ) :
    kept b (((List.finRange A).map Sum.inl).map (reweighS (Sum.inl a) j f y).1, ((List.finRange B).map Sum.inr).map (reweighS (Sum.inl a) j f y).1, (reweighS (Sum.inl a) j f y).2) =
      (setWeight (true, a.val, j) f (kept b (((List.finRange A).map Sum.inl).map y.1, ((List.finRange B).map Sum.inr).map y.1, y.2)).1, y.2.2) := by
  unfold kept setWeight reweighS reviseS
  dsimp only
  rw [map_inl_update y.1 a, map_inr_other, map_modify _ _ NucleonData.clear (NucleonData.revise fun cs => cs.modify j fun c => { c with fluctuation := f }) (NucleonData.reweigh j f) (clear_reweigh j f)]
  rfl

theorem kept_reweigh_inr (b : ℝ) {A B : ℕ} (y : Slots (Fin A ⊕ Fin B)) (a : Fin B) (j : ℕ) (f : ℝ) :
    kept b (((List.finRange A).map Sum.inl).map (reweighS (Sum.inr a) j f y).1, ((List.finRange B).map Sum.inr).map (reweighS (Sum.inr a) j f y).1, (reweighS (Sum.inr a) j f y).2) =
      (setWeight (false, a.val, j) f (kept b (((List.finRange A).map Sum.inl).map y.1, ((List.finRange B).map Sum.inr).map y.1, y.2)).1, y.2.2) := by
  unfold kept setWeight reweighS reviseS
  dsimp only
  rw [map_inr_update y.1 a, map_inl_other, map_modify _ _ NucleonData.clear (NucleonData.revise fun cs => cs.modify j fun c => { c with fluctuation := f }) (NucleonData.reweigh j f) (clear_reweigh j f)]
  rfl

theorem kept_meas' (b : ℝ) : Measurable (kept b) :=
  Measurable.prodMk (Measurable.prodMk measurable_const (Measurable.prodMk (by fun_prop) (Measurable.prodMk (clearList_meas (by fun_prop)) (clearList_meas (by fun_prop))))) (by fun_prop)

/-- the slots of two lists of nucleons -/
theorem slots_setup {E D : Type} [Rng ℝ E D] (nc : NucleonCommon ℝ) (As Bs : List (NucleonData ℝ)) (hA : ∀ a ∈ As, Fresh a) (hB : ∀ b ∈ Bs, Fresh b) :
    ∃ (L : List ((Fin As.length ⊕ Fin Bs.length) × (Fin As.length ⊕ Fin Bs.length))) (x : Slots (Fin As.length ⊕ Fin Bs.length)),
      (∀ p ∈ L, p.1 ≠ p.2) ∧ FitSlots x ∧ (∀ m, (x.1 m).constituentsExist = false) ∧ ∀ (nc : NucleonCommon ℝ) (cn : Bool) (w : Rand E D),
        (pairLoop nc cn As Bs 0 false w).1 = (((List.finRange As.length).map Sum.inl).map (loopS nc cn L x w).1.1,
          ((List.finRange Bs.length).map Sum.inr).map (loopS nc cn L x w).1.1, (loopS nc cn L x w).1.2) := by
  let s : Fin As.length ⊕ Fin Bs.length → NucleonData ℝ := Sum.elim As.get Bs.get
  let K : List (Fin As.length ⊕ Fin Bs.length) := (List.finRange As.length).map Sum.inl
  let J : List (Fin As.length ⊕ Fin Bs.length) := (List.finRange Bs.length).map Sum.inr
  have hK : K.Nodup := (List.nodup_finRange _).map Sum.inl_injective
  have hJ : J.Nodup := (List.nodup_finRange _).map Sum.inr_injective
  have hd : ∀ k ∈ K, k ∉ J := by
    intro k hk hk'
    obtain ⟨a, -, rfl⟩ := List.mem_map.mp hk
    obtain ⟨b, -, hb⟩ := List.mem_map.mp hk'
    cases hb
  have eA : K.map s = As := by
    simp only [K, List.map_map]
    show (List.finRange As.length).map As.get = As
    exact List.map_get_finRange As
  have eB : J.map s = Bs := by
    simp only [J, List.map_map]
    show (List.finRange Bs.length).map Bs.get = Bs
    exact List.map_get_finRange Bs
  let x : Slots (Fin As.length ⊕ Fin Bs.length) := (s, 0, false)
  have hxf : ∀ m, Fresh (x.1 m) := by
    rintro (m | m)
    · exact hA _ (List.get_mem _ _)
    · exact hB _ (List.get_mem _ _)
  refine ⟨K ×ˢ J, x, ?_, fun m hm => (by rw [(hxf m).1] at hm; cases hm), fun m => (hxf m).2, fun nc cn w => ?_⟩
  · intro p hp e
    obtain ⟨h1, h2⟩ := List.mem_product.mp hp
    exact hd _ h1 (e ▸ h2)
  · have := pairLoop_slots nc cn K J hK hJ hd x w
    rw [show K.map x.1 = As from eA, show J.map x.1 = Bs from eB] at this
    rw [show pairLoop nc cn As Bs 0 false w = _ from this]

theorem slots_map_meas {A B : ℕ} {γ : Type} [MeasurableSpace γ] {G : Collided × Bool → γ} (hG : Measurable G) (b : ℝ) :
    Measurable fun y : Slots (Fin A ⊕ Fin B) => G (kept b (((List.finRange A).map Sum.inl).map y.1, ((List.finRange B).map Sum.inr).map y.1, y.2)) := by
  have hml : ∀ L : List (Fin A ⊕ Fin B), Measurable fun y : Slots (Fin A ⊕ Fin B) => L.map y.1 := by
    intro L
    induction L with
    | nil => exact measurable_const
    | cons l L ih => exact Measurable.cons ((measurable_pi_apply l).comp measurable_fst) ih
  exact hG.comp ((kept_meas' b).comp ((hml _).prodMk ((hml _).prodMk measurable_snd)))

/-- **Pairs of nucleons.** -/
theorem meanLoop_weight (hk : GammaUnit nc k) (As Bs : List (NucleonData ℝ)) (hA : ∀ a ∈ As, Fresh a) (hB : ∀ b ∈ Bs, Fresh b) (b : ℝ) (q : Label)
    {G : Collided × Bool → ℝ≥0∞} (hG : Measurable G) (i : LibMix) :
    ∫⁻ f, meanLoop (libMix i) nc nc.calcNcoll (fun r => G (setWeight q f (kept b r).1, (kept b r).2)) As Bs ∂gammaMeasure k k =
      meanLoop (libMix i) nc nc.calcNcoll (fun r => G (kept b r)) As Bs := by
  have hp0 : IsProbabilityMeasure (gammaMeasure k k) := isProbabilityMeasure_gammaMeasure hk.1 hk.1
  obtain ⟨L, x, hL, hx, hm, hloop⟩ := slots_setup (E := Tape) (D := LibDist ℝ) nc As Bs hA hB
  unfold meanLoop
  simp only [hloop]
  obtain ⟨side, a, j⟩ := q
  have hmeas := slots_map_meas (A := As.length) (B := Bs.length) hG b
  cases side
  · by_cases ha : a < Bs.length
    · have e := fun (f : ℝ) (w : LibState) => kept_reweigh_inr b (loopS nc nc.calcNcoll L x w).1 ⟨a, ha⟩ j f
      have := loop_resample hk L hL (Sum.inr ⟨a, ha⟩) j hmeas (fun y f hy => ?_) hx (hm _) i
      · rw [← this]
        refine lintegral_congr fun f => lintegral_congr fun w => ?_
        rw [e f w]
        rfl
      · rw [kept_reweigh_inr b y ⟨a, ha⟩ j f]
        congr 1
        unfold setWeight kept
        simp only [Bool.false_eq_true, if_false, Prod.mk.injEq, true_and, and_true]
        refine List.ext_getElem (by simp) fun k h1 h2 => ?_
        rw [List.getElem_modify]
        split
        · rename_i hak
          subst hak
          simp only [List.getElem_map, List.getElem_finRange]
          exact clear_reweigh_none j f (by simpa using hy)
        · rfl
    · have e : ∀ (f : ℝ) (y : Slots (Fin As.length ⊕ Fin Bs.length)), setWeight (false, a, j) f (kept b (((List.finRange As.length).map Sum.inl).map y.1,
          ((List.finRange Bs.length).map Sum.inr).map y.1, y.2)).1 = (kept b (((List.finRange As.length).map Sum.inl).map y.1, ((List.finRange Bs.length).map Sum.inr).map y.1, y.2)).1 := by
        intro f y
        unfold setWeight kept
        simp only [Bool.false_eq_true, if_false]
        rw [modify_out _ _ (by simpa using ha)]
      simp only [e, lintegral_const, measure_univ, mul_one]
  · by_cases ha : a < As.length
    · have e := fun (f : ℝ) (w : LibState) => kept_reweigh_inl b (loopS nc nc.calcNcoll L x w).1 ⟨a, ha⟩ j f
      have := loop_resample hk L hL (Sum.inl ⟨a, ha⟩) j hmeas (fun y f hy => ?_) hx (hm _) i
      · rw [← this]
        refine lintegral_congr fun f => lintegral_congr fun w => ?_
        rw [e f w]
        rfl
      · rw [kept_reweigh_inl b y ⟨a, ha⟩ j f]
        congr 1
        unfold setWeight kept
        simp only [if_true, Prod.mk.injEq, true_and, and_true]
        refine List.ext_getElem (by simp) fun k h1 h2 => ?_
        rw [List.getElem_modify]
        split
        · rename_i hak
          subst hak
          simp only [List.getElem_map, List.getElem_finRange]
          exact clear_reweigh_none j f (by simpa using hy)
        · rfl
    · have e : ∀ (f : ℝ) (y : Slots (Fin As.length ⊕ Fin Bs.length)), setWeight (true, a, j) f (kept b (((List.finRange As.length).map Sum.inl).map y.1,
          ((List.finRange Bs.length).map Sum.inr).map y.1, y.2)).1 = (kept b (((List.finRange As.length).map Sum.inl).map y.1, ((List.finRange Bs.length).map Sum.inr).map y.1, y.2)).1 := by
        intro f y
        unfold setWeight kept
        simp only [if_true]
        rw [modify_out _ _ (by simpa using ha)]
      simp only [e, lintegral_const, measure_univ, mul_one]

theorem clear_unweigh (n : NucleonData ℝ) : n.unweigh.clear = n.clear.unweigh := clear_revise keeps_unit n

theorem unweigh_unweigh (n : NucleonData ℝ) : n.unweigh.unweigh = n.unweigh := by
  unfold NucleonData.unweigh NucleonData.revise
  simp

/-- **Pairs of nucleons, positions.** -/
theorem meanLoop_positions (hk : GammaUnit nc k) {k' : ℝ} (hk' : 0 < k') (As Bs : List (NucleonData ℝ)) (hA : ∀ a ∈ As, Fresh a) (hB : ∀ b ∈ Bs, Fresh b) (b : ℝ)
    {G : Collided × Bool → ℝ≥0∞} (hG : Measurable G) (hinv : ∀ x f, G (unitWeights x, f) = G (x, f)) (i : LibMix) :
    meanLoop (libMix i) { nc with gammaAlpha := k', gammaBeta := 1 / k' } nc.calcNcoll (fun r => G (kept b r)) As Bs =
      meanLoop (libMix i) nc nc.calcNcoll (fun r => G (kept b r)) As Bs := by
  obtain ⟨L, x, hL, hx, hm, hloop⟩ := slots_setup (E := Tape) (D := LibDist ℝ) nc As Bs hA hB
  unfold meanLoop
  simp only [hloop]
  refine loop_positions hk hk' L hL (slots_map_meas (A := As.length) (B := Bs.length) hG b) (fun m y => ?_) hx i
  have key : ∀ l : List (Fin As.length ⊕ Fin Bs.length), ((l.map (reviseS m (fun cs => cs.map fun c => { c with fluctuation := 1 }) y).1).map NucleonData.clear).map NucleonData.unweigh =
      ((l.map y.1).map NucleonData.clear).map NucleonData.unweigh := by
    intro l
    simp only [List.map_map]
    refine List.map_congr_left fun q _ => ?_
    simp only [Function.comp_apply, ← clear_unweigh]
    congr 1
    by_cases h : q = m
    · subst h
      have : (reviseS q (fun cs => cs.map fun c => ({ c with fluctuation := 1 } : Constituent ℝ)) y).1 q = (y.1 q).unweigh := by
        simp [reviseS]; rfl
      rw [this, unweigh_unweigh]
    · simp [reviseS, Function.update_of_ne h]
  rw [← hinv]
  conv_rhs => rw [← hinv]
  unfold kept unitWeights
  dsimp only
  rw [key, key]
  rfl

end

end Trento
