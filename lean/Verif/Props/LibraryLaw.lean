import Verif.Lemmas.LibFresh
import Verif.Props.Library
import Verif.Props.Densities
import Verif.Props.Independence
import Verif.Props.ProtonCrossSection
import Verif.Props.ExampleRun
import Verif.Props.WoodsSaxon

/-!
# C97: the distributions of the random library are the intended ones

The algorithms of libstdc++ (polar method, Marsaglia–Tsang, inversion of a piecewise linear density, Lemire) with an engine that delivers independent uniform
numbers: the values they deliver have exactly the laws the C++ standard names, and are independent, in any sequence of requests, although the objects of the
normal distributions keep a number between calls.
-/

namespace Trento
open MeasureTheory Set ProbabilityTheory Spec
open scoped ENNReal

/-! ### Specification -/

/-- What trento asks the random library for. -/
inductive Spec.Request where
  | uniform
  | normal (mean sd : ℝ)
  | gamma (shape scale : ℝ)
  | tabulated (table : List (ℝ × ℝ))
  | index (k : ℕ)

/-- The value delivered for a request, and the random state after it. -/
noncomputable def Spec.Request.ask {E D : Type} [Rng ℝ E D] : Request → Rand E D → ℝ × Rand E D
  | uniform, w => canonical w
  | normal m s, w => drawNormal m s w
  | gamma a b, w => drawGamma a b w
  | tabulated t, w => drawPiecewiseLinear t w
  | index k, w => ((drawIndex ℝ k w).1, (drawIndex ℝ k w).2)

/-- The values delivered for one request after the other. -/
noncomputable def Spec.answers {E D : Type} [Rng ℝ E D] : List Request → Rand E D → List ℝ
  | [], _ => []
  | r :: rs, w => (r.ask w).1 :: answers rs (r.ask w).2

/-- The requests the C++ standard allows. -/
def Spec.Request.Allowed : Request → Prop
  | uniform => True
  | normal _ _ => True
  | gamma a b => 0 < a ∧ 0 < b
  | tabulated t => (t.map Prod.fst).Pairwise (· < ·) ∧ (∀ p ∈ t, 0 ≤ p.2) ∧ 0 < ∫ y, interpolated t y
  | index k => k < 2^64

/-- The laws the C++ standard names: uniform on [0, 1), normal with a mean and a standard deviation, gamma with a shape and a scale (Mathlib's
second parameter is the rate), the density interpolated linearly between the breakpoints, uniform on 0, …, k. -/
noncomputable def Spec.Request.law : Request → Measure ℝ
  | uniform => volume.restrict (Ico 0 1)
  | normal m s => gaussianReal m (s^2).toNNReal
  | gamma a b => gammaMeasure a (1 / b)
  | tabulated t => interpolatedLaw t
  | index k => (uniformOn (Iic k)).map Nat.cast

/-! ### Proofs -/

theorem goodTable_of {t : List (ℝ × ℝ)} (h : (t.map Prod.fst).Pairwise (· < ·)) (h0 : ∀ p ∈ t, 0 ≤ p.2) : GoodTable t := by
  induction t with
  | nil => trivial
  | cons p t ih =>
    cases t with
    | nil => exact h0 p (by simp)
    | cons q t =>
      rw [List.map_cons, List.pairwise_cons] at h
      exact ⟨h.1 q.1 (by simp), h0 p (by simp), ih h.2 fun r hr => h0 r (by simp [hr])⟩

theorem gauss_affine (m s : ℝ) : gauss.map (fun z => z * s + m) = gaussianReal m (s^2).toNNReal := by
  have h1 : (fun z : ℝ => z * s + m) = (fun z => z + m) ∘ fun z => s * z := by funext z; simp [mul_comm]
  rw [h1, ← Measure.map_map (by fun_prop) (by fun_prop), gauss, gaussianReal_map_const_mul, gaussianReal_map_add_const]
  congr 1
  · simp
  · ext
    simp [Real.coe_toNNReal _ (sq_nonneg s)]

theorem ask_law (r : Request) (hr : r.Allowed) : IsProbabilityMeasure r.law ∧ (Measurable fun w : LibState => r.ask w) ∧
    ∀ i, ∃ j, (libMix i).map (fun w => r.ask w) = r.law.prod (libMix j) := by
  cases r with
  | uniform => exact ⟨inferInstanceAs (IsProbabilityMeasure unif), lib_canonical⟩
  | normal m s =>
    refine ⟨inferInstanceAs (IsProbabilityMeasure (gaussianReal m _)), ?_⟩
    have := lib_normal m s
    rwa [gauss_affine] at this
  | gamma a b =>
    have h := lib_gamma a b
    have e : gammaLaw a b = gammaMeasure a (1 / b) := by unfold gammaLaw; exact if_pos hr
    rw [e] at h
    exact ⟨isProbabilityMeasure_gammaMeasure hr.1 (one_div_pos.2 hr.2), h⟩
  | tabulated t =>
    have hg := goodTable_of hr.1 hr.2.1
    have hs : 0 < tableArea t := by rw [← integral_interpolated hg]; exact hr.2.2
    have h := lib_radius t
    rw [pwlOf_law hg hs] at h
    exact ⟨interpolatedLaw_prob hg hs, h⟩
  | index k =>
    have hm : Measurable (Nat.cast : ℕ → ℝ) := measurable_of_countable _
    have h := lib_index k
    have hk : k ≤ 18446744073709551615 := by
      have : k < 2^64 := hr
      omega
    have hp : IsProbabilityMeasure (indexLaw k) := inferInstance
    rw [indexLaw_eq hk] at h hp
    refine ⟨Measure.isProbabilityMeasure_map hm.aemeasurable, (hm.comp (measurable_fst.comp h.1)).prodMk (measurable_snd.comp h.1), fun i => ?_⟩
    obtain ⟨j, hj⟩ := h.2 i
    refine ⟨j, ?_⟩
    have e : (fun w : LibState => (Request.index k).ask w) = Prod.map Nat.cast id ∘ fun w => drawIndex ℝ k w := rfl
    rw [e, ← Measure.map_map (hm.prodMap measurable_id) h.1, hj, ← Measure.map_prod_map _ _ hm measurable_id, Measure.map_id]
    rfl

theorem answers_meas (rs : List (Request × Set ℝ)) (ha : ∀ p ∈ rs, p.1.Allowed) (hS : ∀ p ∈ rs, MeasurableSet p.2) :
    MeasurableSet {w : LibState | List.Forall₂ (· ∈ ·) (answers (rs.map Prod.fst) w) (rs.map Prod.snd)} := by
  induction rs with
  | nil => simp [answers]
  | cons p rs ih =>
    have h1 := (ask_law p.1 (ha p (by simp))).2.1
    have h2 := ih (fun q hq => ha q (by simp [hq])) (fun q hq => hS q (by simp [hq]))
    simp only [List.map_cons, answers, List.forall₂_cons]
    exact ((measurable_fst.comp h1) (hS p (by simp))).inter ((measurable_snd.comp h1) h2)

theorem answers_law (rs : List (Request × Set ℝ)) (ha : ∀ p ∈ rs, p.1.Allowed) (hS : ∀ p ∈ rs, MeasurableSet p.2) (i : LibMix) :
    libMix i {w : LibState | List.Forall₂ (· ∈ ·) (answers (rs.map Prod.fst) w) (rs.map Prod.snd)} = (rs.map fun p => p.1.law p.2).prod := by
  induction rs generalizing i with
  | nil => simp [answers]
  | cons p rs ih =>
    obtain ⟨hp, h1, hl⟩ := ask_law p.1 (ha p (by simp))
    have ha' : ∀ q ∈ rs, q.1.Allowed := fun q hq => ha q (by simp [hq])
    have hS' : ∀ q ∈ rs, MeasurableSet q.2 := fun q hq => hS q (by simp [hq])
    obtain ⟨j, hj⟩ := hl i
    have e : {w : LibState | List.Forall₂ (· ∈ ·) (answers ((p :: rs).map Prod.fst) w) ((p :: rs).map Prod.snd)} =
        (fun w => p.1.ask w) ⁻¹' (p.2 ×ˢ {w | List.Forall₂ (· ∈ ·) (answers (rs.map Prod.fst) w) (rs.map Prod.snd)}) := by
      ext w
      simp only [List.map_cons, answers, List.forall₂_cons, mem_ofPred_eq, mem_preimage, mem_prod]
    rw [e, ← Measure.map_apply h1 ((hS p (by simp)).prod (answers_meas rs ha' hS')), hj, Measure.prod_prod, ih ha' hS' j]
    simp

/-- **C97, laws and independence.** Fresh distribution objects, an engine that delivers independent uniform numbers, and any allowed requests in any order:
the probability that every value falls in the set given for it is the product of the probabilities under the laws of the standard. -/
theorem C97_independent (rs : List (Request × Set ℝ)) (ha : ∀ p ∈ rs, p.1.Allowed) (hS : ∀ p ∈ rs, MeasurableSet p.2) :
    idealTape {e | List.Forall₂ (· ∈ ·) (answers (rs.map Prod.fst) (⟨e, Rng.freshDist ℝ Tape⟩ : Rand Tape (LibDist ℝ))) (rs.map Prod.snd)} =
      (rs.map fun p => p.1.law p.2).prod := by
  rw [← answers_law rs ha hS freshMix, libMix_fresh, Measure.map_apply libStart_meas (answers_meas rs ha hS)]
  rfl

/-- **C97, one value.** The law of any value of a sequence of allowed requests is the one of its request, whatever was drawn before. -/
theorem C97_each (before : List Request) (r : Request) (hb : ∀ q ∈ before, q.Allowed) (hr : r.Allowed) (S : Set ℝ) (hS : MeasurableSet S) :
    idealTape {e | (answers (before ++ [r]) (⟨e, Rng.freshDist ℝ Tape⟩ : Rand Tape (LibDist ℝ))).getLastD 0 ∈ S} = r.law S := by
  have h := C97_independent (before.map (fun q => (q, univ)) ++ [(r, S)])
    (by
      intro p hp
      simp only [List.mem_append, List.mem_map, List.mem_singleton] at hp
      rcases hp with ⟨q, hq, rfl⟩ | rfl
      exacts [hb q hq, hr])
    (by
      intro p hp
      simp only [List.mem_append, List.mem_map, List.mem_singleton] at hp
      rcases hp with ⟨q, hq, rfl⟩ | rfl
      exacts [MeasurableSet.univ, hS])
  have hfst : (before.map (fun q => (q, (univ : Set ℝ))) ++ [(r, S)]).map Prod.fst = before ++ [r] := by
    simp [List.map_map, Function.comp_def]
  have hsnd : (before.map (fun q => (q, (univ : Set ℝ))) ++ [(r, S)]).map Prod.snd = before.map (fun _ => univ) ++ [S] := by
    simp [List.map_map, Function.comp_def]
  rw [hfst, hsnd] at h
  have key : ∀ (l : List Request) (w : Rand Tape (LibDist ℝ)),
      (answers (l ++ [r]) w).getLastD 0 ∈ S ↔ List.Forall₂ (· ∈ ·) (answers (l ++ [r]) w) (l.map (fun _ => (univ : Set ℝ)) ++ [S]) := by
    intro l
    induction l with
    | nil => intro w; simp [answers]
    | cons q l ih =>
      intro w
      simp only [List.cons_append, answers, List.map_cons, List.forall₂_cons, mem_univ, true_and]
      rw [← ih]
      cases l <;> simp [answers]
  simp only [← key before] at h
  refine h.trans ?_
  rw [List.map_append, List.prod_append, List.map_map]
  have hone : ((before.map ((fun p : Request × Set ℝ => p.1.law p.2) ∘ fun q => (q, univ))).prod) = 1 := by
    refine List.prod_eq_one fun x hx => ?_
    simp only [List.mem_map, Function.comp_apply] at hx
    obtain ⟨q, hq, rfl⟩ := hx
    have := (ask_law q (hb q hq)).1
    exact measure_univ
  rw [hone, one_mul]
  simp

/-- The hypotheses on the source in C89–C94 hold for libstdc++ with an ideal engine, from fresh distribution objects. -/
theorem C97_fresh : FreshSource Tape (LibDist ℝ) libMix ∧ libMix freshMix = idealTape.map (fun e => (⟨e, Rng.freshDist ℝ Tape⟩ : Rand Tape (LibDist ℝ))) :=
  ⟨libMix_source, libMix_fresh⟩

instance : LawfulEngine Tape := ⟨fun e => e.mem 0⟩

/-- The hypotheses on the source in C85–C87 hold for libstdc++ with an ideal engine. -/
theorem C97_ideal : IdealSource Tape (LibDist ℝ) idealTape where
  prob := inferInstance
  canonical_meas := (tape_val_meas 0).prodMk tape_next_meas
  canonical_law := tape_law
  radius_state _ _ _ := rfl
  radius_meas t _ := by
    show Measurable fun e : Tape => ((pwlDraw t e).1, (pwlDraw t e).2)
    simp only [pwlDraw_eq]
    exact ((pwlOf_meas t).comp (tape_val_meas 0)).prodMk tape_next_meas
  radius_law t _ := by
    refine ⟨unif.map (pwlOf t), Measure.isProbabilityMeasure_map (pwlOf_meas t).aemeasurable, ?_⟩
    show idealTape.map (fun e : Tape => ((pwlDraw t e).1, (pwlDraw t e).2)) = _
    simp only [pwlDraw_eq]
    have hm : Measurable fun t : Tape => (t.val 0, t.next) := (tape_val_meas 0).prodMk tape_next_meas
    have h2 : (unif.map (pwlOf t)).prod idealTape = (unif.prod idealTape).map (Prod.map (pwlOf t) id) := by
      rw [← Measure.map_prod_map _ _ (pwlOf_meas t) measurable_id, Measure.map_id]
    rw [h2, ← tape_law, Measure.map_map ((pwlOf_meas t).prodMap measurable_id) hm]
    rfl
  index_meas k d := by
    have h := (uniformDraw_law k).meas
    have h2 : Measurable fun e : Tape => (uniformDraw ℝ k e).getD (0, e) := by
      have := measurable_optElim (n := fun e : Tape => (0, e)) (g := fun _ t => t) h (measurable_const.prodMk measurable_id) measurable_snd
      convert this using 2 with w
      cases uniformDraw ℝ k w <;> rfl
    convert h2 using 2 with e
    show ((libUniform (F := ℝ) k d e).1, (libUniform (F := ℝ) k d e).2.2) = _
    unfold libUniform
    rcases uniformDraw ℝ k e with _ | ⟨i, e'⟩ <;> rfl

/-! ### Applications -/

theorem tableArea_pos {t : List (ℝ × ℝ)} (h : GoodTable t) (hl : 2 ≤ t.length) {p : ℝ × ℝ} (hp : p ∈ t) (hp0 : 0 < p.2) : 0 < tableArea t := by
  induction t with
  | nil => simp at hl
  | cons q t ih =>
    cases t with
    | nil => simp at hl
    | cons r t =>
      obtain ⟨b0, d0⟩ := q
      obtain ⟨b1, d1⟩ := r
      obtain ⟨h1, h2, h3⟩ := h
      have hd1 : 0 ≤ d1 := by
        cases t with
        | nil => exact h3
        | cons s t => exact h3.2.1
      rw [tableArea_cons]
      have h4 := tableArea_nonneg h3
      rcases h2.lt_or_eq with h0 | h0
      · have : 0 < (d1 + d0) / 2 * (b1 - b0) := mul_pos (by linarith) (by linarith)
        linarith
      · rcases hd1.lt_or_eq with h5 | h5
        · have : 0 < (d1 + d0) / 2 * (b1 - b0) := mul_pos (by linarith) (by linarith)
          linarith
        · have h6 : p ∈ t := by
            rcases List.mem_cons.1 hp with rfl | hp
            · exact absurd h0 hp0.ne
            · rcases List.mem_cons.1 hp with rfl | hp
              · exact absurd h5 hp0.ne
              · exact hp
          have h7 := ih h3 (by cases t with | nil => simp at h6 | cons s t => simp) (List.mem_cons_of_mem _ h6)
          have : 0 ≤ (d1 + d0) / 2 * (b1 - b0) := mul_nonneg (by linarith) (by linarith)
          linarith

theorem interpolated_pos {t : List (ℝ × ℝ)} (hs : (t.map Prod.fst).Pairwise (· < ·)) (hn : ∀ p ∈ t, 0 ≤ p.2) (hl : 2 ≤ t.length) {p : ℝ × ℝ} (hp : p ∈ t)
    (hp0 : 0 < p.2) : 0 < ∫ y, interpolated t y := by
  rw [integral_interpolated (goodTable_of hs hn)]
  exact tableArea_pos (goodTable_of hs hn) hl hp hp0

theorem allowed_law {t : List (ℝ × ℝ)} (h : (Request.tabulated t).Allowed) : unif.map (pwlOf t) = interpolatedLaw t := by
  have hg := goodTable_of h.1 h.2.1
  exact pwlOf_law hg (by rw [← integral_interpolated hg]; exact h.2.2)

theorem tabulated_mean {t : List (ℝ × ℝ)} (h : (Request.tabulated t).Allowed) {g : ℝ → ℝ≥0∞} (hg : Measurable g) {d : LibDist ℝ} :
    ∫⁻ e, g (drawPiecewiseLinear (F := ℝ) t (⟨e, d⟩ : Rand Tape (LibDist ℝ))).1 ∂idealTape = ∫⁻ r, g r ∂interpolatedLaw t := by
  rw [← allowed_law h, lintegral_map hg (pwlOf_meas _)]
  have h1 := congrArg (fun μ => ∫⁻ p, g (pwlOf t p.1) ∂μ) tape_law
  have hm : Measurable fun p : ℝ × Tape => g (pwlOf t p.1) := hg.comp ((pwlOf_meas _).comp measurable_fst)
  rw [lintegral_map hm ((tape_val_meas 0).prodMk tape_next_meas), lintegral_prod _ hm.aemeasurable] at h1
  simp only [lintegral_const, measure_univ, mul_one] at h1
  rw [← h1]
  refine lintegral_congr fun e => ?_
  show g (pwlDraw t e).1 = _
  rw [pwlDraw_eq]

/-- the radial table of a spherical nucleus is a density -/
theorem profile_allowed {R a : ℝ} (h : 0 < R + 10 * a) : (Request.tabulated (profile R a)).Allowed := by
  have hs : ((profile R a).map Prod.fst).Pairwise (· < ·) := by
    unfold profile
    rw [List.map_map, List.pairwise_map]
    refine List.pairwise_lt_range.imp fun {k l} hkl => ?_
    simp only [Function.comp_apply]
    have : (k:ℝ) < l := by exact_mod_cast hkl
    have := mul_lt_mul_of_pos_right this h
    linarith
  have hd : ∀ r c, 0 < wsDensity R a 0 0 r c := fun r c => by unfold wsDensity; positivity
  have hn : ∀ p ∈ profile R a, 0 ≤ p.2 := by
    unfold profile
    intro p hp
    obtain ⟨k, -, rfl⟩ := List.mem_map.1 hp
    exact mul_nonneg (sq_nonneg _) (hd _ _).le
  refine ⟨hs, hn, ?_⟩
  have hlen : (profile R a).length = 1001 := by rw [profile, List.length_map, List.length_range]
  have hmem : (((1:ℕ):ℝ) * (R + 10*a) / 1000, (((1:ℕ):ℝ) * (R + 10*a) / 1000)^2 * wsDensity R a 0 0 (((1:ℕ):ℝ) * (R + 10*a) / 1000) 0) ∈ profile R a := by
    unfold profile
    exact List.mem_map_of_mem (f := fun k : ℕ => ((k:ℝ) * (R + 10*a) / 1000, ((k:ℝ) * (R + 10*a) / 1000)^2 * wsDensity R a 0 0 ((k:ℝ) * (R + 10*a) / 1000) 0))
      (List.mem_range.2 (by norm_num : 1 < 1001))
  refine interpolated_pos hs hn (by omega) hmem ?_
  exact mul_pos (pow_pos (by push_cast; positivity) 2) (hd _ _)

/-- **C97, spherical nuclei.** With libstdc++ and an ideal engine the radii of the nucleons of a spherical nucleus are independent, each with the
density that interpolates `r² / (1 + exp((r - R)/a))` between the 1001 breakpoints. -/
theorem C97_spherical (nuc : Nucleus ℝ) (R a dm : ℝ) (hR : 0 < R + 10 * a) (hk : nuc.kind = .woodsSaxon R a dm) (fuel : ℕ) (x0 : ℝ) (d : LibDist ℝ)
    (g : ℝ → ℝ≥0∞) (hg : Measurable g) :
    ∫⁻ e, ifOk (nuc.sampleNucleons fuel x0 (⟨e, d⟩ : Rand Tape (LibDist ℝ))) (fun r => ((radii x0 r.1.nucleons).map g).prod) ∂idealTape =
      (∫⁻ r, g r ∂interpolatedLaw (profile R a)) ^ nuc.nucleons.length := by
  rw [C87_spherical C97_ideal nuc R a dm hR.le hk fuel x0 d g hg]
  refine congrArg (· ^ nuc.nucleons.length) ?_
  have hal := profile_allowed hR
  rw [← woodsSaxonTable_real] at hal ⊢
  exact tabulated_mean hal hg

/-- **C97, events.** The events of a run of trento with libstdc++ and an ideal engine are independent and identically distributed: the probability that event
`l` falls in `S l` for every `l` is the product of the probabilities for one event. -/
theorem C97_events (rfuel fuel : ℕ) (c : Collider ℝ) (ec : EventCfg ℝ) (debug : Bool) {n : ℕ} (ev : Event ℝ n)
    (hA : NucleusHistory Tape (LibDist ℝ) c.nucleusA) (hB : NucleusHistory Tape (LibDist ℝ) c.nucleusB) (S : ℕ → Set (Observed n)) (hS : ∀ l, MeasurableSet (S l)) :
    idealTape.map (fun e => (⟨e, Rng.freshDist ℝ Tape⟩ : Rand Tape (LibDist ℝ)))
        {w | ∃ rs, c.runEvents rfuel fuel ec debug ev w = .ok rs ∧ ∀ r ∈ rs, observed r ∈ S r.num} =
      ∏ l ∈ Finset.range c.nevents.toNat,
        idealTape.map (fun e => (⟨e, Rng.freshDist ℝ Tape⟩ : Rand Tape (LibDist ℝ))) (Event1 rfuel fuel c ec debug ev (S l)) := by
  rw [← C97_fresh.2]
  exact C92_independent C97_fresh.1 rfuel fuel c ec debug ev hA hB S hS freshMix freshMix

/-- **C97, proton-proton cross section.** `trento p p` with libstdc++ and an ideal engine reproduces the inelastic cross section the partonic cross section was
fitted to. -/
theorem C97_proton_proton (o : Options ℝ) (hA : NucleusHistory Tape (LibDist ℝ) o.projectileA) (hB : NucleusHistory Tape (LibDist ℝ) o.projectileB)
    (kA : o.projectileA.kind = .proton) (kB : o.projectileB.kind = .proton) (hw : 0 < o.nucleonWidth) (hv : o.constitWidth = o.nucleonWidth)
    (hm : o.constitNumber = 1) (h0 : o.bMin = 0) (h1 : o.bMax < 0) (σ : ℝ) (hσ : 0 ≤ σ) (sigmaNN : ℝ)
    (hfit : inelasticCrossSection o.nucleonWidth σ = sigmaNN) (rfuel : ℕ) :
    ENNReal.ofReal (Real.pi * (6 * o.nucleonWidth)^2) *
      collisionMean (idealTape.map (fun e => (⟨e, Rng.freshDist ℝ Tape⟩ : Rand Tape (LibDist ℝ)))) rfuel (Collider.make o σ) o.projectileA o.projectileB 1
        (fun _ => 1) = ENNReal.ofReal sigmaNN := by
  rw [← C97_fresh.2]
  exact C91_options C97_fresh.1 o hA hB kA kB hw hv hm h0 h1 σ hσ sigmaNN hfit rfuel freshMix

/-! ### The hypotheses can be met -/

/-- a triangular table -/
theorem triangle_allowed : (Request.tabulated [(0, 0), (1, 2), (3, 0)]).Allowed := by
  have hg : GoodTable [(0, 0), (1, 2), (3, 0)] := by simp only [GoodTable]; norm_num
  refine ⟨by norm_num, by norm_num, ?_⟩
  rw [integral_interpolated hg]
  exact tableArea_pos hg (by norm_num) (p := (1, 2)) (by simp) (by norm_num)

/-- Requests of all kinds, mixed, with the normal object holding a saved number in between. -/
example : idealTape {e | List.Forall₂ (· ∈ ·)
      (answers [.normal 0 2, .gamma (1/2) 3, .tabulated [(0, 0), (1, 2), (3, 0)], .normal 1 1, .index 5, .uniform]
        (⟨e, Rng.freshDist ℝ Tape⟩ : Rand Tape (LibDist ℝ))) [Ioi 0, Iio 1, Iio 2, Ioi 1, {3}, Iio (1/2)]} =
    (gaussianReal 0 ((2:ℝ)^2).toNNReal) (Ioi 0) * (gammaMeasure (1/2) (1/3) (Iio 1) * (interpolatedLaw [(0, 0), (1, 2), (3, 0)] (Iio 2) *
      ((gaussianReal 1 ((1:ℝ)^2).toNNReal) (Ioi 1) * ((uniformOn (Iic 5)).map Nat.cast {(3:ℝ)} * (volume.restrict (Ico (0:ℝ) 1) (Iio (1/2))))))) := by
  have h := C97_independent [(.normal 0 2, Ioi 0), (.gamma (1/2) 3, Iio 1), (.tabulated [(0, 0), (1, 2), (3, 0)], Iio 2), (.normal 1 1, Ioi 1), (.index 5, {3}),
    (.uniform, Iio (1/2))]
    (by
      simp only [List.forall_mem_cons, List.not_mem_nil, IsEmpty.forall_iff, implies_true, and_true]
      exact ⟨trivial, ⟨by norm_num, by norm_num⟩, triangle_allowed, trivial, by show 5 < 2^64; norm_num, trivial⟩)
    (by simp)
  simpa [Request.law] using h

end Trento
