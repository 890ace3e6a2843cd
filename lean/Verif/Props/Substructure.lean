import Verif.Lemmas.ConstituentLaw
import Verif.Props.LibraryLaw
import Verif.Props.Nucleon
import Mathlib.Analysis.Complex.ExponentialBounds

/-!
# C98: the substructure of a nucleon averages to the nucleon

With the distributions of libstdc++ and an ideal engine: the constituents of a nucleon are placed around it with variance `w² - v²` in each direction and carry
independent weights of mean 1 and variance `1/k`; the thickness averaged over them is a Gaussian of the nucleon width `w`, whatever their number and width.
-/

namespace Trento
open MeasureTheory Set ProbabilityTheory Spec
open scoped ENNReal NNReal

/-! ### Specification -/

/-- Widths and number of constituents for which the program keeps the width of the nucleon: no substructure (`v = w`, any number), or at least two
constituents that are narrower by at least 10⁻⁶. -/
def Spec.KeepsWidth (w v : ℝ) (m : ℕ) : Prop := 1 ≤ m ∧ 0 < v ∧ (v = w ∨ (2 ≤ m ∧ 1e-6 ≤ w - v))

/-- A normalised Gaussian of width `W` in the transverse plane. -/
noncomputable def Spec.gaussian2 (W x y : ℝ) : ℝ := 1 / (2 * Real.pi * W^2) * Real.exp (-(x^2 + y^2) / (2 * W^2))

/-- The law of a constituent: transverse position relative to the nucleon, normal with variance `w² - v²` in both directions, and weight, gamma
with shape `k` and rate `k`. -/
noncomputable def Spec.constituent (w v k : ℝ) : Measure (ℝ × ℝ × ℝ) :=
  (gaussianReal 0 (w^2 - v^2).toNNReal).prod ((gaussianReal 0 (w^2 - v^2).toNNReal).prod (gammaMeasure k k))

/-- The `j`-th constituent of a nucleon relative to the nucleon, if there is one. -/
def Spec.HasConstituent (n : NucleonData ℝ) (j : ℕ) (S : Set (ℝ × ℝ × ℝ)) : Prop :=
  ∃ c, n.constituents[j]? = some c ∧ (c.x - n.x, c.y - n.y, c.fluctuation) ∈ S

/-! ### Proofs -/

theorem sampling_variance {w v : ℝ} {m : ℕ} (h : KeepsWidth w v m) : (calcSamplingWidth w v m)^2 * (1 - 1 / m) = w^2 - v^2 := by
  obtain ⟨hm, hv, h⟩ := h
  unfold calcSamplingWidth
  simp only [lt_real, lit_real, sqr_real, sqrt_real, ofInt_real]
  rcases h with rfl | ⟨h2, h3⟩
  · rw [if_pos (by simp; right; norm_num)]
    simp
  · have hm2 : (2:ℝ) ≤ m := by exact_mod_cast h2
    rw [if_neg]
    · have hd : (0:ℝ) < 1 - 1 / m := by
        have : 1 / (m:ℝ) ≤ 1 / 2 := one_div_le_one_div_of_le (by norm_num) hm2
        linarith
      have hn : 0 ≤ w^2 - v^2 := by nlinarith
      push_cast
      rw [Real.sq_sqrt (div_nonneg (by nlinarith) (by simpa using hd.le))]
      rw [div_mul_cancel₀ _ hd.ne']
    · simp only [Bool.or_eq_true, decide_eq_true_eq, not_or, not_lt]
      constructor
      · intro h; omega
      · push_cast; linarith

theorem variance_nonneg {w v : ℝ} {m : ℕ} (h : KeepsWidth w v m) : 0 ≤ w^2 - v^2 := by
  obtain ⟨hm, hv, rfl | ⟨h2, h3⟩⟩ := h
  · simp
  · nlinarith

section
variable {w v : ℝ} {m : ℕ} {σ : ℝ} {ncoll : Bool} {k : ℝ}

theorem make_one (hk : 0 < k) : LDraw (oneConstituent (NucleonCommon.make w v m σ ncoll k)) (constituentLaw (calcSamplingWidth w v m) k) :=
  oneConstituent_law (NucleonCommon.make w v m σ ncoll k) hk rfl (by simp [NucleonCommon.make])

theorem constituentLaw_prob (s : ℝ) (hk : 0 < k) : IsProbabilityMeasure (constituentLaw s k) := by
  have hp : IsProbabilityMeasure (gammaMeasure k k) := isProbabilityMeasure_gammaMeasure hk hk
  unfold constituentLaw
  infer_instance

theorem make_vec (w v : ℝ) (m : ℕ) (σ : ℝ) (ncoll : Bool) (hk : 0 < k) :
    LDraw (vecDraw (oneConstituent (NucleonCommon.make w v m σ ncoll k)) m) (Measure.pi fun _ : Fin m => constituentLaw (calcSamplingWidth w v m) k) := by
  have := constituentLaw_prob (calcSamplingWidth w v m) hk
  exact (make_one hk).vec m

/-- an integral over one constituent -/
theorem constituent_mean (h : KeepsWidth w v m) (hk : 0 < k) (j : Fin m) (i : LibMix) {g : ℝ × ℝ × ℝ → ℝ≥0∞} (hg : Measurable g) :
    ∫⁻ r, g (relative (vecDraw (oneConstituent (NucleonCommon.make w v m σ ncoll k)) m r).1 j) ∂libMix i = ∫⁻ p, g p ∂Spec.constituent w v k := by
  obtain ⟨l, hl⟩ := (make_vec w v m σ ncoll hk).law i
  have hm := (make_vec w v m σ ncoll hk).meas
  have hp : IsProbabilityMeasure (gammaMeasure k k) := isProbabilityMeasure_gammaMeasure hk hk
  have hc := constituentLaw_prob (calcSamplingWidth w v m) hk
  have hG : Measurable fun p : (Fin m → ℝ × ℝ × ℝ) × LibState => g (relative p.1 j) := hg.comp ((relative_meas j).comp measurable_fst)
  have h1 := congrArg (fun μ => ∫⁻ p, g (relative p.1 j) ∂μ) hl
  rw [lintegral_map hG hm, lintegral_prod _ hG.aemeasurable] at h1
  simp only [lintegral_const, measure_univ, mul_one] at h1
  rw [h1, ← lintegral_map hg (relative_meas j),
    relative_law j hk (w^2 - v^2).toNNReal (by rw [Real.coe_toNNReal _ (variance_nonneg h), ← sampling_variance h])]
  rfl

/-- **C98, one constituent.** Whatever law the random state has when a nucleon is given its constituents (`libMix i`; one of them is the state at the
start of the program, C97): position relative to the nucleon and weight of each constituent. -/
theorem C98_constituent (h : KeepsWidth w v m) (hk : 0 < k) (n : NucleonData ℝ) (hn : n.constituentsExist = false) (j : ℕ) (hj : j < m) (i : LibMix)
    (S : Set (ℝ × ℝ × ℝ)) (hS : MeasurableSet S) :
    libMix i {r | HasConstituent ((NucleonCommon.make w v m σ ncoll k).sampleConstituents n r).1 j S} = Spec.constituent w v k S := by
  have hnc : (NucleonCommon.make w v m σ ncoll k).constituentNumber = m := rfl
  have e : {r : LibState | HasConstituent ((NucleonCommon.make w v m σ ncoll k).sampleConstituents n r).1 j S} =
      {r | relative (vecDraw (oneConstituent (NucleonCommon.make w v m σ ncoll k)) m r).1 ⟨j, hj⟩ ∈ S} := by
    ext r
    have hxy : ((NucleonCommon.make w v m σ ncoll k).sampleConstituents n r).1.x = n.x ∧ ((NucleonCommon.make w v m σ ncoll k).sampleConstituents n r).1.y = n.y := by
      unfold NucleonCommon.sampleConstituents
      rw [hn]
      exact ⟨rfl, rfl⟩
    have hl : ((NucleonCommon.make w v m σ ncoll k).sampleConstituents n r).1.constituents[j]? =
        some ⟨n.x + (relative (vecDraw (oneConstituent (NucleonCommon.make w v m σ ncoll k)) m r).1 ⟨j, hj⟩).1,
          n.y + (relative (vecDraw (oneConstituent (NucleonCommon.make w v m σ ncoll k)) m r).1 ⟨j, hj⟩).2.1,
          (relative (vecDraw (oneConstituent (NucleonCommon.make w v m σ ncoll k)) m r).1 ⟨j, hj⟩).2.2⟩ := by
      rw [sampleConstituents_vec _ n hn r, List.getElem?_ofFn]
      exact dif_pos hj
    simp only [mem_ofPred_eq, HasConstituent, hl, hxy.1, hxy.2, Option.some.injEq, exists_eq_left', add_sub_cancel_left]
  have hm := (make_vec w v m σ ncoll hk).meas
  have hset : MeasurableSet {r : LibState | relative (vecDraw (oneConstituent (NucleonCommon.make w v m σ ncoll k)) m r).1 ⟨j, hj⟩ ∈ S} :=
    ((relative_meas ⟨j, hj⟩).comp (measurable_fst.comp hm)) hS
  rw [e, ← lintegral_indicator_one hset, ← lintegral_indicator_one hS]
  exact constituent_mean h hk ⟨j, hj⟩ i (measurable_one.indicator hS)

/-- **C98, weights.** The weights of the constituents of a nucleon are independent. -/
theorem C98_weights (hk : 0 < k) (n : NucleonData ℝ) (hn : n.constituentsExist = false) (i : LibMix) (S : Fin m → Set ℝ) (hS : ∀ j, MeasurableSet (S j)) :
    libMix i {r | ∀ j : Fin m, HasConstituent ((NucleonCommon.make w v m σ ncoll k).sampleConstituents n r).1 j {p | p.2.2 ∈ S j}} =
      ∏ j, gammaMeasure k k (S j) := by
  have e : {r : LibState | ∀ j : Fin m, HasConstituent ((NucleonCommon.make w v m σ ncoll k).sampleConstituents n r).1 j {p | p.2.2 ∈ S j}} =
      (fun r => (vecDraw (oneConstituent (NucleonCommon.make w v m σ ncoll k)) m r)) ⁻¹' ((univ.pi fun j => {p : ℝ × ℝ × ℝ | p.2.2 ∈ S j}) ×ˢ univ) := by
    ext r
    simp only [mem_ofPred_eq, mem_preimage, mem_prod, mem_univ, and_true, mem_pi, true_imp_iff]
    refine forall_congr' fun j => ?_
    have hl : ((NucleonCommon.make w v m σ ncoll k).sampleConstituents n r).1.constituents[(j:ℕ)]? =
        some ⟨n.x + (relative (vecDraw (oneConstituent (NucleonCommon.make w v m σ ncoll k)) m r).1 j).1,
          n.y + (relative (vecDraw (oneConstituent (NucleonCommon.make w v m σ ncoll k)) m r).1 j).2.1,
          (relative (vecDraw (oneConstituent (NucleonCommon.make w v m σ ncoll k)) m r).1 j).2.2⟩ := by
      rw [sampleConstituents_vec _ n hn r, List.getElem?_ofFn]
      exact dif_pos j.2
    simp only [HasConstituent, hl, Option.some.injEq, exists_eq_left', mem_ofPred_eq]
    rfl
  obtain ⟨l, hl⟩ := (make_vec w v m σ ncoll hk).law i
  have hm := (make_vec w v m σ ncoll hk).meas
  have hp : IsProbabilityMeasure (gammaMeasure k k) := isProbabilityMeasure_gammaMeasure hk hk
  have hS' : ∀ j, MeasurableSet {p : ℝ × ℝ × ℝ | p.2.2 ∈ S j} := fun j => (measurable_snd.comp measurable_snd) (hS j)
  have hc := constituentLaw_prob (calcSamplingWidth w v m) hk
  rw [e, ← Measure.map_apply hm ((MeasurableSet.univ_pi hS').prod MeasurableSet.univ), hl, Measure.prod_prod, measure_univ, mul_one, Measure.pi_pi]
  refine Finset.prod_congr rfl fun j _ => ?_
  have e2 : {p : ℝ × ℝ × ℝ | p.2.2 ∈ S j} = univ ×ˢ (univ ×ˢ S j) := by ext p; simp
  rw [e2]
  unfold constituentLaw
  rw [Measure.prod_prod, Measure.prod_prod, measure_univ, one_mul, one_mul]

/-- **C98, moments.** A weight has mean 1 and mean square `1 + 1/k`, so variance `1/k`. -/
theorem C98_moments (hk : 0 < k) : ∫⁻ f, ENNReal.ofReal f ∂gammaMeasure k k = 1 ∧
    ∫⁻ f, ENNReal.ofReal (f^2) ∂gammaMeasure k k = ENNReal.ofReal (1 + 1 / k) ∧ gammaMeasure k k (Iio 0) = 0 := by
  refine ⟨gamma_mean hk, gamma_square hk, ?_⟩
  rw [gammaMeasure, withDensity_apply _ measurableSet_Iio]
  exact lintegral_gammaPDF_of_nonpos le_rfl

/-- the mean of one term of the thickness -/
theorem term_mean (h : KeepsWidth w v m) (hw : 0 < w) (hk : 0 < k) (x y : ℝ) :
    ∫⁻ p : ℝ × ℝ × ℝ, ENNReal.ofReal (1 / (2 * Real.pi * v^2 * m) * (p.2.2 * Real.exp (-((x - p.1)^2 + (y - p.2.1)^2) / (2 * v^2)))) ∂Spec.constituent w v k =
      ENNReal.ofReal (gaussian2 w x y / m) := by
  have hp : IsProbabilityMeasure (gammaMeasure k k) := isProbabilityMeasure_gammaMeasure hk hk
  have hv : 0 < v := h.2.1
  have hm : (0:ℝ) < m := by exact_mod_cast h.1
  have hpi := Real.pi_pos
  have hvar : w^2 = v^2 + (((w^2 - v^2).toNNReal : ℝ≥0) : ℝ) := by rw [Real.coe_toNNReal _ (variance_nonneg h)]; ring
  have e : ∀ p : ℝ × ℝ × ℝ, ENNReal.ofReal (1 / (2 * Real.pi * v^2 * m) * (p.2.2 * Real.exp (-((x - p.1)^2 + (y - p.2.1)^2) / (2 * v^2)))) =
      ENNReal.ofReal (1 / (2 * Real.pi * v^2 * m)) * (ENNReal.ofReal (Real.exp (-(x - p.1)^2 / (2 * v^2))) *
        (ENNReal.ofReal (Real.exp (-(y - p.2.1)^2 / (2 * v^2))) * ENNReal.ofReal p.2.2)) := by
    intro p
    rw [ENNReal.ofReal_mul (by positivity), ENNReal.ofReal_mul' (Real.exp_pos _).le]
    congr 1
    rw [show -((x - p.1)^2 + (y - p.2.1)^2) / (2 * v^2) = -(x - p.1)^2 / (2 * v^2) + -(y - p.2.1)^2 / (2 * v^2) by ring, Real.exp_add,
      ENNReal.ofReal_mul (Real.exp_pos _).le]
    ring
  simp only [e]
  unfold Spec.constituent
  rw [lintegral_const_mul _ (by fun_prop)]
  rw [lintegral_prod_mul (f := fun a => ENNReal.ofReal (Real.exp (-(x - a)^2 / (2 * v^2))))
    (g := fun q : ℝ × ℝ => ENNReal.ofReal (Real.exp (-(y - q.1)^2 / (2 * v^2))) * ENNReal.ofReal q.2) (by fun_prop) (by fun_prop)]
  rw [lintegral_prod_mul (f := fun a => ENNReal.ofReal (Real.exp (-(y - a)^2 / (2 * v^2)))) (g := fun f : ℝ => ENNReal.ofReal f) (by fun_prop) (by fun_prop)]
  rw [gauss_smear hv hw hvar, gauss_smear hv hw hvar, gamma_mean hk, mul_one, ← ENNReal.ofReal_mul (by positivity), ← ENNReal.ofReal_mul (by positivity)]
  congr 1
  unfold gaussian2
  rw [show -(x^2 + y^2) / (2 * w^2) = -x^2 / (2 * w^2) + -y^2 / (2 * w^2) by ring, Real.exp_add]
  field_simp

/-- the thickness without truncation -/
noncomputable def fullThickness (v : ℝ) (m : ℕ) (n : NucleonData ℝ) (x y : ℝ) : ℝ :=
  (n.constituents.map fun c => 1 / (2 * Real.pi * v^2 * m) * (c.fluctuation * Real.exp (-distSq c x y / (2 * v^2)))).sum

theorem ofReal_list_sum {l : List ℝ} (h : ∀ a ∈ l, 0 ≤ a) : ENNReal.ofReal l.sum = (l.map ENNReal.ofReal).sum := by
  induction l with
  | nil => simp
  | cons a l ih =>
    rw [List.sum_cons, List.map_cons, List.sum_cons, ENNReal.ofReal_add (h a (by simp)) (List.sum_nonneg fun b hb => h b (by simp [hb])),
      ih fun b hb => h b (by simp [hb])]

theorem vec_weight_nonneg (nc : NucleonCommon ℝ) (m : ℕ) (r : LibState) (j : Fin m) : 0 ≤ ((vecDraw (oneConstituent nc) m r).1 j).2.2 := by
  induction m generalizing r with
  | zero => exact j.elim0
  | succ m ih =>
    rw [vecDraw]
    refine Fin.cases ?_ (fun j => ?_) j
    · exact LawfulRng.gamma_nonneg (E := Tape) (D := LibDist ℝ) _ _ _ _
    · exact ih _ j

theorem sampled_sum {n : NucleonData ℝ} (hn : n.constituentsExist = false) (r : LibState) (F : Constituent ℝ → ℝ) (hF : ∀ c, 0 ≤ c.fluctuation → 0 ≤ F c) :
    ENNReal.ofReal ((((NucleonCommon.make w v m σ ncoll k).sampleConstituents n r).1.constituents.map F).sum) =
      ∑ j : Fin m, ENNReal.ofReal (F ⟨n.x + (relative (vecDraw (oneConstituent (NucleonCommon.make w v m σ ncoll k)) m r).1 j).1,
          n.y + (relative (vecDraw (oneConstituent (NucleonCommon.make w v m σ ncoll k)) m r).1 j).2.1,
          (relative (vecDraw (oneConstituent (NucleonCommon.make w v m σ ncoll k)) m r).1 j).2.2⟩) := by
  rw [ofReal_list_sum, sampleConstituents_vec _ n hn r, List.map_ofFn, List.map_ofFn, List.sum_ofFn]
  · rfl
  · rw [sampleConstituents_vec _ n hn r]
    intro a ha
    rw [List.map_ofFn, List.mem_ofFn] at ha
    obtain ⟨j, rfl⟩ := ha
    exact hF _ (vec_weight_nonneg _ _ _ j)

theorem full_mean (h : KeepsWidth w v m) (hw : 0 < w) (hk : 0 < k) (n : NucleonData ℝ) (hn : n.constituentsExist = false) (x y : ℝ) (i : LibMix) :
    ∫⁻ r, ENNReal.ofReal (fullThickness v m ((NucleonCommon.make w v m σ ncoll k).sampleConstituents n r).1 x y) ∂libMix i =
      ENNReal.ofReal (gaussian2 w (x - n.x) (y - n.y)) := by
  have hpi := Real.pi_pos
  have hv := h.2.1
  have hmeas : ∀ j : Fin m, Measurable fun r : LibState => relative (vecDraw (oneConstituent (NucleonCommon.make w v m σ ncoll k)) m r).1 j :=
    fun j => (relative_meas j).comp (measurable_fst.comp (make_vec w v m σ ncoll hk).meas)
  have hg : Measurable fun p : ℝ × ℝ × ℝ => ENNReal.ofReal (1 / (2 * Real.pi * v^2 * m) *
      (p.2.2 * Real.exp (-((x - n.x - p.1)^2 + (y - n.y - p.2.1)^2) / (2 * v^2)))) := by fun_prop
  have e : ∀ r : LibState, ENNReal.ofReal (fullThickness v m ((NucleonCommon.make w v m σ ncoll k).sampleConstituents n r).1 x y) =
      ∑ j : Fin m, (fun p : ℝ × ℝ × ℝ => ENNReal.ofReal (1 / (2 * Real.pi * v^2 * m) *
      (p.2.2 * Real.exp (-((x - n.x - p.1)^2 + (y - n.y - p.2.1)^2) / (2 * v^2)))))
        (relative (vecDraw (oneConstituent (NucleonCommon.make w v m σ ncoll k)) m r).1 j) := by
    intro r
    unfold fullThickness
    rw [sampled_sum hn r (fun c => 1 / (2 * Real.pi * v^2 * m) * (c.fluctuation * Real.exp (-distSq c x y / (2 * v^2)))) fun c hc => by positivity]
    refine Finset.sum_congr rfl fun j _ => ?_
    simp only [distSq, sub_add_eq_sub_sub]
  rw [lintegral_congr e, lintegral_finsetSum (f := fun j (r : LibState) => (fun p : ℝ × ℝ × ℝ => ENNReal.ofReal (1 / (2 * Real.pi * v^2 * m) *
      (p.2.2 * Real.exp (-((x - n.x - p.1)^2 + (y - n.y - p.2.1)^2) / (2 * v^2)))))
        (relative (vecDraw (oneConstituent (NucleonCommon.make w v m σ ncoll k)) m r).1 j)) _ fun j _ => hg.comp (hmeas j)]
  have e2 : ∀ j : Fin m, ∫⁻ r : LibState, (fun p : ℝ × ℝ × ℝ => ENNReal.ofReal (1 / (2 * Real.pi * v^2 * m) *
      (p.2.2 * Real.exp (-((x - n.x - p.1)^2 + (y - n.y - p.2.1)^2) / (2 * v^2)))))
        (relative (vecDraw (oneConstituent (NucleonCommon.make w v m σ ncoll k)) m r).1 j) ∂libMix i = ENNReal.ofReal (gaussian2 w (x - n.x) (y - n.y) / m) :=
    fun j => (constituent_mean h hk j i hg).trans (term_mean h hw hk _ _)
  rw [Finset.sum_congr rfl fun j _ => e2 j, Finset.sum_const, Finset.card_univ, Fintype.card_fin, nsmul_eq_mul]
  have hm : (0:ℝ) < m := by exact_mod_cast h.1
  rw [← ENNReal.ofReal_natCast, ← ENNReal.ofReal_mul hm.le, mul_div_cancel₀ _ hm.ne']

theorem weight_mean (h : KeepsWidth w v m) (hk : 0 < k) (n : NucleonData ℝ) (hn : n.constituentsExist = false) (C : ℝ) (hC : 0 ≤ C) (i : LibMix) :
    ∫⁻ r, ENNReal.ofReal ((((NucleonCommon.make w v m σ ncoll k).sampleConstituents n r).1.constituents.map fun c => C / m * c.fluctuation).sum) ∂libMix i =
      ENNReal.ofReal C := by
  have hm : (0:ℝ) < m := by exact_mod_cast h.1
  have hp : IsProbabilityMeasure (gammaMeasure k k) := isProbabilityMeasure_gammaMeasure hk hk
  simp only [sampled_sum hn _ (fun c => C / m * c.fluctuation) fun c hc => by positivity]
  have hmeas : ∀ j : Fin m, Measurable fun r : LibState => relative (vecDraw (oneConstituent (NucleonCommon.make w v m σ ncoll k)) m r).1 j :=
    fun j => (relative_meas j).comp (measurable_fst.comp (make_vec w v m σ ncoll hk).meas)
  have hg : Measurable fun p : ℝ × ℝ × ℝ => ENNReal.ofReal (C / m * p.2.2) := by fun_prop
  rw [lintegral_finsetSum (f := fun j (r : LibState) => ENNReal.ofReal (C / m *
    (relative (vecDraw (oneConstituent (NucleonCommon.make w v m σ ncoll k)) m r).1 j).2.2)) _ fun j _ => hg.comp (hmeas j)]
  have e2 : ∀ j : Fin m, ∫⁻ r : LibState, ENNReal.ofReal (C / m * (relative (vecDraw (oneConstituent (NucleonCommon.make w v m σ ncoll k)) m r).1 j).2.2) ∂libMix i =
      ENNReal.ofReal (C / m) := by
    intro j
    rw [constituent_mean h hk j i hg]
    simp only [ENNReal.ofReal_mul (show 0 ≤ C / m by positivity)]
    rw [lintegral_const_mul _ (by fun_prop)]
    unfold Spec.constituent
    have h1 := lintegral_prod_mul (μ := gaussianReal 0 (w^2 - v^2).toNNReal) (ν := (gaussianReal 0 (w^2 - v^2).toNNReal).prod (gammaMeasure k k))
      (f := fun _ => 1) (g := fun q : ℝ × ℝ => ENNReal.ofReal q.2) (by fun_prop) (by fun_prop)
    have h2 := lintegral_prod_mul (μ := gaussianReal 0 (w^2 - v^2).toNNReal) (ν := gammaMeasure k k)
      (f := fun _ => 1) (g := fun q : ℝ => ENNReal.ofReal q) (by fun_prop) (by fun_prop)
    simp only [one_mul, lintegral_const, measure_univ, gamma_mean hk] at h1 h2
    rw [h1, h2, mul_one]
  rw [Finset.sum_congr rfl fun j _ => e2 j, Finset.sum_const, Finset.card_univ, Fintype.card_fin, nsmul_eq_mul,
    ← ENNReal.ofReal_natCast, ← ENNReal.ofReal_mul hm.le, mul_div_cancel₀ _ hm.ne']

/-- **C98, thickness.** The thickness the program computes at `(x, y)` for a nucleon, averaged over the constituents it is given, is a Gaussian of the nucleon
width around the nucleon, up to the cut at five constituent widths and the interpolated exponential: at most the Gaussian, and at least that less a
relative `2·10⁻⁵` and `4·10⁻⁶` of the peak of one constituent. -/
theorem C98_thickness (h : KeepsWidth w v m) (hw : 0 < w) (hk : 0 < k) (n : NucleonData ℝ) (hn : n.constituentsExist = false) (debug : Bool) (x y : ℝ) (i : LibMix) :
    ∫⁻ r, ifOk ((NucleonCommon.make w v m σ ncoll k).thickness debug ((NucleonCommon.make w v m σ ncoll k).sampleConstituents n r).1 x y)
        ENNReal.ofReal ∂libMix i ≤ ENNReal.ofReal (gaussian2 w (x - n.x) (y - n.y)) ∧
      ENNReal.ofReal (gaussian2 w (x - n.x) (y - n.y)) ≤
        ENNReal.ofReal 1.00002 * ∫⁻ r, ifOk ((NucleonCommon.make w v m σ ncoll k).thickness debug
          ((NucleonCommon.make w v m σ ncoll k).sampleConstituents n r).1 x y) ENNReal.ofReal ∂libMix i + ENNReal.ofReal (4e-6 / (2 * Real.pi * v^2)) := by
  have hpi := Real.pi_pos
  have hv := h.2.1
  have hm : (0:ℝ) < m := by exact_mod_cast h.1
  have hC : (0:ℝ) ≤ 1 / (2 * Real.pi * v^2 * m) := by positivity
  have hf : ∀ r : LibState, ∀ c ∈ ((NucleonCommon.make w v m σ ncoll k).sampleConstituents n r).1.constituents, 0 ≤ c.fluctuation := by
    intro r c hc
    rw [sampleConstituents_vec _ n hn r, List.mem_ofFn] at hc
    obtain ⟨j, rfl⟩ := hc
    exact vec_weight_nonneg _ _ _ j
  have hid : ∀ cs : List (Constituent ℝ), idealThickness v m cs x y = (cs.map fun c => 1 / (2 * Real.pi * v^2 * m) * idealTerm v x y c).sum := by
    intro cs
    rw [List.sum_map_mul_left]
    rfl
  have hle : ∀ c : Constituent ℝ, 0 ≤ c.fluctuation → idealTerm v x y c ≤ c.fluctuation * Real.exp (-distSq c x y / (2 * v^2)) ∧
      c.fluctuation * Real.exp (-distSq c x y / (2 * v^2)) ≤ idealTerm v x y c + 4e-6 * c.fluctuation := by
    intro c hc
    unfold idealTerm
    by_cases hd : distSq c x y < (5 * v)^2
    · rw [if_pos hd]
      exact ⟨le_rfl, by linarith⟩
    · rw [if_neg hd]
      push Not at hd
      refine ⟨by positivity, ?_⟩
      have h1 : -distSq c x y / (2 * v^2) ≤ -12.5 := by
        rw [div_le_iff₀ (by positivity)]
        nlinarith
      have h2 : Real.exp (-12.5) ≤ 4e-6 := by
        have h3 := Real.exp_one_gt_d9
        have h4 : Real.exp (-12.5) = (Real.exp 1 ^ 25)⁻¹ ^ ((1:ℝ)/2) := by
          rw [← Real.exp_nat_mul, ← Real.exp_neg, ← Real.exp_mul]
          norm_num
        rw [h4]
        have h5 : (Real.exp 1 ^ 25)⁻¹ ≤ (4e-6)^2 := by
          rw [inv_le_comm₀ (by positivity) (by norm_num)]
          calc ((4e-6:ℝ)^2)⁻¹ ≤ 2.7182818283 ^ 25 := by norm_num
            _ ≤ Real.exp 1 ^ 25 := pow_le_pow_left₀ (by norm_num) h3.le 25
        calc (Real.exp 1 ^ 25)⁻¹ ^ ((1:ℝ)/2) ≤ ((4e-6)^2) ^ ((1:ℝ)/2) := Real.rpow_le_rpow (by positivity) h5 (by norm_num)
          _ = 4e-6 := by rw [← Real.sqrt_eq_rpow, Real.sqrt_sq (by norm_num)]
      have h6 := mul_le_mul_of_nonneg_left ((Real.exp_le_exp.2 h1).trans h2) hc
      linarith
  constructor
  · rw [← full_mean (σ := σ) (ncoll := ncoll) h hw hk n hn x y i]
    refine lintegral_mono fun r => ?_
    obtain ⟨t, ht, h0, h1, h2, -⟩ := C03_thickness w v m σ ncoll k hv debug _ (hf r) x y
    simp only [ht, ifOk]
    refine ENNReal.ofReal_le_ofReal (h1.trans ?_)
    rw [hid]
    unfold fullThickness
    exact List.sum_le_sum fun c hc => mul_le_mul_of_nonneg_left (hle c (hf r c hc)).1 hC
  · have hC2 : 4e-6 * (1 / (2 * Real.pi * v^2 * m)) = 4e-6 / (2 * Real.pi * v^2) / m := by field_simp
    have hmW : Measurable fun r : LibState => ENNReal.ofReal ((((NucleonCommon.make w v m σ ncoll k).sampleConstituents n r).1.constituents.map
        fun c => 4e-6 / (2 * Real.pi * v^2) / m * c.fluctuation).sum) := by
      simp only [sampled_sum hn _ (fun c => 4e-6 / (2 * Real.pi * v^2) / m * c.fluctuation) fun c hc => by positivity]
      have hmeas : ∀ j : Fin m, Measurable fun r : LibState => relative (vecDraw (oneConstituent (NucleonCommon.make w v m σ ncoll k)) m r).1 j :=
        fun j => (relative_meas j).comp (measurable_fst.comp (make_vec w v m σ ncoll hk).meas)
      refine Finset.measurable_fun_sum _ fun j _ => ?_
      have hg : Measurable fun p : ℝ × ℝ × ℝ => ENNReal.ofReal (4e-6 / (2 * Real.pi * v^2) / m * p.2.2) := by fun_prop
      exact hg.comp (hmeas j)
    rw [← full_mean (σ := σ) (ncoll := ncoll) h hw hk n hn x y i, ← weight_mean (σ := σ) (ncoll := ncoll) h hk n hn (4e-6 / (2 * Real.pi * v^2)) (by positivity) i,
      ← lintegral_const_mul' _ _ ENNReal.ofReal_ne_top, ← lintegral_add_right _ hmW]
    refine lintegral_mono fun r => ?_
    obtain ⟨t, ht, h0, h1, h2, -⟩ := C03_thickness w v m σ ncoll k hv debug _ (hf r) x y
    simp only [ht, ifOk]
    rw [← ENNReal.ofReal_mul (by norm_num), ← ENNReal.ofReal_add (by positivity)
      (List.sum_nonneg fun a ha => by
        obtain ⟨c, hc, rfl⟩ := List.mem_map.1 ha
        have := hf r c hc
        positivity)]
    refine ENNReal.ofReal_le_ofReal ?_
    set cs := ((NucleonCommon.make w v m σ ncoll k).sampleConstituents n r).1.constituents
    have h3 : fullThickness v m ((NucleonCommon.make w v m σ ncoll k).sampleConstituents n r).1 x y ≤
        idealThickness v m cs x y + (cs.map fun c => 4e-6 / (2 * Real.pi * v^2) / m * c.fluctuation).sum := by
      rw [hid, ← List.sum_map_add]
      refine List.sum_le_sum fun c hc => ?_
      have := mul_le_mul_of_nonneg_left (hle c (hf r c hc)).2 hC
      rw [← hC2]
      linarith
    have h4 : idealThickness v m cs x y ≤ 1.00002 * t := by
      have hI : 0 ≤ idealThickness v m cs x y := h0.trans h1
      have h5 : (12.5/999)^2/8 * Real.exp (12.5/999/2) ≤ 1.99e-5 := by
        have : Real.exp (12.5/999/2) ≤ 1.0064 := by
          have h6 := Real.exp_bound_div_one_sub_of_interval (x := 12.5/999/2) (by norm_num) (by norm_num)
          exact h6.trans (by norm_num)
        calc (12.5/999)^2/8 * Real.exp (12.5/999/2) ≤ (12.5/999)^2/8 * 1.0064 := mul_le_mul_of_nonneg_left this (by norm_num)
          _ ≤ 1.99e-5 := by norm_num
      have h6 := mul_le_mul_of_nonneg_left h5 hI
      nlinarith
    linarith

end

/-! ### The hypotheses can be met -/

/-- the documented substructure: nucleons of width 0.8 fm with 6 constituents of width 0.4 fm -/
example : KeepsWidth 0.8 0.4 6 := ⟨by norm_num, by norm_num, Or.inr ⟨by norm_num, by norm_num⟩⟩

example (σ x y : ℝ) :
    ∫⁻ r, ifOk ((NucleonCommon.make 0.8 0.4 6 σ false 2).thickness false
        ((NucleonCommon.make 0.8 0.4 6 σ false 2).sampleConstituents (⟨1, 2, 3, false, false, []⟩ : NucleonData ℝ) r).1 x y) ENNReal.ofReal ∂libMix freshMix ≤
      ENNReal.ofReal (gaussian2 0.8 (x - 1) (y - 2)) :=
  (C98_thickness ⟨by norm_num, by norm_num, Or.inr ⟨by norm_num, by norm_num⟩⟩ (by norm_num) (by norm_num) _ rfl false x y freshMix).1

end Trento
