import Verif.Lemmas.BinaryGeometry
import Verif.Lemmas.Iterate

/-!
# The density of nucleons in the transverse plane
-/

namespace Trento
open MeasureTheory Set Spec
open scoped ENNReal

variable {E D : Type} [Rng ℝ E D]

/-- the sum of unit masses at the transverse positions of the nucleons -/
noncomputable def masses (ns : List (NucleonData ℝ)) : Measure (ℝ × ℝ) := (ns.map fun n => Measure.dirac (n.x, n.y)).sum

theorem lintegral_masses (ns : List (NucleonData ℝ)) {f : ℝ × ℝ → ℝ≥0∞} (hf : Measurable f) : ∫⁻ p, f p ∂(masses ns) = (ns.map fun n => f (n.x, n.y)).sum := by
  unfold masses
  induction ns with
  | nil => simp
  | cons n ns ih => rw [List.map_cons, List.sum_cons, List.map_cons, List.sum_cons, lintegral_add_measure, lintegral_dirac' _ hf, ih]

theorem sumMap_meas {α Z : Type} [MeasurableSpace α] [MeasurableSpace Z] {f : Z → α → ℝ≥0∞} (hf : Measurable fun p : Z × α => f p.1 p.2) :
    Measurable fun t : Z × List α => (t.2.map (f t.1)).sum := by
  have h1 : Measurable fun t : Z × List α => t.2.foldl (fun s a => s + f t.1 a) (0 : ℝ≥0∞) :=
    Measurable.listFoldl (Y := Z) (α := α) (β := ℝ≥0∞) (g := fun z s a => s + f z a) (y := Prod.fst) (b := fun _ => 0) (l := Prod.snd)
      ((measurable_fst.comp measurable_snd).add (hf.comp (measurable_fst.prodMk (measurable_snd.comp measurable_snd)))) measurable_fst measurable_const measurable_snd
  refine measurable_of_eq h1 fun t => ?_
  have : ∀ (l : List α) (s : ℝ≥0∞), l.foldl (fun s a => s + f t.1 a) s = s + (l.map (f t.1)).sum := by
    intro l
    induction l with
    | nil => intro s; simp
    | cons a l ih => intro s; rw [List.foldl_cons, ih, List.map_cons, List.sum_cons, add_assoc]
  rw [this, zero_add]

theorem posSum_meas {f : ℝ × ℝ → ℝ≥0∞} (hf : Measurable f) : Measurable fun ns : List (NucleonData ℝ) => (ns.map fun n => f (n.x, n.y)).sum := by
  have h1 := sumMap_meas (Z := Unit) (α := NucleonData ℝ) (f := fun _ n => f (n.x, n.y)) ((hf.comp (nucleon_x.prodMk nucleon_y)).comp measurable_snd)
  exact h1.comp ((measurable_const (a := ())).prodMk measurable_id)

theorem masses_meas : Measurable masses := by
  refine Measure.measurable_of_measurable_coe _ fun s hs => ?_
  refine measurable_of_eq (posSum_meas (measurable_one.indicator hs)) fun ns => ?_
  rw [← lintegral_indicator_one hs, lintegral_masses _ (measurable_one.indicator hs)]

variable [MeasurableSpace E] [MeasurableSpace D] {I : Type} {μ : I → Measure (Rand E D)}

/-- The mean number of nucleons of a sampled nucleus centred at the origin, per area of the transverse plane: the measure of a set is the mean number of nucleons whose
transverse position is in the set.  (Samplings that do not end within `rfuel` rejections count as 0; there are none for protons, spherical nuclei and
nuclei from files.) -/
noncomputable def Spec.nucleonDensity (ν : Measure (Rand E D)) (rfuel : ℕ) (A : Nucleus ℝ) : Measure (ℝ × ℝ) :=
  (okLaw ν fun w => (A.sampleNucleons rfuel 0 w).map fun t => t.1.nucleons).bind masses

section
variable (h : FreshSource E D μ)
include h

theorem nucleons_meas (rfuel : ℕ) (A : Nucleus ℝ) (b : ℝ) : Measurable fun w : Rand E D => (A.sampleNucleons rfuel b w).map fun t => t.1.nucleons := by
  have h1 := (renews_nucleons h rfuel A (f := fun _ : Unit => b) measurable_const).meas1
  have h2 : Measurable fun w : Rand E D => (A.sampleNucleons rfuel b w).map fun t => (t.1.nucleons, t.2) := h1
  have h3 : Measurable fun p : Rand E D × (List (NucleonData ℝ) × Rand E D) => (Except.ok p.2.1 : Res (List (NucleonData ℝ))) :=
    measurable_ok.comp (measurable_fst.comp measurable_snd)
  refine measurable_of_eq (measurable_exBind (g := fun _ a => .ok a.1) h2 h3) fun w => ?_
  cases A.sampleNucleons rfuel b w <;> rfl

theorem lintegral_density (rfuel : ℕ) (A : Nucleus ℝ) (i : I) {f : ℝ × ℝ → ℝ≥0∞} (hf : Measurable f) :
    ∫⁻ p, f p ∂(nucleonDensity (μ i) rfuel A) = ∫⁻ w, ifOk (A.sampleNucleons rfuel 0 w) (fun t => (t.1.nucleons.map fun n => f (n.x, n.y)).sum) ∂(μ i) := by
  unfold nucleonDensity
  rw [Measure.lintegral_bind masses_meas.aemeasurable hf.aemeasurable]
  simp only [lintegral_masses _ hf]
  rw [lintegral_okLaw (nucleons_meas h rfuel A 0) (posSum_meas hf)]
  refine lintegral_congr fun w => ?_
  cases A.sampleNucleons rfuel 0 w <;> rfl

/-- what the measure of a set is: the mean number of nucleons in the set -/
theorem density_apply (rfuel : ℕ) (A : Nucleus ℝ) (i : I) {s : Set (ℝ × ℝ)} (hs : MeasurableSet s) :
    nucleonDensity (μ i) rfuel A s = ∫⁻ w, ifOk (A.sampleNucleons rfuel 0 w) (fun t => (t.1.nucleons.map fun n => s.indicator 1 (n.x, n.y)).sum) ∂(μ i) := by
  rw [← lintegral_indicator_one hs, lintegral_density h rfuel A i (measurable_one.indicator hs)]

omit [MeasurableSpace E] [MeasurableSpace D] h in
theorem sampled_count {rfuel : ℕ} {A : Nucleus ℝ} (hA : NucleusHistory E D A) {o : ℝ} {w : Rand E D} {t : Nucleus ℝ × Rand E D}
    (ht : A.sampleNucleons rfuel o w = .ok t) : t.1.nucleons.length = A.nucleons.length := (C12_sampling_resets A t.1 hA _ _ _ t.2 ht).1

/-- the total: number of nucleons times the probability that the sampling ends -/
theorem density_univ (rfuel : ℕ) {A : Nucleus ℝ} (hA : NucleusHistory E D A) (i : I) :
    nucleonDensity (μ i) rfuel A univ = A.nucleons.length * ∫⁻ w, ifOk (A.sampleNucleons rfuel 0 w) (fun _ => 1) ∂(μ i) := by
  rw [density_apply h rfuel A i MeasurableSet.univ, ← lintegral_const_mul' _ _ (ENNReal.natCast_ne_top _)]
  refine lintegral_congr fun w => ?_
  cases hs : A.sampleNucleons rfuel 0 w with
  | error e => simp [ifOk]
  | ok t =>
    simp only [ifOk, indicator_univ, Pi.one_apply, List.map_const', List.sum_replicate, sampled_count hA hs, nsmul_eq_mul]

theorem density_finite (rfuel : ℕ) {A : Nucleus ℝ} (hA : NucleusHistory E D A) (i : I) : IsFiniteMeasure (nucleonDensity (μ i) rfuel A) := by
  have := h.prob
  refine ⟨?_⟩
  rw [density_univ h rfuel hA i]
  refine ENNReal.mul_lt_top (ENNReal.natCast_lt_top _) (lt_of_le_of_lt (b := 1) ?_ ENNReal.one_lt_top)
  calc ∫⁻ w, ifOk (A.sampleNucleons rfuel 0 w) (fun _ => 1) ∂(μ i) ≤ ∫⁻ _, 1 ∂(μ i) := by
        refine lintegral_mono fun w => ?_
        show ifOk (A.sampleNucleons rfuel 0 w) (fun _ => 1) ≤ 1
        cases A.sampleNucleons rfuel 0 w <;> simp [ifOk]
    _ = 1 := by simp

theorem density_const (rfuel : ℕ) (A : Nucleus ℝ) (i j : I) : nucleonDensity (μ i) rfuel A = nucleonDensity (μ j) rfuel A := by
  have := h.prob
  ext s hs
  rw [density_apply h rfuel A i hs, density_apply h rfuel A j hs]
  have h1 := (renews_nucleons h rfuel A (f := fun _ : Unit => (0:ℝ)) measurable_const).const () (posSum_meas (measurable_one.indicator hs)) i j
  have e : ∀ k, ∫⁻ w, ifOk (A.sampleNucleons rfuel 0 w) (fun t => (t.1.nucleons.map fun n => s.indicator 1 (n.x, n.y)).sum) ∂(μ k) =
      ∫⁻ w, ifOk ((A.sampleNucleons rfuel 0 w).map fun t => (t.1.nucleons, t.2)) (fun t => (t.1.map fun n => s.indicator 1 (n.x, n.y)).sum) ∂(μ k) := by
    intro k
    refine lintegral_congr fun w => ?_
    cases A.sampleNucleons rfuel 0 w <;> rfl
  rw [e, e]
  exact h1

end

/-! ### Rotations about the beam axis -/

/-- a point of the transverse plane turned by the angle with this cosine and sine -/
def Spec.turnPoint (c s : ℝ) (p : ℝ × ℝ) : ℝ × ℝ := (c * p.1 - s * p.2, s * p.1 + c * p.2)

theorem turnPoint_meas (c s : ℝ) : Measurable (turnPoint c s) := by unfold turnPoint; fun_prop

/-- the positions as a function of the index, summed -/
theorem sum_config (ns : List (NucleonData ℝ)) (f : ℝ × ℝ → ℝ≥0∞) :
    (ns.map fun n => f (n.x, n.y)).sum = ∑ k ∈ Finset.range ns.length, f (config 0 ns k 0, config 0 ns k 1) := by
  induction ns with
  | nil => simp
  | cons n ns ih =>
    rw [List.map_cons, List.sum_cons, List.length_cons, Finset.sum_range_succ', ih, add_comm]
    congr 1
    simp [config, relPos]

/-- **isotropy** of the density -/
theorem density_turn [LawfulRng E D] (h : FreshSource E D μ) {ν : Measure E} (hν : IdealSource E D ν) (i : I) (d : D)
    (hμ : μ i = ν.map fun e => (⟨e, d⟩ : Rand E D)) (rfuel : ℕ) {A : Nucleus ℝ} (hA : NucleusHistory E D A) {c s : ℝ} (hcs : c^2 + s^2 = 1)
    {f : ℝ × ℝ → ℝ≥0∞} (hf : Measurable f) (j : I) :
    ∫⁻ p, f (turnPoint c s p) ∂(nucleonDensity (μ j) rfuel A) = ∫⁻ p, f p ∂(nucleonDensity (μ j) rfuel A) := by
  have hF : ∀ f : ℝ × ℝ → ℝ≥0∞, Measurable f → ∫⁻ p, f p ∂(nucleonDensity (μ j) rfuel A) =
      ∫⁻ e, ifOk (A.sampleNucleons rfuel 0 (⟨e, d⟩ : Rand E D)) (fun r => ∑ k ∈ Finset.range A.nucleons.length, f (config 0 r.1.nucleons k 0, config 0 r.1.nucleons k 1)) ∂ν := by
    intro f hf
    have hm : Measurable fun w : Rand E D => ifOk (A.sampleNucleons rfuel 0 w) (fun t => (t.1.nucleons.map fun n => f (n.x, n.y)).sum) := by
      have h1 := measurable_ifOk (Z := Rand E D) (g := fun _ l => (l.map fun n : NucleonData ℝ => f (n.x, n.y)).sum) (nucleons_meas h rfuel A 0)
        ((posSum_meas hf).comp measurable_snd)
      refine measurable_of_eq h1 fun w => ?_
      cases A.sampleNucleons rfuel 0 w <;> rfl
    have hmk : Measurable fun e : E => (⟨e, d⟩ : Rand E D) := rand_mk measurable_id measurable_const
    rw [density_const h rfuel A j i, lintegral_density h rfuel A i hf, hμ, lintegral_map hm hmk]
    refine lintegral_congr fun e => ifOk_congr' fun t ht => ?_
    rw [sum_config, sampled_count hA ht]
  rw [hF (fun p => f (turnPoint c s p)) (hf.comp (turnPoint_meas c s)), hF _ hf]
  have key := C85_isotropic hν A hA rfuel 0 d (rotZ c s) (rotZ_mem hcs)
    (fun cfg => ∑ k ∈ Finset.range A.nucleons.length, f (cfg k 0, cfg k 1)) (Finset.measurable_fun_sum _ fun k _ => hf.comp (by fun_prop))
  rw [← key]
  refine lintegral_congr fun e => ?_
  congr 1
  funext r
  refine Finset.sum_congr rfl fun k _ => ?_
  congr 1
  simp [turnPoint, rotZ, Matrix.mulVec, dotProduct, Fin.sum_univ_three]
  ring

end Trento
