import Verif.Lemmas.ExchangeLoop
import Verif.Lemmas.HalfTurnCollision
import Verif.Props.Mirror

/-!
# C101: exchanging the projectile and the target

Which of two nuclei is called the projectile changes the order of every draw of random numbers.  It does not change the law of the events, but for half a turn about the
beam axis.
-/

namespace Trento
open MeasureTheory Set Spec
open scoped ENNReal

/-- The same options with projectile and target exchanged. -/
def Spec.exchangeOptions (o : Options ℝ) : Options ℝ := { o with projectileA := o.projectileB, projectileB := o.projectileA }

/-- The collision with the nuclei exchanged and everything turned by half a turn about the beam axis. -/
noncomputable def Spec.exchanged (x : Collided) : Collided := (x.1, x.2.1, x.2.2.2.map half, x.2.2.1.map half)

/-- The report with the grid turned by half a turn: rows and columns in opposite order, everything else the same. -/
def Spec.turnReport {n : ℕ} (r : Reported n) : Reported n := (r.1, r.2.1, r.2.2.1, r.2.2.2.1, r.2.2.2.2.1, fun iy ix => r.2.2.2.2.2 iy.rev ix.rev)

theorem exchanged_meas : Measurable exchanged :=
  measurable_fst.prodMk (Measurable.prodMk (by fun_prop) ((mapHalf_meas.comp (by fun_prop)).prodMk (mapHalf_meas.comp (by fun_prop))))

theorem turnReport_meas {n : ℕ} : Measurable (turnReport : Reported n → Reported n) := by
  unfold turnReport
  fun_prop

/-- two colliders that differ by exchange -/
structure ExchangedColliders (c c' : Collider ℝ) : Prop where
  nc : c'.nc = c.nc
  ncoll : c'.calcNcoll = c.calcNcoll
  count : c.calcNcoll = c.nc.calcNcoll
  bmin : c'.bmin = c.bmin
  bmax : c'.bmax = c.bmax
  asym : c'.asymmetry = 1 - c.asymmetry

theorem exchange_make (o : Options ℝ) (sigma : ℝ) : ExchangedColliders (Collider.make o sigma) (Collider.make (exchangeOptions o) sigma) := by
  refine ⟨rfl, rfl, rfl, rfl, ?_, ?_⟩
  · simp only [Collider.make, exchangeOptions, determineBmax]
    rw [add_comm o.projectileB.radius]
    rfl
  · simp only [Collider.make, exchangeOptions, determineAsym, lt_real, lit_real]
    rw [add_comm o.projectileB.radius]
    by_cases hs : o.projectileA.radius + o.projectileB.radius < ((0.1 : ℚ) : ℝ)
    · simp only [hs, decide_true, if_true]
      norm_num
    · simp only [hs, decide_false, Bool.false_eq_true, if_false]
      have : o.projectileA.radius + o.projectileB.radius ≠ 0 := by
        intro h0; rw [h0] at hs; exact hs (by norm_num)
      field_simp
      ring

section general
variable {α β Y W I : Type} [MeasurableSpace α] [MeasurableSpace β] [MeasurableSpace Y] [MeasurableSpace W] {μ : I → Measure W} [∀ i, IsProbabilityMeasure (μ i)]

/-- the mean of a sequence -/
theorem Renews.mean_bind {P : Y → W → Res (α × W)} {S : Y × α → W → Res (β × W)} (hP : Renews μ P) (hS : Renews μ S) (y : Y) {g : β → ℝ≥0∞} (hg : Measurable g) (i : I) :
    ∫⁻ w, ifOk (bindR (P y w) fun a w => S (y, a) w) (fun t => g t.1) ∂(μ i) =
      ∫⁻ w, ifOk (P y w) (fun t => ∫⁻ w', ifOk (S (y, t.1) w') (fun t' => g t'.1) ∂(μ i)) ∂(μ i) := by
  simp only [ifOk_bindR]
  have hh : Measurable fun t : α × W => ifOk (S (y, t.1) t.2) fun t' => g t'.1 :=
    measurable_ifOk (Z := α × W) (α := β × W) (g := fun (_ : α × W) (t' : β × W) => g t'.1) (hS.meas.comp ((measurable_const.prodMk measurable_fst).prodMk measurable_snd))
      (hg.comp (measurable_fst.comp measurable_snd))
  exact hP.law y _ hh (fun a i j => hS.const (y, a) hg i j) i i i

omit [MeasurableSpace Y] [∀ i, IsProbabilityMeasure (μ i)] in
/-- two independent programs in either order -/
theorem mean_independent (ν : Measure W) [SFinite ν] {P : W → Res (α × W)} {Q : W → Res (β × W)} (hP : Measurable P) (hQ : Measurable Q)
    {H : α → β → ℝ≥0∞} (hH : Measurable fun t : α × β => H t.1 t.2) :
    ∫⁻ w, ifOk (P w) (fun t => ∫⁻ w', ifOk (Q w') (fun t' => H t.1 t'.1) ∂ν) ∂ν = ∫⁻ w', ifOk (Q w') (fun t' => ∫⁻ w, ifOk (P w) (fun t => H t.1 t'.1) ∂ν) ∂ν := by
  have e1 : ∀ w, ifOk (P w) (fun t => ∫⁻ w', ifOk (Q w') (fun t' => H t.1 t'.1) ∂ν) = ∫⁻ w', ifOk (P w) (fun t => ifOk (Q w') fun t' => H t.1 t'.1) ∂ν := by
    intro w
    cases P w <;> simp [ifOk]
  have e2 : ∀ w', ifOk (Q w') (fun t' => ∫⁻ w, ifOk (P w) (fun t => H t.1 t'.1) ∂ν) = ∫⁻ w, ifOk (P w) (fun t => ifOk (Q w') fun t' => H t.1 t'.1) ∂ν := by
    intro w'
    cases Q w' with
    | error e =>
      simp only [ifOk]
      symm
      refine (lintegral_congr fun w => ?_).trans lintegral_zero
      cases P w <;> rfl
    | ok t' => rfl
  simp only [e1, e2]
  refine lintegral_lintegral_swap (Measurable.aemeasurable ?_)
  have hq : Measurable fun q : (W × W) × (α × W) => Q q.1.2 := hQ.comp (measurable_snd.comp measurable_fst)
  have hh : Measurable fun p : ((W × W) × (α × W)) × (β × W) => H p.1.2.1 p.2.1 :=
    hH.comp (((measurable_fst.comp measurable_snd).comp measurable_fst).prodMk (measurable_fst.comp measurable_snd))
  have k : Measurable fun q : (W × W) × (α × W) => ifOk (Q q.1.2) fun t' => H q.2.1 t'.1 :=
    measurable_ifOk (Z := (W × W) × (α × W)) (g := fun q t' => H q.2.1 t'.1) hq hh
  exact measurable_ifOk (Z := W × W) (g := fun q t => ifOk (Q q.2) fun t' => H t.1 t'.1) (hP.comp measurable_fst) k

end general

variable {E D : Type} [Rng ℝ E D]

/-- the nucleons and collisions of one attempt at impact parameter `b` -/
noncomputable def inner (rfuel : ℕ) (c : Collider ℝ) (A B : Nucleus ℝ) (b : ℝ) (w : Rand E D) :
    Res ((List (NucleonData ℝ) × List (NucleonData ℝ) × ℕ × Bool) × Rand E D) :=
  bindR ((A.sampleNucleons rfuel (c.asymmetry * b) w).map fun t => (t.1.nucleons, t.2)) fun As w =>
  bindR ((B.sampleNucleons rfuel ((c.asymmetry - lit 1) * b) w).map fun t => (t.1.nucleons, t.2)) fun Bs w =>
    .ok (pairLoop c.nc c.calcNcoll As Bs 0 false w)

/-- half a turn of the nucleons -/
noncomputable def halfAll (r : List (NucleonData ℝ) × List (NucleonData ℝ) × ℕ × Bool) : List (NucleonData ℝ) × List (NucleonData ℝ) × ℕ × Bool :=
  (r.1.map half, r.2.1.map half, r.2.2.1, r.2.2.2)

/-- what is kept of an attempt -/
noncomputable def kept (b : ℝ) (r : List (NucleonData ℝ) × List (NucleonData ℝ) × ℕ × Bool) : Collided × Bool :=
  ((b, r.2.2.1, r.1.map NucleonData.clear, r.2.1.map NucleonData.clear), r.2.2.2)

theorem attempt_inner (rfuel : ℕ) (c : Collider ℝ) (A B : Nucleus ℝ) (w : Rand E D) :
    attempt rfuel c A B w = bindR (.ok (canonical (F := ℝ) w)) fun u w =>
      bindR (inner rfuel c A B (impactFormula c.bmin c.bmax u) w) fun r w => .ok (kept (impactFormula c.bmin c.bmax u) r, w) := by
  unfold attempt inner
  simp only [bindR]
  cases (A.sampleNucleons rfuel (c.asymmetry * impactFormula c.bmin c.bmax (canonical (F := ℝ) w).1) (canonical (F := ℝ) w).2).map fun t => (t.1.nucleons, t.2) with
  | error e => rfl
  | ok t =>
    dsimp only
    cases (B.sampleNucleons rfuel ((c.asymmetry - lit 1) * impactFormula c.bmin c.bmax (canonical (F := ℝ) w).1) t.2).map fun t => (t.1.nucleons, t.2) with
    | error e => rfl
    | ok t' => rfl

variable [MeasurableSpace E] [MeasurableSpace D] {I : Type} {μ : I → Measure (Rand E D)}

section
variable (h : FreshSource E D μ)
include h

theorem renews_nucleons (rfuel : ℕ) (A : Nucleus ℝ) {Y : Type} [MeasurableSpace Y] {f : Y → ℝ} (hf : Measurable f) :
    Renews μ fun (y : Y) (w : Rand E D) => (A.sampleNucleons rfuel (f y) w).map fun t => (t.1.nucleons, t.2) :=
  (renews_sampleNucleons h rfuel A).comp hf

theorem renews_inner (rfuel : ℕ) (c : Collider ℝ) (A B : Nucleus ℝ) : Renews μ fun (b : ℝ) (w : Rand E D) => inner rfuel c A B b w := by
  have := h.prob
  have h1 := renews_nucleons h rfuel A (f := fun b : ℝ => c.asymmetry * b) (by fun_prop)
  have h2 := renews_nucleons h rfuel B (f := fun p : ℝ × List (NucleonData ℝ) => (c.asymmetry - lit 1) * p.1) (by fun_prop)
  have h3 := (renews_pairLoop h c.nc c.calcNcoll).comp (f := fun p : (ℝ × List (NucleonData ℝ)) × List (NucleonData ℝ) => ((p.2, 0, false), p.1.2)) (by fun_prop)
  exact (h1.bind (h2.bind h3)).congr fun b w => rfl

/-- the mean over the pairs -/
noncomputable def meanLoop (ν : Measure (Rand E D)) (nc : NucleonCommon ℝ) (cn : Bool) (g : List (NucleonData ℝ) × List (NucleonData ℝ) × ℕ × Bool → ℝ≥0∞)
    (As Bs : List (NucleonData ℝ)) : ℝ≥0∞ := ∫⁻ w, g (pairLoop nc cn As Bs 0 false w).1 ∂ν

theorem meanLoop_meas (nc : NucleonCommon ℝ) (cn : Bool) {g : List (NucleonData ℝ) × List (NucleonData ℝ) × ℕ × Bool → ℝ≥0∞} (hg : Measurable g) (i : I) :
    Measurable fun t : List (NucleonData ℝ) × List (NucleonData ℝ) => meanLoop (μ i) nc cn g t.1 t.2 := by
  have := h.prob
  have h3 := (renews_pairLoop h nc cn).comp (f := fun p : List (NucleonData ℝ) × List (NucleonData ℝ) => ((p.2, 0, false), p.1)) (by fun_prop)
  have hh : Measurable fun t : (List (NucleonData ℝ) × List (NucleonData ℝ)) × Rand E D => g (pairLoop nc cn t.1.1 t.1.2 0 false t.2).1 :=
    (hg.comp measurable_fst).comp (embedding_ok.measurable_comp_iff.mp h3.meas)
  exact hh.lintegral_prod_right'

theorem mean_inner (rfuel : ℕ) (c : Collider ℝ) (A B : Nucleus ℝ) (b : ℝ) {g : List (NucleonData ℝ) × List (NucleonData ℝ) × ℕ × Bool → ℝ≥0∞} (hg : Measurable g) (i : I) :
    ∫⁻ w, ifOk (inner rfuel c A B b w) (fun t => g t.1) ∂(μ i) =
      ∫⁻ w, ifOk ((A.sampleNucleons rfuel (c.asymmetry * b) w).map fun t => (t.1.nucleons, t.2)) (fun t =>
        ∫⁻ w', ifOk ((B.sampleNucleons rfuel ((c.asymmetry - lit 1) * b) w').map fun t => (t.1.nucleons, t.2)) (fun t' =>
          meanLoop (μ i) c.nc c.calcNcoll g t.1 t'.1) ∂(μ i)) ∂(μ i) := by
  have := h.prob
  have h1 := renews_nucleons h rfuel A (f := fun b : ℝ => c.asymmetry * b) (by fun_prop)
  have h2 := renews_nucleons h rfuel B (f := fun p : ℝ × List (NucleonData ℝ) => (c.asymmetry - lit 1) * p.1) (by fun_prop)
  have h3 := (renews_pairLoop h c.nc c.calcNcoll).comp (f := fun p : (ℝ × List (NucleonData ℝ)) × List (NucleonData ℝ) => ((p.2, 0, false), p.1.2)) (by fun_prop)
  refine (h1.mean_bind (h2.bind h3) b hg i).trans ?_
  refine lintegral_congr fun w => ?_
  congr 1
  funext t
  exact h2.mean_bind h3 (b, t.1) hg i

omit h [MeasurableSpace E] [MeasurableSpace D] in
theorem sampled_clean {rfuel : ℕ} {A : Nucleus ℝ} (hA : NucleusHistory E D A) {o : ℝ} {w : Rand E D} {t : List (NucleonData ℝ) × Rand E D}
    (ht : (A.sampleNucleons rfuel o w).map (fun t => (t.1.nucleons, t.2)) = .ok t) : ∀ a ∈ t.1, a.isParticipant = false := by
  cases hs : A.sampleNucleons rfuel o w with
  | error e => rw [hs] at ht; cases ht
  | ok r =>
    obtain ⟨A', w'⟩ := r
    rw [hs] at ht
    simp only [Except.map, Except.ok.injEq] at ht
    subst ht
    intro a ha
    exact ((C12_sampling_resets A A' hA _ _ _ _ hs).2 a ha).1

omit [Rng ℝ E D] h in
theorem ifOk_congr' {α : Type} {r : Res α} {f g : α → ℝ≥0∞} (hfg : ∀ t, r = .ok t → f t = g t) : ifOk r f = ifOk r g := by
  cases r with
  | error e => rfl
  | ok t => exact hfg t rfl

/-- the nuclei exchanged, at the opposite impact parameter -/
theorem inner_exchange (rfuel : ℕ) {c c' : Collider ℝ} (hc : ExchangedColliders c c') (A B : Nucleus ℝ) (hA : NucleusHistory E D A) (hB : NucleusHistory E D B) (b : ℝ)
    {g : List (NucleonData ℝ) × List (NucleonData ℝ) × ℕ × Bool → ℝ≥0∞} (hg : Measurable g) (i : I) :
    ∫⁻ w, ifOk (inner rfuel c' B A b w) (fun t => g t.1) ∂(μ i) = ∫⁻ w, ifOk (inner rfuel c A B (-b) w) (fun t => g (t.1.2.1, t.1.1, t.1.2.2)) ∂(μ i) := by
  have := h.prob
  have hg' : Measurable fun r : List (NucleonData ℝ) × List (NucleonData ℝ) × ℕ × Bool => g (r.2.1, r.1, r.2.2) := hg.comp (by fun_prop)
  rw [mean_inner h rfuel c' B A b hg i, mean_inner h rfuel c A B (-b) hg' i]
  have o1 : c'.asymmetry * b = (c.asymmetry - lit 1) * (-b) := by rw [hc.asym]; simp; ring
  have o2 : (c'.asymmetry - lit 1) * b = c.asymmetry * (-b) := by rw [hc.asym]; simp
  rw [o1, o2, hc.nc, hc.ncoll, hc.count]
  have hPm : Measurable fun w : Rand E D => (A.sampleNucleons rfuel (c.asymmetry * (-b)) w).map fun t => (t.1.nucleons, t.2) :=
    (renews_nucleons h rfuel A (f := fun _ : Unit => c.asymmetry * (-b)) measurable_const).meas1
  have hQm : Measurable fun w : Rand E D => (B.sampleNucleons rfuel ((c.asymmetry - lit 1) * (-b)) w).map fun t => (t.1.nucleons, t.2) :=
    (renews_nucleons h rfuel B (f := fun _ : Unit => (c.asymmetry - lit 1) * (-b)) measurable_const).meas1
  have hH := meanLoop_meas h c.nc c.nc.calcNcoll hg' i
  rw [mean_independent (μ i) (H := meanLoop (μ i) c.nc c.nc.calcNcoll fun r => g (r.2.1, r.1, r.2.2)) hPm hQm hH]
  refine lintegral_congr fun w => ifOk_congr' fun t ht => lintegral_congr fun w' => ifOk_congr' fun t' ht' => ?_
  exact pairLoop_exchange h c.nc t'.1 t.1 (sampled_clean hA ht') (sampled_clean hB ht) 0 false hg i

/-- the opposite impact parameter -/
theorem inner_half (hn : SymmetricNormal μ) (rfuel : ℕ) (c : Collider ℝ) (A B : Nucleus ℝ) (hA : NucleusHistory E D A) (hB : NucleusHistory E D B) :
    Equi μ (fun (b : ℝ) (w : Rand E D) => inner rfuel c A B b w) (fun b => -b) halfAll := by
  have := h.prob
  have h1 := (half_sampleNucleons h rfuel A hA).comp (f := fun b : ℝ => c.asymmetry * b) (by fun_prop) (ρ := fun b => -b) fun b => by ring
  have h2 := (half_sampleNucleons h rfuel B hB).comp (f := fun p : ℝ × List (NucleonData ℝ) => (c.asymmetry - lit 1) * p.1) (by fun_prop)
    (ρ := fun p => (-p.1, p.2.map half)) fun p => by ring
  have h3 := (half_pairLoop h hn c.nc c.calcNcoll).comp (f := fun p : (ℝ × List (NucleonData ℝ)) × List (NucleonData ℝ) => ((p.2, 0, false), p.1.2))
    (by fun_prop) (ρ := fun p => ((-p.1.1, p.1.2.map half), p.2.map half)) fun _ => rfl
  exact (h1.bind (h2.bind h3)).congr fun b w => rfl

theorem attempt_exchange (hn : SymmetricNormal μ) (rfuel : ℕ) {c c' : Collider ℝ} (hc : ExchangedColliders c c') (A B : Nucleus ℝ) (hA : NucleusHistory E D A)
    (hB : NucleusHistory E D B) {g : Collided × Bool → ℝ≥0∞} (hg : Measurable g) (i : I) :
    ∫⁻ w, ifOk (attempt rfuel c' B A w) (fun t => g t.1) ∂(μ i) = ∫⁻ w, ifOk (attempt rfuel c A B w) (fun t => g (exchanged t.1.1, t.1.2)) ∂(μ i) := by
  have := h.prob
  have hk : Measurable fun p : ℝ × (List (NucleonData ℝ) × List (NucleonData ℝ) × ℕ × Bool) => kept p.1 p.2 :=
    Measurable.prodMk (Measurable.prodMk (by fun_prop) (Measurable.prodMk (by fun_prop)
      (Measurable.prodMk (clearList_meas (by fun_prop)) (clearList_meas (by fun_prop))))) (by fun_prop)
  have key : ∀ (c : Collider ℝ) (A B : Nucleus ℝ) (g : Collided × Bool → ℝ≥0∞), Measurable g → ∫⁻ w, ifOk (attempt rfuel c A B w) (fun t => g t.1) ∂(μ i) =
      ∫⁻ w, (∫⁻ w', ifOk (inner rfuel c A B (impactFormula c.bmin c.bmax (canonical (F := ℝ) w).1) w')
        (fun t => g (kept (impactFormula c.bmin c.bmax (canonical (F := ℝ) w).1) t.1)) ∂(μ i)) ∂(μ i) := by
    intro c A B g hg
    have h1 := (renews_inner h rfuel c A B).comp (f := fun p : Unit × ℝ => impactFormula c.bmin c.bmax p.2) ((impact_meas c.bmin c.bmax).comp measurable_snd)
    have hf : Measurable fun q : (Unit × ℝ) × (List (NucleonData ℝ) × List (NucleonData ℝ) × ℕ × Bool) => kept (impactFormula c.bmin c.bmax q.1.2) q.2 :=
      hk.comp ((show Measurable fun q : (Unit × ℝ) × (List (NucleonData ℝ) × List (NucleonData ℝ) × ℕ × Bool) => impactFormula c.bmin c.bmax q.1.2 from
        (impact_meas c.bmin c.bmax).comp (by fun_prop)).prodMk measurable_snd)
    have h2 := h1.map hf
    simp only [attempt_inner]
    refine ((renews_canonical (Y := Unit) h).mean_bind h2 () hg i).trans ?_
    show ∫⁻ w, (∫⁻ w', _ ∂(μ i)) ∂(μ i) = _
    refine lintegral_congr fun w => lintegral_congr fun w' => ?_
    rw [ifOk_bindR]
    rfl
  have hg' : Measurable fun t : Collided × Bool => g (exchanged t.1, t.2) := hg.comp ((exchanged_meas.comp measurable_fst).prodMk measurable_snd)
  rw [key c' B A g hg, key c A B (fun t => g (exchanged t.1, t.2)) hg']
  rw [hc.bmin, hc.bmax]
  refine lintegral_congr fun w => ?_
  generalize impactFormula c.bmin c.bmax (canonical (F := ℝ) w).1 = b
  have hgb : Measurable fun r : List (NucleonData ℝ) × List (NucleonData ℝ) × ℕ × Bool => g (kept b r) := hg.comp (hk.comp (measurable_const.prodMk measurable_id))
  rw [inner_exchange h rfuel hc A B hA hB b hgb i]
  rw [(inner_half h hn rfuel c A B hA hB).law b (fun r => g (kept b (r.2.1, r.1, r.2.2))) (hgb.comp (by fun_prop)) i]
  refine lintegral_congr fun w' => ?_
  congr 1
  funext t
  simp only [kept, halfAll, exchanged, List.map_map, Function.comp_def, half_clear]

theorem attempts_exchange (hn : SymmetricNormal μ) (rfuel : ℕ) {c c' : Collider ℝ} (hc : ExchangedColliders c c') (A B : Nucleus ℝ) (hA : NucleusHistory E D A)
    (hB : NucleusHistory E D B) (n : ℕ) {g : Collided → ℝ≥0∞} (hg : Measurable g) (i : I) :
    ∫⁻ w, ifOk (attempts rfuel c' B A n w) (fun t => g t.1) ∂(μ i) = ∫⁻ w, ifOk (attempts rfuel c A B n w) (fun t => g (exchanged t.1)) ∂(μ i) := by
  have := h.prob
  have r' := renews_attempt h rfuel c' B A
  have r := renews_attempt h rfuel c A B
  have e := retryMean_eq r' n hg i
  have e2 := retryMean_eq r n (hg.comp exchanged_meas) i
  have hm : missProb μ (attempt rfuel c' B A) i = missProb μ (attempt rfuel c A B) i :=
    attempt_exchange h hn rfuel hc A B hA hB (g := fun a => if a.2 then 0 else 1)
      (Measurable.ite (measurable_snd (measurableSet_singleton true)) measurable_const measurable_const) i
  have h1 : retryMean μ (attempt rfuel c' B A) 1 g i = retryMean μ (attempt rfuel c A B) 1 (g ∘ exchanged) i := by
    unfold retryMean
    simp only [ifOk_retry_one]
    exact attempt_exchange h hn rfuel hc A B hA hB (g := fun a => if a.2 then g a.1 else 0)
      (Measurable.ite (measurable_snd (measurableSet_singleton true)) (hg.comp measurable_fst) measurable_const) i
  show retryMean μ (attempt rfuel c' B A) n g i = retryMean μ (attempt rfuel c A B) n (g ∘ exchanged) i
  rw [e, e2, hm, h1]

end

/-! ### The event of an exchanged collision -/

/-- the nucleon after half a turn, whether its constituents are current or not -/
noncomputable def halfEvery (n : NucleonData ℝ) : NucleonData ℝ := { n with x := -n.x, y := -n.y, constituents := n.constituents.map halfC }

theorem half_of_clear (n : NucleonData ℝ) : half n.clear = halfEvery n.clear := by
  unfold NucleonData.clear half halfEvery
  split
  · rename_i h; simp [h]
  · rename_i h; simp [h]

omit [Rng ℝ E D] [MeasurableSpace E] [MeasurableSpace D] in
/-- the event of an exchanged collision -/
theorem compute_exchange (w v : ℝ) (m : ℕ) (σ : ℝ) (ncoll : Bool) (k : ℝ) (hv : 0 < v)
    (norm dxy gmax p : ℝ) (hd : 0 < dxy) (hg : 0 < gmax) (c : EventCfg ℝ) (hc : EventCfg.make norm dxy gmax p = .ok c)
    (debug : Bool) (A B : List (NucleonData ℝ)) (hA : ∀ a ∈ A, Sound a ∧ half a = halfEvery a) (hB : ∀ b ∈ B, Sound b ∧ half b = halfEvery b)
    (L : ℝ) (hW : Within L A B) (hL : (L + 5 * v + |c.xymax|) / c.dxy < 2147483648) (ev : Event ℝ c.nsteps.toNat) (b : ℝ) (nb : ℕ) :
    ∃ e e', ev.compute c (NucleonCommon.make w v m σ ncoll k) debug A B = .ok e ∧
      ev.compute c (NucleonCommon.make w v m σ ncoll k) debug (B.map half) (A.map half) = .ok e' ∧
      report (b, nb, e') = turnReport (report (b, nb, e)) := by
  obtain ⟨g1, hdxy, g3, g4, g5, hcen⟩ := C20_grid_geometry norm dxy gmax p hd hg.le c hc
  have hd' : 0 < c.dxy := by rw [hdxy]; exact hd
  have hpos : 0 < c.nsteps := by rw [g1]; exact Int.ceil_pos.mpr (by positivity)
  have hn : c.nsteps = (c.nsteps.toNat : ℤ) := by omega
  have hn1 : 1 ≤ c.nsteps.toNat := by omega
  have eA : A.map half = A.map halfEvery := List.map_congr_left fun a ha => (hA a ha).2
  have eB : B.map half = B.map halfEvery := List.map_congr_left fun a ha => (hB a ha).2
  have hS : ∀ a ∈ A ++ B, Sound a := fun a ha => (List.mem_append.mp ha).elim (fun h => (hA a h).1) fun h => (hB a h).1
  have hok : ∀ a ∈ A ++ B, a.isParticipant = true → a.constituents ≠ [] ∧ ∀ q ∈ a.constituents, 0 ≤ q.fluctuation ∧ |q.x| ≤ L ∧ |q.y| ≤ L := by
    intro a ha hp
    obtain ⟨s1, s2⟩ := (hS a ha).2 ((hS a ha).1 hp)
    exact ⟨s1, fun q hq => ⟨s2 q hq, hW a ha hp q hq⟩⟩
  have hok' : ∀ a ∈ A.map halfEvery ++ B.map halfEvery, a.isParticipant = true →
      a.constituents ≠ [] ∧ ∀ q ∈ a.constituents, 0 ≤ q.fluctuation ∧ |q.x| ≤ L ∧ |q.y| ≤ L := by
    intro a ha hp
    rw [← List.map_append] at ha
    obtain ⟨a0, ha0, rfl⟩ := List.mem_map.mp ha
    obtain ⟨h1, h2⟩ := hok a0 ha0 hp
    refine ⟨by simpa [halfEvery] using h1, fun q hq => ?_⟩
    obtain ⟨q0, hq0, rfl⟩ := List.mem_map.mp hq
    have := h2 q0 hq0
    exact ⟨this.1, by simpa [halfC] using this.2.1, by simpa [halfC] using this.2.2⟩
  obtain ⟨e, he⟩ := C22_deposition_in_bounds w v m σ ncoll k hv c hd' debug _ hn hn1 A B L hok hL ev
  obtain ⟨e', he'⟩ := C22_deposition_in_bounds w v m σ ncoll k hv c hd' debug _ hn hn1 _ _ L hok' hL ev
  refine ⟨e, _, he, by rw [eA, eB]; exact C31_exchange add_comm mul_comm _ _ _ _ _ _ _ _ he', ?_⟩
  have hrev : ∀ i : Fin c.nsteps.toNat, c.center i.rev.val = - c.center i.val := by
    intro i
    rw [(hcen i.rev.val).1]
    congr 2
    rw [Fin.val_rev]; have := i.isLt; omega
  have fA : ∀ a ∈ A, a.isParticipant = true → ∀ q ∈ a.constituents, 0 ≤ q.fluctuation := fun a ha hp q hq => ((hok a (by simp [ha]) hp).2 q hq).1
  have fB : ∀ a ∈ B, a.isParticipant = true → ∀ q ∈ a.constituents, 0 ≤ q.fluctuation := fun a ha hp q hq => ((hok a (by simp [ha]) hp).2 q hq).1
  have hno := C30_no_cancellation w v m σ ncoll k hv c hd' debug _ hn A B fA fB ev e he
  obtain ⟨h1, h2⟩ := event_transform w v m σ ncoll k hv c hd' debug _ hn A B fA fB ev e e' he
    halfC halfEvery (fun a => ⟨rfl, rfl⟩) (fun i => (i.1.rev, i.2.rev)) (fun q i => ⟨rfl, by rw [hrev, hrev]; simp only [halfC]; ring⟩) he'
  have hTR : e'.TR = e.TR.mirrorX.mirrorY := by funext iy ix; exact h1 (iy, ix)
  have hno' : gridSum e.TR.mirrorX ≠ 0 ∨ ∀ iy ix, e.TR.mirrorX iy ix < 1e-12 := by
    rw [gridSum_mirrorX]
    exact hno.imp id fun h iy ix => h iy ix.rev
  obtain ⟨h3, h4⟩ := event_of_grid he he' (by rw [hTR, gridSum_mirrorY, gridSum_mirrorX])
    (fun k => by rw [hTR, (C30_grid_mirror_y _ hno' k).2.1, (C30_grid_mirror_x _ hno k).2.1])
  simp only [report, turnReport, h2, h3, h4, hTR]
  rfl

omit [MeasurableSpace E] [MeasurableSpace D] in
theorem attempts_half [LawfulRng E D] (rfuel : ℕ) (c : Collider ℝ) (hm : 0 < c.nc.constituentNumber) (A B : Nucleus ℝ) (hA : NucleusHistory E D A)
    (hB : NucleusHistory E D B) (n : ℕ) (w w' : Rand E D) (x : Collided) (h : attempts rfuel c A B n w = .ok (x, w')) :
    (∀ a ∈ x.2.2.1, Sound a ∧ half a = halfEvery a) ∧ ∀ a ∈ x.2.2.2, Sound a ∧ half a = halfEvery a := by
  obtain ⟨s1, s2⟩ := attempts_sound rfuel c hm A B hA hB n w w' x h
  rw [← collisionLoop_attempts rfuel c A B hA hB] at h
  cases hc : collisionLoop rfuel c n A B 0 false w with
  | error e => rw [hc] at h; cases h
  | ok t =>
    obtain ⟨⟨b, m, A1, B1⟩, w1⟩ := t
    rw [hc] at h
    simp only [Except.map, Except.ok.injEq, Prod.mk.injEq] at h
    have key : ∀ l : List (NucleonData ℝ), ∀ a ∈ l.map NucleonData.clear, half a = halfEvery a := by
      intro l a ha
      obtain ⟨a0, ha0, rfl⟩ := List.mem_map.mp ha
      exact half_of_clear a0
    rw [← h.1] at s1 s2 ⊢
    exact ⟨fun a ha => ⟨(s1 a ha).1, key _ a ha⟩, fun a ha => ⟨(s2 a ha).1, key _ a ha⟩⟩

omit [Rng ℝ E D] [MeasurableSpace E] [MeasurableSpace D] in
theorem within_exchanged (L : ℝ) (x : Collided) : Within L (exchanged x).2.2.1 (exchanged x).2.2.2 ↔ Within L x.2.2.1 x.2.2.2 := by
  unfold Within exchanged
  dsimp only
  rw [← List.map_append, List.forall_mem_map]
  have hperm : ∀ a, a ∈ x.2.2.2 ++ x.2.2.1 ↔ a ∈ x.2.2.1 ++ x.2.2.2 := fun a => by rw [List.mem_append, List.mem_append, or_comm]
  simp only [hperm]
  refine forall₂_congr fun a _ => ?_
  unfold half
  dsimp only
  refine forall_congr' fun _ => ?_
  split
  · rw [List.forall_mem_map]
    simp [halfC]
  · rfl

/-- **C101, collisions.** Exchange projectile and target in the options.  The collisions found in at most `n` attempts with the exchanged options have the distribution of
the collisions of the original options with the two nuclei exchanged and everything turned by half a turn about the beam axis (`x` and `y` of every nucleon and
constituent negated; impact parameter, number of binary collisions, participants and weights of constituents kept): every measurable function has the same mean. -/
theorem C101_collision (h : FreshSource E D μ) (hn : SymmetricNormal μ) (o : Options ℝ) (sigma : ℝ) (hA : NucleusHistory E D o.projectileA)
    (hB : NucleusHistory E D o.projectileB) (rfuel n : ℕ) (f : Collided → ℝ≥0∞) (hf : Measurable f) (i : I) :
    collisionMean (μ i) rfuel (Collider.make (exchangeOptions o) sigma) (exchangeOptions o).projectileA (exchangeOptions o).projectileB n f =
      collisionMean (μ i) rfuel (Collider.make o sigma) o.projectileA o.projectileB n (fun x => f (exchanged x)) := by
  rw [collisionMean_eq (A := (exchangeOptions o).projectileA) (B := (exchangeOptions o).projectileB) hB hA μ, collisionMean_eq hA hB μ]
  exact attempts_exchange h hn rfuel (exchange_make o sigma) o.projectileA o.projectileB hA hB n hf i

/-- **C101, events.** For every set `S` of reports, the options with projectile and target exchanged give an event with its report in `S` as often as the original options
give an event whose report, with the grid turned by half a turn, is in `S`. -/
theorem C101_event [LawfulRng E D] (h : FreshSource E D μ) (hn : SymmetricNormal μ) (o : Options ℝ) (sigma : ℝ) (hA : NucleusHistory E D o.projectileA)
    (hB : NucleusHistory E D o.projectileB) (hv : 0 < o.constitWidth) (hm : 1 ≤ o.constitNumber) (hstep : 0 < o.gridStep) (hmax : 0 < o.gridMax)
    (ec : EventCfg ℝ) (hec : EventCfg.make o.normalization o.gridStep o.gridMax o.reducedThickness = .ok ec)
    (L : ℝ) (hL : (L + 5 * o.constitWidth + |ec.xymax|) / ec.dxy < 2147483648)
    (debug : Bool) (rfuel fuel : ℕ) (ev : Event ℝ ec.nsteps.toNat) (S : Set (Reported ec.nsteps.toNat)) (hS : MeasurableSet S) (i : I) :
    (μ i) (EventWithin rfuel fuel (Collider.make (exchangeOptions o) sigma) ec debug ev L S) =
      (μ i) (EventWithin rfuel fuel (Collider.make o sigma) ec debug ev L {r | turnReport r ∈ S}) := by
  have hS' : MeasurableSet {r : Reported ec.nsteps.toNat | turnReport r ∈ S} := turnReport_meas hS
  rw [eventWithin_mean h rfuel fuel (Collider.make (exchangeOptions o) sigma) ec debug ev L hB hA hS, eventWithin_mean h rfuel fuel _ ec debug ev L hA hB hS']
  have hT := withinSet_meas (Collider.make (exchangeOptions o) sigma) ec debug ev L hS
  have key := attempts_exchange h hn rfuel (exchange_make o sigma) o.projectileA o.projectileB hA hB fuel
    (g := (withinSet (Collider.make (exchangeOptions o) sigma) ec debug ev L S).indicator 1) (measurable_one.indicator hT) i
  refine key.trans (lintegral_congr fun w => ?_)
  show ifOk (attempts rfuel (Collider.make o sigma) o.projectileA o.projectileB fuel w) _ = ifOk (attempts rfuel (Collider.make o sigma) o.projectileA o.projectileB fuel w) _
  cases ha : attempts rfuel (Collider.make o sigma) o.projectileA o.projectileB fuel w with
  | error e => rfl
  | ok t =>
    obtain ⟨x, w'⟩ := t
    obtain ⟨sA, sB⟩ := attempts_half rfuel (Collider.make o sigma) hm o.projectileA o.projectileB hA hB fuel w w' x ha
    show (withinSet (Collider.make (exchangeOptions o) sigma) ec debug ev L S).indicator 1 (exchanged x) =
      (withinSet (Collider.make o sigma) ec debug ev L {r | turnReport r ∈ S}).indicator 1 x
    have hiff : exchanged x ∈ withinSet (Collider.make (exchangeOptions o) sigma) ec debug ev L S ↔
        x ∈ withinSet (Collider.make o sigma) ec debug ev L {r | turnReport r ∈ S} := by
      simp only [withinSet, mem_ofPred_eq, within_exchanged]
      refine and_congr_right fun hW => ?_
      obtain ⟨e, e', h1, h2, h3⟩ := compute_exchange o.nucleonWidth o.constitWidth o.constitNumber sigma o.ncoll o.fluctuation hv o.normalization o.gridStep o.gridMax
        o.reducedThickness hstep hmax ec hec debug x.2.2.1 x.2.2.2 sA sB L hW hL ev x.1 x.2.1
      have h1' : ev.compute ec (Collider.make o sigma).nc debug x.2.2.1 x.2.2.2 = .ok e := h1
      have h2' : ev.compute ec (Collider.make (exchangeOptions o) sigma).nc debug (exchanged x).2.2.1 (exchanged x).2.2.2 = .ok e' := h2
      rw [h1', h2']
      simp only [Except.ok.injEq, exists_eq_left']
      show report (x.1, x.2.1, e') ∈ S ↔ _
      rw [h3]
    by_cases hx : exchanged x ∈ withinSet (Collider.make (exchangeOptions o) sigma) ec debug ev L S
    · rw [indicator_of_mem hx, indicator_of_mem (hiff.mp hx)]; rfl
    · rw [indicator_of_notMem hx, indicator_of_notMem fun h' => hx (hiff.mpr h')]

/-- **C101, runs.** If the normal random numbers are bounded (as those of a program are): for every set `S` of reports, the run of one event with projectile and target
exchanged is completed with a report in `S` as often as the original run is completed with a report that is in `S` once its grid is turned by half a turn. -/
theorem C101_run [LawfulRng E D] (h : FreshSource E D μ) (hn : SymmetricNormal μ) {K : ℝ} (hK : NormalBounded E D K) (o : Options ℝ) (sigma : ℝ) {rA rB : ℝ}
    (hA : Usable E D o.projectileA rA) (hB : Usable E D o.projectileB rB) (hv : 0 < o.constitWidth) (hm : 1 ≤ o.constitNumber)
    (h0 : 0 ≤ o.bMin) (hmin : o.bMin ≤ (Collider.make o sigma).bmax) (hstep : 0 < o.gridStep) (hmax : 0 < o.gridMax)
    (hmod : (max rA rB + (Collider.make o sigma).bmax +
      2 * (K * calcSamplingWidth o.nucleonWidth o.constitWidth o.constitNumber) +
      5 * o.constitWidth + (o.gridMax + o.gridStep)) / o.gridStep < 2147483648)
    (ec : EventCfg ℝ) (hec : EventCfg.make o.normalization o.gridStep o.gridMax o.reducedThickness = .ok ec)
    (debug : Bool) (rfuel fuel : ℕ) (ev : Event ℝ ec.nsteps.toNat) (S : Set (Reported ec.nsteps.toNat)) (hS : MeasurableSet S) (i : I) :
    (μ i) (Event1 rfuel fuel (Collider.make (exchangeOptions o) sigma) ec debug ev {x | report x ∈ S}) =
      (μ i) (Event1 rfuel fuel (Collider.make o sigma) ec debug ev {x | turnReport (report x) ∈ S}) := by
  obtain ⟨g1, g2, g3, g4, g5, -⟩ := C20_grid_geometry o.normalization o.gridStep o.gridMax o.reducedThickness hstep hmax.le ec hec
  have hbm := (exchange_make o sigma).bmax
  have hmin' : (exchangeOptions o).bMin ≤ (Collider.make (exchangeOptions o) sigma).bmax := by rw [hbm]; exact hmin
  have e1 := event1_within hK (exchangeOptions o) sigma hB hA hm h0 hmin' ec debug rfuel fuel ev S
  have e2 := event1_within hK o sigma hA hB hm h0 hmin ec debug rfuel fuel ev {r | turnReport r ∈ S}
  show (μ i) (Event1 rfuel fuel (Collider.make (exchangeOptions o) sigma) ec debug ev (report ⁻¹' S)) =
    (μ i) (Event1 rfuel fuel (Collider.make o sigma) ec debug ev (report ⁻¹' {r | turnReport r ∈ S}))
  rw [e1, e2, hbm, max_comm rB rA]
  refine C101_event h hn o sigma hA.hist hB.hist hv hm hstep hmax ec hec
    (max rA rB + (Collider.make o sigma).bmax + 2 * (K * calcSamplingWidth o.nucleonWidth o.constitWidth o.constitNumber)) ?_ debug rfuel fuel ev S hS i
  rw [g2]
  refine lt_of_le_of_lt ?_ hmod
  apply div_le_div_of_nonneg_right _ hstep.le
  have hx : |ec.xymax| ≤ o.gridMax + o.gridStep := by
    rw [abs_of_nonneg (by linarith)]
    linarith
  linarith

/-- **C101, means.** Under the same conditions every non-negative function of the report has the same mean over the events of the exchanged options and over the turned
events of the original options; in particular so has the entropy in a cell of the grid. -/
theorem C101_mean [LawfulRng E D] (h : FreshSource E D μ) (hn : SymmetricNormal μ) {K : ℝ} (hK : NormalBounded E D K) (o : Options ℝ) (sigma : ℝ) {rA rB : ℝ}
    (hA : Usable E D o.projectileA rA) (hB : Usable E D o.projectileB rB) (hv : 0 < o.constitWidth) (hm : 1 ≤ o.constitNumber)
    (h0 : 0 ≤ o.bMin) (hmin : o.bMin ≤ (Collider.make o sigma).bmax) (hstep : 0 < o.gridStep) (hmax : 0 < o.gridMax)
    (hmod : (max rA rB + (Collider.make o sigma).bmax +
      2 * (K * calcSamplingWidth o.nucleonWidth o.constitWidth o.constitNumber) +
      5 * o.constitWidth + (o.gridMax + o.gridStep)) / o.gridStep < 2147483648)
    (ec : EventCfg ℝ) (hec : EventCfg.make o.normalization o.gridStep o.gridMax o.reducedThickness = .ok ec)
    (debug : Bool) (rfuel fuel : ℕ) (ev : Event ℝ ec.nsteps.toNat) (i : I) :
    (∀ f : Reported ec.nsteps.toNat → ℝ≥0∞, Measurable f →
      ∫⁻ x, f (report x) ∂eventLaw (μ i) rfuel fuel (Collider.make (exchangeOptions o) sigma) ec debug ev =
        ∫⁻ x, f (turnReport (report x)) ∂eventLaw (μ i) rfuel fuel (Collider.make o sigma) ec debug ev) ∧
    ∀ iy ix, ∫⁻ x, ENNReal.ofReal (x.2.2.TR iy ix) ∂eventLaw (μ i) rfuel fuel (Collider.make (exchangeOptions o) sigma) ec debug ev =
      ∫⁻ x, ENNReal.ofReal (x.2.2.TR iy.rev ix.rev) ∂eventLaw (μ i) rfuel fuel (Collider.make o sigma) ec debug ev := by
  have main : ∀ f : Reported ec.nsteps.toNat → ℝ≥0∞, Measurable f →
      ∫⁻ x, f (report x) ∂eventLaw (μ i) rfuel fuel (Collider.make (exchangeOptions o) sigma) ec debug ev =
        ∫⁻ x, f (turnReport (report x)) ∂eventLaw (μ i) rfuel fuel (Collider.make o sigma) ec debug ev := by
    intro f hf
    have hmr : Measurable fun x : Observed ec.nsteps.toNat => turnReport (report x) := turnReport_meas.comp report_meas
    have e : (eventLaw (μ i) rfuel fuel (Collider.make (exchangeOptions o) sigma) ec debug ev).map report =
        (eventLaw (μ i) rfuel fuel (Collider.make o sigma) ec debug ev).map fun x => turnReport (report x) := by
      ext S hS
      rw [Measure.map_apply report_meas hS, Measure.map_apply hmr hS,
        C92_law h rfuel fuel (Collider.make (exchangeOptions o) sigma) ec debug ev hB.hist hA.hist _ (report_meas hS) i,
        C92_law h rfuel fuel _ ec debug ev hA.hist hB.hist _ (hmr hS) i]
      exact C101_run h hn hK o sigma hA hB hv hm h0 hmin hstep hmax hmod ec hec debug rfuel fuel ev S hS i
    rw [← lintegral_map hf report_meas, e, lintegral_map hf hmr]
  refine ⟨main, fun iy ix => ?_⟩
  have hf : Measurable fun r : Reported ec.nsteps.toNat => ENNReal.ofReal (r.2.2.2.2.2 iy ix) := by
    have : Measurable fun r : Reported ec.nsteps.toNat => r.2.2.2.2.2 iy ix := by fun_prop
    exact this.ennreal_ofReal
  exact main _ hf

/-- **C101, equal nuclei.** With the same nucleus as projectile and target, the mean entropy in a cell is the mean entropy in the opposite cell, and in the two
mirror images of the cell: the mean profile has the full symmetry of the rectangle, although single events have none of it. -/
theorem C101_identical [LawfulRng E D] (h : FreshSource E D μ) (hn : SymmetricNormal μ) {K : ℝ} (hK : NormalBounded E D K) (o : Options ℝ) (sigma : ℝ) {r : ℝ}
    (hA : Usable E D o.projectileA r) (hAB : o.projectileB = o.projectileA) (hv : 0 < o.constitWidth) (hm : 1 ≤ o.constitNumber)
    (h0 : 0 ≤ o.bMin) (hmin : o.bMin ≤ (Collider.make o sigma).bmax) (hstep : 0 < o.gridStep) (hmax : 0 < o.gridMax)
    (hmod : (r + (Collider.make o sigma).bmax +
      2 * (K * calcSamplingWidth o.nucleonWidth o.constitWidth o.constitNumber) +
      5 * o.constitWidth + (o.gridMax + o.gridStep)) / o.gridStep < 2147483648)
    (ec : EventCfg ℝ) (hec : EventCfg.make o.normalization o.gridStep o.gridMax o.reducedThickness = .ok ec)
    (debug : Bool) (rfuel fuel : ℕ) (ev : Event ℝ ec.nsteps.toNat) (i : I) (iy ix) :
    ∫⁻ x, ENNReal.ofReal (x.2.2.TR iy ix) ∂eventLaw (μ i) rfuel fuel (Collider.make o sigma) ec debug ev =
      ∫⁻ x, ENNReal.ofReal (x.2.2.TR iy.rev ix.rev) ∂eventLaw (μ i) rfuel fuel (Collider.make o sigma) ec debug ev ∧
    ∫⁻ x, ENNReal.ofReal (x.2.2.TR iy ix) ∂eventLaw (μ i) rfuel fuel (Collider.make o sigma) ec debug ev =
      ∫⁻ x, ENNReal.ofReal (x.2.2.TR iy ix.rev) ∂eventLaw (μ i) rfuel fuel (Collider.make o sigma) ec debug ev ∧
    ∫⁻ x, ENNReal.ofReal (x.2.2.TR iy ix) ∂eventLaw (μ i) rfuel fuel (Collider.make o sigma) ec debug ev =
      ∫⁻ x, ENNReal.ofReal (x.2.2.TR iy.rev ix) ∂eventLaw (μ i) rfuel fuel (Collider.make o sigma) ec debug ev := by
  have hB : Usable E D o.projectileB r := by rw [hAB]; exact hA
  have hmod' : (max r r + (Collider.make o sigma).bmax +
      2 * (K * calcSamplingWidth o.nucleonWidth o.constitWidth o.constitNumber) +
      5 * o.constitWidth + (o.gridMax + o.gridStep)) / o.gridStep < 2147483648 := by rw [max_self]; exact hmod
  have hx : exchangeOptions o = o := by
    unfold exchangeOptions
    rw [hAB]
    cases o
    cases hAB
    rfl
  have h1 := (C101_mean h hn hK o sigma hA hB hv hm h0 hmin hstep hmax hmod' ec hec debug rfuel fuel ev i).2
  rw [hx] at h1
  have h2 := (C100_mean h hn hK o sigma hA hB hv hm h0 hmin hstep hmax hmod' ec hec debug rfuel fuel ev i).2
  refine ⟨h1 iy ix, ?_, h2 iy ix⟩
  rw [h1 iy ix, h2 iy.rev ix.rev, Fin.rev_rev]

/-- Non-vacuity: the proton-proton run of `exampleOptions`, which can deliver events, meets all hypotheses. -/
example (iy ix : Fin 100) : ∃ (ec : EventCfg ℝ) (hn : ec.nsteps.toNat = 100), ∀ ev : Event ℝ ec.nsteps.toNat,
    ∫⁻ x, ENNReal.ofReal (x.2.2.TR (iy.cast hn.symm) (ix.cast hn.symm)) ∂eventLaw (freshTape ()) 1 1 (Collider.make exampleOptions 100) ec true ev =
      ∫⁻ x, ENNReal.ofReal (x.2.2.TR (iy.cast hn.symm).rev (ix.cast hn.symm).rev) ∂eventLaw (freshTape ()) 1 1 (Collider.make exampleOptions 100) ec true ev := by
  obtain ⟨ec, hec⟩ := C20_grid_exists exampleOptions.normalization exampleOptions.gridStep exampleOptions.gridMax exampleOptions.reducedThickness
    (by norm_num [exampleOptions]) (by norm_num [exampleOptions]) (by norm_num [exampleOptions])
  obtain ⟨g1, -⟩ := C20_grid_geometry exampleOptions.normalization exampleOptions.gridStep exampleOptions.gridMax exampleOptions.reducedThickness
    (by norm_num [exampleOptions]) (by norm_num [exampleOptions]) ec hec
  have hn : ec.nsteps.toNat = 100 := by
    rw [g1]
    norm_num [exampleOptions]
    rfl
  have hu : Usable Tape Unit (mkProton : Nucleus ℝ) 0 := by
    have hh : NucleusHistory Tape Unit (mkProton : Nucleus ℝ) := .create false (fun _ => .missing) "p" 0 _ rfl
    exact ⟨hh, trivial, reach_proton⟩
  have hbm : (Collider.make exampleOptions 100).bmax = 1 := (C35_bmax exampleOptions (by norm_num [exampleOptions]) 100).1 (by norm_num [exampleOptions])
  have hsw : calcSamplingWidth exampleOptions.nucleonWidth exampleOptions.constitWidth exampleOptions.constitNumber = 0 :=
    C09_sampling_width_zero _ _ 1 (.inl rfl)
  refine ⟨ec, hn, fun ev => ?_⟩
  exact (C101_identical freshTape_fresh tape_symmetric tape_normalBounded exampleOptions 100 hu rfl (by norm_num [exampleOptions]) (by norm_num [exampleOptions])
    (by norm_num [exampleOptions]) (by rw [hbm]; norm_num [exampleOptions])
    (by norm_num [exampleOptions]) (by norm_num [exampleOptions]) (by rw [hbm, hsw]; norm_num [exampleOptions]) ec hec true 1 1 ev () _ _).1

/-- Non-vacuity with different nuclei: a proton on a deuteron against a deuteron on a proton. -/
example (f : Collided → ℝ≥0∞) (hf : Measurable f) : ∃ d : Nucleus ℝ, createNucleus false (fun _ => .missing) "d" 0 = .ok d ∧
    collisionMean (freshTape ()) 5 (Collider.make { exampleOptions with projectileA := d, projectileB := mkProton } 100) d mkProton 3 f =
      collisionMean (freshTape ()) 5 (Collider.make { exampleOptions with projectileA := mkProton, projectileB := d } 100) mkProton d 3 fun x => f (exchanged x) := by
  have hp : NucleusHistory Tape Unit (mkProton : Nucleus ℝ) := .create false (fun _ => .missing) "p" 0 _ rfl
  refine ⟨_, rfl, ?_⟩
  exact C101_collision freshTape_fresh tape_symmetric { exampleOptions with projectileA := mkProton, projectileB := _ } 100 hp
    (.create false (fun _ => .missing) "d" 0 _ rfl) 5 3 f hf ()

end Trento
