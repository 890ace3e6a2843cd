import Verif.Props.FluctuationOff
import Mathlib.Topology.UniformSpace.HeineCantor
import Mathlib.Topology.MetricSpace.Pseudo.Pi

/-!
# C106: the limit of a large fluctuation parameter

The usage page says that for large `k` the gamma distribution becomes a delta function, i.e. there are no fluctuations.  Here: the probability that a weight changes the thickness anywhere on the
grid by a given amount is at most a constant over `k`, and the distribution of the thickness grids converges to that of events without fluctuations.
-/

namespace Trento
open MeasureTheory Set Spec ProbabilityTheory Filter
open scoped ENNReal Topology

section
variable (w v : ℝ) (m : ℕ) (σ : ℝ) (ncoll : Bool) (k : ℝ) (hv : 0 < v) (debug : Bool) (X Y : ℝ)
include hv

theorem kern_le_one (p : ℝ × ℝ) : kern (NucleonCommon.make w v m σ ncoll k) debug X Y p ≤ 1 := by
  unfold kern
  split
  · rename_i h
    rw [make_radiusSq] at h
    rw [make_widthSq]
    simp only [lt_real, decide_eq_true_eq] at h
    have h0 : 0 ≤ sqr (X - p.1) + sqr (Y - p.2) := add_nonneg (mul_self_nonneg _) (mul_self_nonneg _)
    obtain ⟨e, he, -, h1, -⟩ := thickness_exp w v m σ ncoll k hv debug (d := sqr (X - p.1) + sqr (Y - p.2)) h0 h
    rw [he]
    refine h1.trans (Real.exp_le_one_iff.mpr ?_)
    exact div_nonpos_of_nonpos_of_nonneg (by linarith) (by positivity)
  · exact zero_le_one

theorem slope_sq_le (l : List (NucleonData ℝ)) (a j : ℕ) :
    slope (NucleonCommon.make w v m σ ncoll k) debug X Y l a j ^ 2 ≤ (1 / (2 * Real.pi * v^2 * m))^2 := by
  have hp := prefactor_nonneg w v m σ ncoll k
  have hk0 := kern_nonneg w v m σ ncoll k hv debug X Y
  have hk1 := kern_le_one w v m σ ncoll k hv debug X Y
  rw [← make_prefactor w v m σ ncoll k]
  generalize NucleonCommon.make w v m σ ncoll k = nc at *
  have key : 0 ≤ slope nc debug X Y l a j ∧ slope nc debug X Y l a j ≤ nc.prefactor := by
    unfold slope
    cases l[a]? with
    | none => exact ⟨le_rfl, hp⟩
    | some n =>
      dsimp only
      by_cases h : n.isParticipant = true
      · rw [if_pos h]
        cases n.constituents[j]? with
        | none => exact ⟨le_rfl, hp⟩
        | some c => exact ⟨mul_nonneg hp (hk0 _), mul_le_of_le_one_right hp (hk1 _)⟩
      · rw [if_neg h]; exact ⟨le_rfl, hp⟩
  exact pow_le_pow_left₀ key.1 key.2 2

theorem slopes_le (l : List (NucleonData ℝ)) (N M : ℕ) :
    ((List.range N).map fun a => ((List.range M).map fun j => ENNReal.ofReal (slope (NucleonCommon.make w v m σ ncoll k) debug X Y l a j ^ 2)).sum).sum ≤
      ENNReal.ofReal (N * M * (1 / (2 * Real.pi * v^2 * m))^2) := by
  have hs := slope_sq_le w v m σ ncoll k hv debug X Y l
  have gen : ∀ (N : ℕ) (f : ℕ → ℝ≥0∞) (b : ℝ≥0∞), (∀ a, f a ≤ b) → ((List.range N).map f).sum ≤ N * b := by
    intro N f b hf
    induction N with
    | zero => simp
    | succ N ih =>
      rw [List.range_succ, List.map_append, List.sum_append]
      simp only [List.map_cons, List.map_nil, List.sum_cons, List.sum_nil, add_zero]
      push_cast
      rw [add_mul, one_mul]
      exact add_le_add ih (hf N)
  refine (gen N _ _ fun a => gen M _ _ fun j => ENNReal.ofReal_le_ofReal (hs a j)).trans (le_of_eq ?_)
  rw [ENNReal.ofReal_mul (by positivity), ENNReal.ofReal_mul (by positivity), ENNReal.ofReal_natCast, ENNReal.ofReal_natCast, mul_assoc (N : ℝ≥0∞)]

theorem direct_unit_bounds {l : List (NucleonData ℝ)} {M : ℕ} (hM : ∀ n ∈ l, n.constituents.length ≤ M) :
    0 ≤ directThickness (NucleonCommon.make w v m σ ncoll k) debug (l.map NucleonData.unweigh) X Y ∧
      directThickness (NucleonCommon.make w v m σ ncoll k) debug (l.map NucleonData.unweigh) X Y ≤ l.length * (M * (1 / (2 * Real.pi * v^2 * m))) := by
  have hp := prefactor_nonneg w v m σ ncoll k
  have hk0 := kern_nonneg w v m σ ncoll k hv debug X Y
  have hk1 := kern_le_one w v m σ ncoll k hv debug X Y
  have htk := thicknessAt_kern w v m σ ncoll k hv debug X Y
  rw [← make_prefactor w v m σ ncoll k]
  generalize NucleonCommon.make w v m σ ncoll k = nc at *
  have cs : ∀ cs : List (Constituent ℝ), 0 ≤ ((cs.map fun c => ({ c with fluctuation := 1 } : Constituent ℝ)).map fun c => c.fluctuation * kern nc debug X Y (c.x, c.y)).sum ∧
      ((cs.map fun c => ({ c with fluctuation := 1 } : Constituent ℝ)).map fun c => c.fluctuation * kern nc debug X Y (c.x, c.y)).sum ≤ cs.length := by
    intro cs
    induction cs with
    | nil => simp
    | cons c cs ih =>
      simp only [List.map_cons, List.sum_cons, List.length_cons, one_mul]
      push_cast
      exact ⟨add_nonneg (hk0 _) ih.1, by linarith [hk1 (c.x, c.y), ih.2]⟩
  have one : ∀ n : NucleonData ℝ, n.constituents.length ≤ M → 0 ≤ thicknessAt nc debug n.unweigh X Y ∧ thicknessAt nc debug n.unweigh X Y ≤ M * nc.prefactor := by
    intro n hn
    rw [htk]
    have h1 := cs n.constituents
    refine ⟨mul_nonneg hp h1.1, ?_⟩
    rw [mul_comm]
    refine mul_le_mul_of_nonneg_right (h1.2.trans ?_) hp
    exact_mod_cast hn
  have hb : 0 ≤ (M:ℝ) * nc.prefactor := mul_nonneg (Nat.cast_nonneg _) hp
  unfold directThickness
  induction l with
  | nil => simp
  | cons n l ih =>
    have ih := ih fun n h => hM n (by simp [h])
    have h1 := one n (hM n (by simp))
    rw [List.map_cons, List.filter_cons, List.length_cons]
    push_cast
    split
    · rw [List.map_cons, List.sum_cons]
      exact ⟨add_nonneg h1.1 ih.1, by nlinarith [h1.2, ih.2]⟩
    · exact ⟨ih.1, by nlinarith [ih.2]⟩

end

/-- The bound on the mean squared change: nucleons times constituents times the largest thickness of one constituent squared. -/
theorem squares_mean_le (o : Options ℝ) (sigma : ℝ) (hv : 0 < o.constitWidth) (hA : NucleusHistory Tape (LibDist ℝ) o.projectileA) (hB : NucleusHistory Tape (LibDist ℝ) o.projectileB)
    (rfuel n : ℕ) (debug side : Bool) (X Y : ℝ) (i : LibMix) :
    collisionMean (libMix i) rfuel (Collider.make o sigma) o.projectileA o.projectileB n (fun x => squares (Collider.make o sigma).nc debug (nucleonsOf side x) X Y) ≤
      ENNReal.ofReal ((if side then o.projectileA else o.projectileB).nucleons.length * o.constitNumber * (1 / (2 * Real.pi * o.constitWidth^2 * o.constitNumber))^2) := by
  rw [squares_mean_meas o sigma hv hA hB rfuel n debug side X Y i le_rfl]
  refine (collisionMean_mono rfuel _ _ _ n i fun w b m A' B' w' h => ?_).trans (collisionMean_const_le rfuel (Collider.make o sigma) o.projectileA o.projectileB n _ i)
  exact slopes_le _ _ _ _ _ _ hv debug X Y _ _ _

/-- The bound of C106: `(A m / k ε²) (1 / 2π v² m)²` for a nucleus of `A` nucleons with `m` constituents of width `v`. -/
noncomputable def Spec.fluctuationBound (A m : ℕ) (v k ε : ℝ) : ℝ := A * m * (1 / (2 * Real.pi * v^2 * m))^2 / (k * ε^2)

/-- **C106, probability.** With the library's distributions and an ideal engine, at any point: the probability that the weights change the thickness of a nucleus of `A` nucleons by `ε` or more is at
most `(A m / k ε²) (1 / 2π v² m)²`. -/
theorem C106_probability (o : Options ℝ) (sigma : ℝ) (hk : 0 < o.fluctuation) (hv : 0 < o.constitWidth) (hA : NucleusHistory Tape (LibDist ℝ) o.projectileA)
    (hB : NucleusHistory Tape (LibDist ℝ) o.projectileB) (rfuel n : ℕ) (debug side : Bool) (X Y : ℝ) {ε : ℝ} (hε : 0 < ε) (i : LibMix) :
    let T : Collided → ℝ := fun x => directThickness (Collider.make o sigma).nc debug (nucleonsOf side x) X Y
    collisionMean (libMix i) rfuel (Collider.make o sigma) o.projectileA o.projectileB n ({x | ε ≤ |T x - T (unitWeights x)|}.indicator 1) ≤
      ENNReal.ofReal (fluctuationBound (if side then o.projectileA else o.projectileB).nucleons.length o.constitNumber o.constitWidth o.fluctuation ε) := by
  intro T
  obtain ⟨h1, -⟩ := C106_variance o sigma hk hv hA hB rfuel n debug side X Y i
  dsimp only at h1
  have h2 := squares_mean_le o sigma hv hA hB rfuel n debug side X Y i
  have hd := direct_meas (Collider.make o sigma).nc debug X Y
  have hT : Measurable T := hd.comp (nucleonsOf_meas side)
  have hS : MeasurableSet {x | ε ≤ |T x - T (unitWeights x)|} := measurableSet_le measurable_const (hT.sub (hT.comp unitWeights_meas)).abs
  have hind : Measurable ({x | ε ≤ |T x - T (unitWeights x)|}.indicator (1 : Collided → ℝ≥0∞)) := measurable_one.indicator hS
  -- Chebyshev
  have h3 : ENNReal.ofReal (ε^2) * collisionMean (libMix i) rfuel (Collider.make o sigma) o.projectileA o.projectileB n ({x | ε ≤ |T x - T (unitWeights x)|}.indicator 1) ≤
      collisionMean (libMix i) rfuel (Collider.make o sigma) o.projectileA o.projectileB n (fun x => ENNReal.ofReal ((T x - T (unitWeights x))^2)) := by
    rw [← collisionMean_smul rfuel _ hA hB n hind]
    refine collisionMean_mono rfuel _ _ _ n i fun w b m A' B' w' _ => ?_
    generalize collided (b, m, A', B') = x
    by_cases hx : ε ≤ |T x - T (unitWeights x)|
    · rw [Set.indicator_of_mem (by exact hx)]
      simp only [Pi.one_apply, mul_one]
      refine ENNReal.ofReal_le_ofReal ?_
      rw [← sq_abs (T x - _)]
      exact pow_le_pow_left₀ hε.le hx 2
    · rw [Set.indicator_of_notMem (by exact hx)]
      simp
  have hε2 : 0 < ε^2 := by positivity
  have h4 := h3.trans (h1.le.trans (mul_le_mul_right h2 _))
  rw [← ENNReal.ofReal_mul (by positivity)] at h4
  have h5 : collisionMean (libMix i) rfuel (Collider.make o sigma) o.projectileA o.projectileB n ({x | ε ≤ |T x - T (unitWeights x)|}.indicator 1) ≤
      ENNReal.ofReal (1 / o.fluctuation * ((if side then o.projectileA else o.projectileB).nucleons.length * o.constitNumber * (1 / (2 * Real.pi * o.constitWidth^2 * o.constitNumber))^2)) / ENNReal.ofReal (ε^2) := by
    rw [ENNReal.le_div_iff_mul_le (Or.inl (by simpa using hε.ne')) (Or.inl ENNReal.ofReal_ne_top), mul_comm]
    exact h4
  refine h5.trans (le_of_eq ?_)
  rw [← ENNReal.ofReal_div_of_pos hε2]
  congr 1
  unfold fluctuationBound
  field_simp

/-! ### Events -/

theorem collisionMean_smul' (rfuel : ℕ) (c : Collider ℝ) (A B : Nucleus ℝ) (n : ℕ) (f : Collided → ℝ≥0∞) {s : ℝ≥0∞} (hs : s ≠ ∞) (i : LibMix) :
    collisionMean (libMix i) rfuel c A B n (fun x => s * f x) = s * collisionMean (libMix i) rfuel c A B n f := by
  unfold collisionMean
  rw [← lintegral_const_mul' s _ hs]
  exact lintegral_congr fun w => ifOk_smul _ _ _

theorem nonneg_unit (x : Collided) : NonnegWeights (unitWeights x) := by
  intro n hn c hc
  simp only [unitWeights, List.mem_append, List.mem_map] at hn
  have : ∀ n' : NucleonData ℝ, n = n'.unweigh → 0 ≤ c.fluctuation := by
    rintro n' rfl
    simp only [NucleonData.unweigh, NucleonData.revise, List.mem_map] at hc
    obtain ⟨d, -, rfl⟩ := hc
    exact zero_le_one
  rcases hn with ⟨n', -, rfl⟩ | ⟨n', -, rfl⟩ <;> exact this n' rfl

/-- The collisions in which the weights change some cell of a thickness grid by `ε` or more. -/
def Spec.GridsDiffer (ec : EventCfg ℝ) (nc : NucleonCommon ℝ) (debug : Bool) {n : ℕ} (ev : Event ℝ n) (ε : ℝ) : Set Collided :=
  {x | ∃ e e1 : Event ℝ n, ev.compute ec nc debug x.2.2.1 x.2.2.2 = .ok e ∧ ev.compute ec nc debug (unitWeights x).2.2.1 (unitWeights x).2.2.2 = .ok e1 ∧
    ∃ iy ix, ε ≤ |e.TA iy ix - e1.TA iy ix| ∨ ε ≤ |e.TB iy ix - e1.TB iy ix|}

theorem grids_direct {w v : ℝ} {m : ℕ} {σ : ℝ} {ncoll : Bool} {k : ℝ} (hv : 0 < v) {c : EventCfg ℝ} (hd : 0 < c.dxy) {debug : Bool} {n : ℕ} (hn : c.nsteps = n)
    {ev e : Event ℝ n} {x : Collided} (hx : NonnegWeights x) (he : ev.compute c (NucleonCommon.make w v m σ ncoll k) debug x.2.2.1 x.2.2.2 = .ok e) (iy ix : Fin n) :
    e.TA iy ix = directThickness (NucleonCommon.make w v m σ ncoll k) debug (nucleonsOf true x) (c.center ix.val) (c.center iy.val) ∧
      e.TB iy ix = directThickness (NucleonCommon.make w v m σ ncoll k) debug (nucleonsOf false x) (c.center ix.val) (c.center iy.val) := by
  have := C21_thickness_is_direct_sum w v m σ ncoll k hv c hd debug n hn _ _ (fun a ha _ => hx a (by simp [ha])) (fun a ha _ => hx a (by simp [ha])) ev e he iy ix
  exact this

/-- **C106, grids.** The probability that the weights change some cell of one of the two thickness grids by `ε` or more is at most a constant over `k`. -/
theorem C106_events (o : Options ℝ) (sigma : ℝ) (hk : 0 < o.fluctuation) (hv : 0 < o.constitWidth) (hA : NucleusHistory Tape (LibDist ℝ) o.projectileA)
    (hB : NucleusHistory Tape (LibDist ℝ) o.projectileB) (rfuel fuel : ℕ) (ec : EventCfg ℝ) (hd : 0 < ec.dxy) (debug : Bool) {n : ℕ} (hn : ec.nsteps = n) (ev : Event ℝ n)
    {ε : ℝ} (hε : 0 < ε) (i : LibMix) :
    collisionMean (libMix i) rfuel (Collider.make o sigma) o.projectileA o.projectileB fuel ((GridsDiffer ec (Collider.make o sigma).nc debug ev ε).indicator 1) ≤
      ENNReal.ofReal (n^2 * (fluctuationBound o.projectileA.nucleons.length o.constitNumber o.constitWidth o.fluctuation ε +
        fluctuationBound o.projectileB.nucleons.length o.constitNumber o.constitWidth o.fluctuation ε)) := by
  let S : Bool × Fin n × Fin n → Set Collided := fun p =>
    {x | ε ≤ |directThickness (Collider.make o sigma).nc debug (nucleonsOf p.1 x) (ec.center p.2.2.val) (ec.center p.2.1.val) -
      directThickness (Collider.make o sigma).nc debug (nucleonsOf p.1 (unitWeights x)) (ec.center p.2.2.val) (ec.center p.2.1.val)|}
  have hS : ∀ p, MeasurableSet (S p) := by
    intro p
    have hT : Measurable fun x : Collided => directThickness (Collider.make o sigma).nc debug (nucleonsOf p.1 x) (ec.center p.2.2.val) (ec.center p.2.1.val) :=
      (direct_meas (Collider.make o sigma).nc debug _ _).comp (nucleonsOf_meas p.1)
    exact measurableSet_le measurable_const (hT.sub (hT.comp unitWeights_meas)).abs
  have h1 : collisionMean (libMix i) rfuel (Collider.make o sigma) o.projectileA o.projectileB fuel ((GridsDiffer ec (Collider.make o sigma).nc debug ev ε).indicator 1) ≤
      collisionMean (libMix i) rfuel (Collider.make o sigma) o.projectileA o.projectileB fuel fun x =>
        ((Finset.univ : Finset (Bool × Fin n × Fin n)).toList.map fun p => (S p).indicator (1 : Collided → ℝ≥0∞) x).sum := by
    refine collisionMean_mono rfuel _ _ _ fuel i fun w b m A' B' w' h => ?_
    have hx := (collided_weights _ hA hB h).1
    generalize collided (b, m, A', B') = x at *
    by_cases hd' : x ∈ GridsDiffer ec (Collider.make o sigma).nc debug ev ε
    · rw [Set.indicator_of_mem hd']
      obtain ⟨e, e1, he, he1, iy, ix, hdiff⟩ := hd'
      obtain ⟨a1, a2⟩ := grids_direct hv hd hn hx he iy ix
      obtain ⟨b1, b2⟩ := grids_direct hv hd hn (nonneg_unit x) he1 iy ix
      rw [a1, a2, b1, b2] at hdiff
      have : ∃ p, x ∈ S p := by
        rcases hdiff with hdiff | hdiff
        · exact ⟨(true, iy, ix), hdiff⟩
        · exact ⟨(false, iy, ix), hdiff⟩
      obtain ⟨p, hp⟩ := this
      rw [Finset.sum_map_toList]
      refine le_trans (le_of_eq ?_) (Finset.single_le_sum (f := fun p => (S p).indicator (1 : Collided → ℝ≥0∞) x) (fun _ _ => zero_le) (Finset.mem_univ p))
      rw [Set.indicator_of_mem hp]
    · rw [Set.indicator_of_notMem hd']
      exact zero_le
  refine h1.trans ?_
  rw [← collisionMean_list rfuel _ hA hB fuel _ (fun p => measurable_one.indicator (hS p)) i, Finset.sum_map_toList]
  have hb : ∀ p : Bool × Fin n × Fin n, collisionMean (libMix i) rfuel (Collider.make o sigma) o.projectileA o.projectileB fuel ((S p).indicator 1) ≤
      ENNReal.ofReal (fluctuationBound (if p.1 then o.projectileA else o.projectileB).nucleons.length o.constitNumber o.constitWidth o.fluctuation ε) :=
    fun p => C106_probability o sigma hk hv hA hB rfuel fuel debug p.1 _ _ hε i
  have hnn : ∀ N, 0 ≤ fluctuationBound N o.constitNumber o.constitWidth o.fluctuation ε := by
    intro N; unfold fluctuationBound; positivity
  refine (Finset.sum_le_sum fun p _ => hb p).trans (le_of_eq ?_)
  rw [Fintype.sum_prod_type, ← Finset.univ_product_univ]
  simp only [Finset.sum_const, Finset.card_product, Finset.card_univ, Fintype.card_fin, Fintype.sum_bool, if_true, Bool.false_eq_true, if_false, nsmul_eq_mul]
  rw [ENNReal.ofReal_mul (by positivity), ENNReal.ofReal_add (hnn _) (hnn _), mul_add, ENNReal.ofReal_pow (by positivity), ENNReal.ofReal_natCast]
  push_cast
  rw [sq]

/-- **C106, limit.** With the library's distributions and an ideal engine: for every bounded continuous function of the two nuclear thickness grids, its mean over the events of one collision converges, as
the fluctuation parameter grows, to its mean over the events made from the same collisions with all weights equal to 1. -/
theorem C106_limit (o : Options ℝ) (sigma : ℝ) (hk : 0 < o.fluctuation) (hv : 0 < o.constitWidth) (hA : NucleusHistory Tape (LibDist ℝ) o.projectileA)
    (hB : NucleusHistory Tape (LibDist ℝ) o.projectileB) (rfuel fuel : ℕ) (ec : EventCfg ℝ) (hd : 0 < ec.dxy) (debug : Bool) {n : ℕ} (hn : ec.nsteps = n) (hn1 : 1 ≤ n) (ev : Event ℝ n)
    {H : Grid ℝ n × Grid ℝ n → ℝ} (hH : Continuous H) {M : ℝ} (h0 : ∀ p, 0 ≤ H p) (hM : ∀ p, H p ≤ M) (i : LibMix) :
    Tendsto (fun k => ∫⁻ e, ENNReal.ofReal (H (e.2.2.TA, e.2.2.TB)) ∂eventLaw (libMix i) rfuel fuel (Collider.make { o with fluctuation := k } sigma) ec debug ev) atTop
      (𝓝 (collisionMean (libMix i) rfuel (Collider.make o sigma) o.projectileA o.projectileB fuel fun x =>
        match ev.compute ec (Collider.make o sigma).nc debug (unitWeights x).2.2.1 (unitWeights x).2.2.2 with
        | .ok e => ENNReal.ofReal (H (e.TA, e.TB))
        | .error _ => 0)) := by
  let φ : Observed n → ℝ≥0∞ := fun e => ENNReal.ofReal (H (e.2.2.TA, e.2.2.TB))
  have hφ : Measurable φ := (hH.measurable.comp (Measurable.prodMk (event_TA.comp (measurable_snd.comp measurable_snd)) (event_TB.comp (measurable_snd.comp measurable_snd)))).ennreal_ofReal
  let F : Collided → ℝ≥0∞ := onEvent ec (Collider.make o sigma).nc debug ev φ
  have hF : Measurable F := onEvent_meas ec _ debug ev hφ
  have hF1 : Measurable fun x => F (unitWeights x) := hF.comp unitWeights_meas
  have hM0 : 0 ≤ M := (h0 (fun _ _ => 0, fun _ _ => 0)).trans (hM _)
  have lim : (collisionMean (libMix i) rfuel (Collider.make o sigma) o.projectileA o.projectileB fuel fun x =>
        match ev.compute ec (Collider.make o sigma).nc debug (unitWeights x).2.2.1 (unitWeights x).2.2.2 with
        | .ok e => ENNReal.ofReal (H (e.TA, e.TB))
        | .error _ => 0) = collisionMean (libMix i) rfuel (Collider.make o sigma) o.projectileA o.projectileB fuel fun x => F (unitWeights x) := by
    congr 1
    funext x
    show _ = onEvent _ _ _ _ _ _
    unfold onEvent
    cases ev.compute ec (Collider.make o sigma).nc debug (unitWeights x).2.2.1 (unitWeights x).2.2.2 <;> rfl
  rw [lim]
  let mk : ℝ → (Collided → ℝ≥0∞) → ℝ≥0∞ := fun k => collisionMean (libMix i) rfuel (Collider.make { o with fluctuation := k } sigma) o.projectileA o.projectileB fuel
  have hmean : ∀ k, ∫⁻ e, ENNReal.ofReal (H (e.2.2.TA, e.2.2.TB)) ∂eventLaw (libMix i) rfuel fuel (Collider.make { o with fluctuation := k } sigma) ec debug ev = mk k F := by
    intro k
    rw [eventMean_law rfuel fuel { o with fluctuation := k } sigma hA hB ec debug ev (φ := φ) hφ i, eventMean_eq (libMix i) rfuel fuel { o with fluctuation := k } sigma hA hB]
    show collisionMean _ _ _ _ _ _ _ = collisionMean _ _ _ _ _ _ _
    congr 1
    funext x
    show ifOk _ _ = ifOk _ _
    have := compute_gamma ec o.nucleonWidth o.constitWidth o.constitNumber sigma o.ncoll o.fluctuation k debug ev x.2.2.1 x.2.2.2
    exact congrArg (fun r => ifOk r _) this
  simp only [hmean]
  have hpos : ∀ k, 0 < k → mk k (fun x => F (unitWeights x)) = collisionMean (libMix i) rfuel (Collider.make o sigma) o.projectileA o.projectileB fuel fun x => F (unitWeights x) :=
    fun k hk' => C105_positions o sigma hk hA hB hk' rfuel fuel hF i
  have hFM : ∀ x, F x ≤ ENNReal.ofReal M := by
    intro x
    show onEvent _ _ _ _ _ _ ≤ _
    unfold onEvent
    cases ev.compute ec (Collider.make o sigma).nc debug x.2.2.1 x.2.2.2 with
    | error e => exact zero_le
    | ok e => exact ENNReal.ofReal_le_ofReal (hM _)
  have hfin : (collisionMean (libMix i) rfuel (Collider.make o sigma) o.projectileA o.projectileB fuel fun x => F (unitWeights x)) ≠ ∞ := by
    refine ne_top_of_le_ne_top ENNReal.ofReal_ne_top ((collisionMean_mono rfuel _ _ _ fuel i fun w b m A' B' w' _ => hFM _).trans (collisionMean_const_le rfuel (Collider.make o sigma) o.projectileA o.projectileB fuel (ENNReal.ofReal M) i))
  rw [ENNReal.tendsto_nhds hfin]
  intro ε hε
  obtain ⟨δ, hδ, hδε⟩ : ∃ δ : ℝ, 0 < δ ∧ ENNReal.ofReal δ ≤ ε := by
    by_cases ht : ε = ∞
    · exact ⟨1, one_pos, by rw [ht]; exact le_top⟩
    · exact ⟨ε.toReal, ENNReal.toReal_pos hε.ne' ht, by rw [ENNReal.ofReal_toReal ht]⟩
  -- uniform continuity near the grids without fluctuations
  let R : ℝ := o.projectileA.nucleons.length * (o.constitNumber * (1 / (2 * Real.pi * o.constitWidth^2 * o.constitNumber))) +
    o.projectileB.nucleons.length * (o.constitNumber * (1 / (2 * Real.pi * o.constitWidth^2 * o.constitNumber)))
  have hK : IsCompact (Set.Icc ((fun _ _ => 0, fun _ _ => 0) : Grid ℝ n × Grid ℝ n) (fun _ _ => R, fun _ _ => R)) := isCompact_Icc
  obtain ⟨η, hη, huc⟩ := Metric.mem_uniformity_dist.mp (hK.uniformContinuousAt_of_continuousAt H (fun p _ => hH.continuousAt) (Metric.dist_mem_uniformity (half_pos hδ)))
  -- the two inequalities
  have pw : ∀ k, 0 < k → ∀ (w : LibState) b m A' B' (w' : LibState), (Collider.make { o with fluctuation := k } sigma).sampleCollision rfuel fuel o.projectileA o.projectileB w = .ok ((b, m, A', B'), w') →
      F (collided (b, m, A', B')) ≤ F (unitWeights (collided (b, m, A', B'))) + (ENNReal.ofReal (δ/2) + ENNReal.ofReal M * (GridsDiffer ec (Collider.make o sigma).nc debug ev η).indicator 1 (collided (b, m, A', B'))) ∧
      F (unitWeights (collided (b, m, A', B'))) ≤ F (collided (b, m, A', B')) + (ENNReal.ofReal (δ/2) + ENNReal.ofReal M * (GridsDiffer ec (Collider.make o sigma).nc debug ev η).indicator 1 (collided (b, m, A', B'))) := by
    intro k hk' w b m A' B' w' h
    have hx := (collided_weights _ hA hB h).1
    obtain ⟨lA, cA⟩ := found_shape hA hB h true
    obtain ⟨lB, cB⟩ := found_shape hA hB h false
    have hcn : (Collider.make { o with fluctuation := k } sigma).nc.constituentNumber = o.constitNumber := rfl
    rw [hcn] at cA cB
    simp only [if_true, Bool.false_eq_true, if_false] at lA lB
    generalize collided (b, m, A', B') = x at *
    by_cases hdiff : x ∈ GridsDiffer ec (Collider.make o sigma).nc debug ev η
    · rw [Set.indicator_of_mem hdiff]
      simp only [Pi.one_apply, mul_one]
      exact ⟨(hFM x).trans (le_add_left le_add_self), (hFM _).trans (le_add_left le_add_self)⟩
    · rw [Set.indicator_of_notMem hdiff, mul_zero, add_zero]
      have c1 := compute_fits (w := o.nucleonWidth) (m := o.constitNumber) (σ := sigma) (ncoll := o.ncoll) (k := o.fluctuation) hv hd (debug := debug) hn hn1 ev hx
      have c2 := compute_fits (w := o.nucleonWidth) (m := o.constitNumber) (σ := sigma) (ncoll := o.ncoll) (k := o.fluctuation) hv hd (debug := debug) hn hn1 ev (nonneg_unit x)
      rw [allFit_unit] at c2
      by_cases hfit : AllFit ec (Collider.make o sigma).nc x
      · obtain ⟨e, he⟩ := c1.mpr hfit
        obtain ⟨e1, he1⟩ := c2.mpr hfit
        have v1 : F x = ENNReal.ofReal (H (e.TA, e.TB)) := by
          show ifOk (ev.compute ec (Collider.make o sigma).nc debug x.2.2.1 x.2.2.2) _ = _
          rw [show ev.compute ec (Collider.make o sigma).nc debug x.2.2.1 x.2.2.2 = .ok e from he]
          rfl
        have v2 : F (unitWeights x) = ENNReal.ofReal (H (e1.TA, e1.TB)) := by
          show ifOk (ev.compute ec (Collider.make o sigma).nc debug (unitWeights x).2.2.1 (unitWeights x).2.2.2) _ = _
          rw [show ev.compute ec (Collider.make o sigma).nc debug (unitWeights x).2.2.1 (unitWeights x).2.2.2 = .ok e1 from he1]
          rfl
        have close : ∀ iy ix, |e.TA iy ix - e1.TA iy ix| < η ∧ |e.TB iy ix - e1.TB iy ix| < η := by
          intro iy ix
          by_contra hcon
          refine hdiff ⟨e, e1, he, he1, iy, ix, ?_⟩
          by_contra hcon2
          push Not at hcon2
          exact hcon hcon2
        have mem : (e1.TA, e1.TB) ∈ Set.Icc ((fun _ _ => 0, fun _ _ => 0) : Grid ℝ n × Grid ℝ n) (fun _ _ => R, fun _ _ => R) := by
          have bd : ∀ iy ix, (0 ≤ e1.TA iy ix ∧ e1.TA iy ix ≤ R) ∧ (0 ≤ e1.TB iy ix ∧ e1.TB iy ix ≤ R) := by
            intro iy ix
            obtain ⟨g1, g2⟩ := grids_direct hv hd hn (nonneg_unit x) he1 iy ix
            rw [g1, g2, nucleonsOf_unit, nucleonsOf_unit]
            have u1 := direct_unit_bounds o.nucleonWidth o.constitWidth o.constitNumber sigma o.ncoll o.fluctuation hv debug (ec.center ix.val) (ec.center iy.val) cA
            have u2 := direct_unit_bounds o.nucleonWidth o.constitWidth o.constitNumber sigma o.ncoll o.fluctuation hv debug (ec.center ix.val) (ec.center iy.val) cB
            rw [lA] at u1
            rw [lB] at u2
            have p1 : 0 ≤ (o.projectileA.nucleons.length : ℝ) * (o.constitNumber * (1 / (2 * Real.pi * o.constitWidth^2 * o.constitNumber))) := by positivity
            have p2 : 0 ≤ (o.projectileB.nucleons.length : ℝ) * (o.constitNumber * (1 / (2 * Real.pi * o.constitWidth^2 * o.constitNumber))) := by positivity
            exact ⟨⟨u1.1, u1.2.trans (by simp only [R]; linarith)⟩, ⟨u2.1, u2.2.trans (by simp only [R]; linarith)⟩⟩
          exact ⟨⟨fun iy ix => (bd iy ix).1.1, fun iy ix => (bd iy ix).2.1⟩, ⟨fun iy ix => (bd iy ix).1.2, fun iy ix => (bd iy ix).2.2⟩⟩
        have hdist : dist (e1.TA, e1.TB) (e.TA, e.TB) < η := by
          rw [Prod.dist_eq, max_lt_iff]
          refine ⟨?_, ?_⟩
          · refine (dist_pi_lt_iff hη).mpr fun iy => (dist_pi_lt_iff hη).mpr fun ix => ?_
            rw [dist_comm, Real.dist_eq]
            exact (close iy ix).1
          · refine (dist_pi_lt_iff hη).mpr fun iy => (dist_pi_lt_iff hη).mpr fun ix => ?_
            rw [dist_comm, Real.dist_eq]
            exact (close iy ix).2
        have hlt : |H (e1.TA, e1.TB) - H (e.TA, e.TB)| < δ/2 := by
          have := huc hdist mem
          rw [← Real.dist_eq]
          exact this
        rw [abs_lt] at hlt
        rw [v1, v2]
        refine ⟨?_, ?_⟩
        · rw [← ENNReal.ofReal_add (h0 _) (by positivity)]
          exact ENNReal.ofReal_le_ofReal (by linarith)
        · rw [← ENNReal.ofReal_add (h0 _) (by positivity)]
          exact ENNReal.ofReal_le_ofReal (by linarith)
      · have z : ∀ y : Collided, (¬ ∃ e, ev.compute ec (Collider.make o sigma).nc debug y.2.2.1 y.2.2.2 = .ok e) → F y = 0 := by
          intro y hy
          show ifOk (ev.compute ec (Collider.make o sigma).nc debug y.2.2.1 y.2.2.2) _ = _
          cases he : ev.compute ec (Collider.make o sigma).nc debug y.2.2.1 y.2.2.2 with
          | error e => rfl
          | ok e => exact absurd ⟨e, he⟩ hy
        rw [z x (c1.not.mpr hfit), z (unitWeights x) (c2.not.mpr hfit)]
        exact ⟨zero_le, zero_le⟩
  -- the mean of the error
  have hsame : ∀ k, GridsDiffer ec (Collider.make { o with fluctuation := k } sigma).nc debug ev η = GridsDiffer ec (Collider.make o sigma).nc debug ev η := by
    intro k
    have hg : ∀ l l', ev.compute ec (Collider.make { o with fluctuation := k } sigma).nc debug l l' = ev.compute ec (Collider.make o sigma).nc debug l l' := fun l l' =>
      compute_gamma ec o.nucleonWidth o.constitWidth o.constitNumber sigma o.ncoll o.fluctuation k debug ev l l'
    unfold GridsDiffer
    simp only [hg]
  have herr : ∀ᶠ k in atTop, ENNReal.ofReal M * mk k ((GridsDiffer ec (Collider.make o sigma).nc debug ev η).indicator 1) ≤ ENNReal.ofReal (δ/2) := by
    let D : ℝ := M * (n^2 * (fluctuationBound o.projectileA.nucleons.length o.constitNumber o.constitWidth 1 η + fluctuationBound o.projectileB.nucleons.length o.constitNumber o.constitWidth 1 η))
    have hD : Tendsto (fun k : ℝ => D / k) atTop (𝓝 0) := tendsto_const_nhds.div_atTop tendsto_id
    filter_upwards [hD.eventually_le_const (half_pos hδ), eventually_gt_atTop 0] with k hkD hk0
    have := C106_events { o with fluctuation := k } sigma hk0 hv hA hB rfuel fuel ec hd debug hn ev hη i
    rw [hsame] at this
    refine (mul_le_mul_right this _).trans ?_
    rw [← ENNReal.ofReal_mul hM0]
    refine ENNReal.ofReal_le_ofReal (le_trans (le_of_eq ?_) hkD)
    simp only [D]
    unfold fluctuationBound
    field_simp
  filter_upwards [herr, eventually_gt_atTop 0] with k hek hk0
  have split : ∀ {G : Collided → ℝ≥0∞}, Measurable G → mk k (fun x => G x + (ENNReal.ofReal (δ/2) + ENNReal.ofReal M * (GridsDiffer ec (Collider.make o sigma).nc debug ev η).indicator 1 x)) ≤ mk k G + ε := by
    intro G hG
    have e1 := collisionMean_add rfuel (Collider.make { o with fluctuation := k } sigma) hA hB fuel hG (fun x => ENNReal.ofReal (δ/2) + ENNReal.ofReal M * (GridsDiffer ec (Collider.make o sigma).nc debug ev η).indicator 1 x) i
    have e2 := collisionMean_add rfuel (Collider.make { o with fluctuation := k } sigma) hA hB fuel (f := fun _ => ENNReal.ofReal (δ/2)) measurable_const (fun x => ENNReal.ofReal M * (GridsDiffer ec (Collider.make o sigma).nc debug ev η).indicator 1 x) i
    have e3 := collisionMean_smul' rfuel (Collider.make { o with fluctuation := k } sigma) o.projectileA o.projectileB fuel ((GridsDiffer ec (Collider.make o sigma).nc debug ev η).indicator 1) (ENNReal.ofReal_ne_top (r := M)) i
    have e4 := collisionMean_const_le rfuel (Collider.make { o with fluctuation := k } sigma) o.projectileA o.projectileB fuel (ENNReal.ofReal (δ/2)) i
    refine e1.le.trans (add_le_add le_rfl ?_)
    rw [e2, e3]
    refine (add_le_add e4 hek).trans ?_
    rw [← ENNReal.ofReal_add (by positivity) (by positivity), add_halves]
    exact hδε
  have i1 : mk k F ≤ mk k (fun x => F (unitWeights x)) + ε := (collisionMean_mono rfuel _ _ _ fuel i fun w b m A' B' w' h => (pw k hk0 w b m A' B' w' h).1).trans (split hF1)
  have i2 : mk k (fun x => F (unitWeights x)) ≤ mk k F + ε := (collisionMean_mono rfuel _ _ _ fuel i fun w b m A' B' w' h => (pw k hk0 w b m A' B' w' h).2).trans (split hF)
  rw [hpos k hk0] at i1 i2
  exact ⟨tsub_le_iff_right.mpr i2, i1⟩

/-- The hypotheses are met: lead on lead with three constituents of width 1/2 fm.  With `k = 100000` the chance that the weights change the thickness of the projectile in the origin by 1 fm⁻² or more is below 1/1000. -/
example : ∃ nPb : Nucleus ℝ, createNucleus false (fun _ => .missing) "Pb" 0.5 = .ok nPb ∧ ∀ i : LibMix,
    let o := { exampleOptions with projectileA := nPb, projectileB := nPb, constitNumber := 3, constitWidth := 1/2, fluctuation := 100000 }
    let T : Collided → ℝ := fun x => directThickness (Collider.make o 3).nc true (nucleonsOf true x) 0 0
    collisionMean (libMix i) 1000 (Collider.make o 3) nPb nPb 1000 ({x | 1 ≤ |T x - T (unitWeights x)|}.indicator 1) ≤ ENNReal.ofReal (1/1000) := by
  refine ⟨_, rfl, fun i => ?_⟩
  intro o T
  have hh : NucleusHistory Tape (LibDist ℝ) o.projectileA := .create false (fun _ => .missing) "Pb" 0.5 _ rfl
  refine (C106_probability o 3 (by norm_num [o]) (by norm_num [o]) hh hh 1000 1000 true true 0 0 one_pos i).trans (ENNReal.ofReal_le_ofReal ?_)
  have hl : (if true then o.projectileA else o.projectileB).nucleons.length = 208 := by rw [if_pos rfl]; exact List.length_replicate
  rw [hl]
  show fluctuationBound 208 3 (1/2) 100000 1 ≤ 1/1000
  unfold fluctuationBound
  have hpi := Real.pi_gt_three
  have h1 : (1 / (2 * Real.pi * (1/2)^2 * (3:ℕ)) : ℝ) ≤ 1 / (2 * 3 * (1/2)^2 * 3) := by
    push_cast
    gcongr
  have h2 : (0:ℝ) ≤ 1 / (2 * Real.pi * (1/2)^2 * (3:ℕ)) := by positivity
  have h3 := pow_le_pow_left₀ h2 h1 2
  push_cast at h3 ⊢
  have h4 : (208 * 3 * (1 / (2 * Real.pi * (1/2)^2 * 3))^2 / (100000 * 1^2) : ℝ) ≤ 208 * 3 * (1 / (2 * 3 * (1/2)^2 * 3))^2 / (100000 * 1^2) := by gcongr
  refine h4.trans ?_
  norm_num

/-- The hypotheses of the limit are met: lead on lead, default grid, the thickness of the projectile in the first cell cut off at 1. -/
example : ∃ nPb : Nucleus ℝ, createNucleus false (fun _ => .missing) "Pb" 0.5 = .ok nPb ∧ ∃ (ec : EventCfg ℝ), EventCfg.make 1 0.2 10 0 = .ok ec ∧ ∀ (ev : Event ℝ 100) (i : LibMix),
    let o := { exampleOptions with projectileA := nPb, projectileB := nPb, constitNumber := 3, constitWidth := 1/2 }
    ∃ L, Tendsto (fun k => ∫⁻ e, ENNReal.ofReal (min 1 |e.2.2.TA 0 0|) ∂eventLaw (libMix i) 1000 1000 (Collider.make { o with fluctuation := k } 3) ec true ev) atTop (𝓝 L) := by
  obtain ⟨ec, hec⟩ := C20_grid_exists 1 0.2 10 0 (by norm_num) (by norm_num) (by norm_num)
  obtain ⟨g1, g2, -⟩ := C20_grid_geometry 1 0.2 10 0 (by norm_num) (by norm_num) ec hec
  have hn : ec.nsteps = (100 : ℕ) := by
    rw [g1]
    have : (2 * 10 / 0.2 : ℝ) = ((100:ℤ) : ℝ) := by norm_num
    rw [this, Int.ceil_intCast]
    rfl
  refine ⟨_, rfl, ec, hec, fun ev i => ?_⟩
  intro o
  have hh : NucleusHistory Tape (LibDist ℝ) o.projectileA := .create false (fun _ => .missing) "Pb" 0.5 _ rfl
  exact ⟨_, C106_limit o 3 (by norm_num [o, exampleOptions]) (by norm_num [o]) hh hh 1000 1000 ec (by rw [g2]; norm_num) true hn (by norm_num) ev
    (H := fun p => min 1 |p.1 0 0|) (by fun_prop) (M := 1) (fun p => le_min zero_le_one (abs_nonneg _)) (fun p => min_le_left _ _) i⟩

end Trento
