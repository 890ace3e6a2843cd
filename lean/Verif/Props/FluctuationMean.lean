import Verif.Props.WoundedScaling
import Verif.Lemmas.MeanTangent

/-!
# C114: what the fluctuations do to the mean multiplicity

For `0 ≤ p ≤ 1` the fluctuations lower the mean reduced thickness everywhere and the mean multiplicity, for `p ≥ 1` they
raise them; as the fluctuation parameter grows the means converge to those of events without fluctuations.
-/

namespace Trento.Spec
open scoped ENNReal
/-- The mean of `φ` over the events made from the collisions of the program with every weight replaced by 1. -/
noncomputable def meanWithoutFluctuations (i : LibMix) (rfuel fuel : ℕ) (o : Options ℝ) (sigma : ℝ) (ec : EventCfg ℝ) (debug : Bool) {n : ℕ}
    (ev : Event ℝ n) (φ : Event ℝ n → ℝ≥0∞) : ℝ≥0∞ :=
  collisionMean (libMix i) rfuel (Collider.make o sigma) o.projectileA o.projectileB fuel fun x =>
    match ev.compute ec (Collider.make o sigma).nc debug (unitWeights x).2.2.1 (unitWeights x).2.2.2 with
    | .ok e => φ e
    | .error _ => 0
end Trento.Spec

namespace Trento
open MeasureTheory Set Spec ProbabilityTheory Filter
open scoped ENNReal Topology

/-! ### Functions with a tangent at weight 1 -/

/-- `F` lies below its tangent at 1 in every weight. -/
def Below (F : Collided → ℝ≥0∞) : Prop :=
  ∀ x, NonnegWeights x → ∀ q, ∃ c : ℝ≥0∞, c ≠ ⊤ ∧ ∀ f : ℝ, 0 ≤ f → F (setWeight q f x) + c ≤ F (setWeight q 1 x) + ENNReal.ofReal f * c

/-- `F` lies above its tangent at 1 in every weight. -/
def Above (F : Collided → ℝ≥0∞) : Prop :=
  ∀ x, NonnegWeights x → ∀ q, ∃ c : ℝ≥0∞, c ≠ ⊤ ∧ ∀ f : ℝ, 0 ≤ f → F (setWeight q 1 x) + ENNReal.ofReal f * c ≤ F (setWeight q f x) + c

theorem below_ones {F : Collided → ℝ≥0∞} (hF : Below F) (Q : List Label) : Below fun x => F (ones Q x) := by
  induction Q with
  | nil => exact hF
  | cons q Q ih =>
    intro x hx r
    by_cases h : r = q
    · subst h
      refine ⟨0, ENNReal.zero_ne_top, fun f _ => ?_⟩
      simp only [ones, setWeight_same, mul_zero, le_refl]
    · obtain ⟨c, hc, hab⟩ := ih (setWeight q 1 x) (nonneg_set hx q zero_le_one) r
      refine ⟨c, hc, fun f hf => ?_⟩
      simp only [ones, setWeight_comm h]
      exact hab f hf

theorem above_ones {F : Collided → ℝ≥0∞} (hF : Above F) (Q : List Label) : Above fun x => F (ones Q x) := by
  induction Q with
  | nil => exact hF
  | cons q Q ih =>
    intro x hx r
    by_cases h : r = q
    · subst h
      refine ⟨0, ENNReal.zero_ne_top, fun f _ => ?_⟩
      simp only [ones, setWeight_same, mul_zero, le_refl]
    · obtain ⟨c, hc, hab⟩ := ih (setWeight q 1 x) (nonneg_set hx q zero_le_one) r
      refine ⟨c, hc, fun f hf => ?_⟩
      simp only [ones, setWeight_comm h]
      exact hab f hf

theorem below_gamma {F : Collided → ℝ≥0∞} (hF : Below F) {k : ℝ} (hk : 0 < k) {x : Collided} (hx : NonnegWeights x) (q : Label) :
    ∫⁻ f, F (setWeight q f x) ∂gammaMeasure k k ≤ F (setWeight q 1 x) := by
  have hp0 : IsProbabilityMeasure (gammaMeasure k k) := isProbabilityMeasure_gammaMeasure hk hk
  obtain ⟨c, hc, hab⟩ := hF x hx q
  obtain ⟨m1, -, m0⟩ := C98_moments hk
  have hae : ∀ᵐ f ∂gammaMeasure k k, 0 ≤ f := by
    rw [ae_iff]
    simp only [not_le]
    exact m0
  have h1 : ∫⁻ f, (F (setWeight q f x) + c) ∂gammaMeasure k k ≤ ∫⁻ f, (F (setWeight q 1 x) + ENNReal.ofReal f * c) ∂gammaMeasure k k :=
    lintegral_mono_ae (hae.mono fun f hf => hab f hf)
  rw [lintegral_add_right _ measurable_const, lintegral_add_left measurable_const, lintegral_const, lintegral_const, measure_univ, mul_one, mul_one,
    lintegral_mul_const _ (by fun_prop), m1, one_mul] at h1
  exact (ENNReal.add_le_add_iff_right hc).mp h1

theorem above_gamma {F : Collided → ℝ≥0∞} (hF : Above F) {k : ℝ} (hk : 0 < k) {x : Collided} (hx : NonnegWeights x) (q : Label) :
    F (setWeight q 1 x) ≤ ∫⁻ f, F (setWeight q f x) ∂gammaMeasure k k := by
  have hp0 : IsProbabilityMeasure (gammaMeasure k k) := isProbabilityMeasure_gammaMeasure hk hk
  obtain ⟨c, hc, hab⟩ := hF x hx q
  obtain ⟨m1, -, m0⟩ := C98_moments hk
  have hae : ∀ᵐ f ∂gammaMeasure k k, 0 ≤ f := by
    rw [ae_iff]
    simp only [not_le]
    exact m0
  have h1 : ∫⁻ f, (F (setWeight q 1 x) + ENNReal.ofReal f * c) ∂gammaMeasure k k ≤ ∫⁻ f, (F (setWeight q f x) + c) ∂gammaMeasure k k :=
    lintegral_mono_ae (hae.mono fun f hf => hab f hf)
  rw [lintegral_add_right _ measurable_const, lintegral_add_left measurable_const, lintegral_const, lintegral_const, measure_univ, mul_one, mul_one,
    lintegral_mul_const _ (by fun_prop), m1, one_mul] at h1
  exact (ENNReal.add_le_add_iff_right hc).mp h1

section
variable (o : Options ℝ) (sigma : ℝ) (hk : 0 < o.fluctuation) (hA : NucleusHistory Tape (LibDist ℝ) o.projectileA)
  (hB : NucleusHistory Tape (LibDist ℝ) o.projectileB) (rfuel n : ℕ)
include hk hA hB

omit hk in
/-- giving all constituents weight 1 one after the other -/
theorem all_ones (F : Collided → ℝ≥0∞) (i : LibMix) :
    collisionMean (libMix i) rfuel (Collider.make o sigma) o.projectileA o.projectileB n (fun x =>
        F (ones (allLabels (max o.projectileA.nucleons.length o.projectileB.nucleons.length) (Collider.make o sigma).nc.constituentNumber) x)) =
      collisionMean (libMix i) rfuel (Collider.make o sigma) o.projectileA o.projectileB n (fun x => F (unitWeights x)) := by
  unfold collisionMean
  refine lintegral_congr fun w => ifOk_congr' fun t ht => ?_
  obtain ⟨⟨b, nc, A', B'⟩, w'⟩ := t
  obtain ⟨-, -, l1, l2⟩ := collision_weights _ hA hB ht
  have hl := (collided_weights _ hA hB ht).2
  dsimp only
  rw [ones_all _ _ hl]
  · simp [collided, l1]
  · simp [collided, l2]

theorem below_mean {F : Collided → ℝ≥0∞} (hF : Measurable F) (hb : Below F) (i : LibMix) :
    collisionMean (libMix i) rfuel (Collider.make o sigma) o.projectileA o.projectileB n F ≤
      collisionMean (libMix i) rfuel (Collider.make o sigma) o.projectileA o.projectileB n fun x => F (unitWeights x) := by
  have step : ∀ Q : List Label, collisionMean (libMix i) rfuel (Collider.make o sigma) o.projectileA o.projectileB n F ≤
      collisionMean (libMix i) rfuel (Collider.make o sigma) o.projectileA o.projectileB n (fun x => F (ones Q x)) := by
    intro Q
    induction Q with
    | nil => exact le_rfl
    | cons q Q ih =>
      refine ih.trans ?_
      rw [C105_weight o sigma hk hA hB rfuel n (F := fun x => F (ones Q x)) (hF.comp (ones_meas Q)) q i]
      exact collisionMean_mono rfuel _ _ _ n i fun w b m A' B' w' h =>
        below_gamma (below_ones hb Q) hk (collided_weights _ hA hB h).1 q
  exact (step _).trans (all_ones o sigma hA hB rfuel n F i).le

theorem above_mean {F : Collided → ℝ≥0∞} (hF : Measurable F) (hb : Above F) (i : LibMix) :
    (collisionMean (libMix i) rfuel (Collider.make o sigma) o.projectileA o.projectileB n fun x => F (unitWeights x)) ≤
      collisionMean (libMix i) rfuel (Collider.make o sigma) o.projectileA o.projectileB n F := by
  have step : ∀ Q : List Label, collisionMean (libMix i) rfuel (Collider.make o sigma) o.projectileA o.projectileB n (fun x => F (ones Q x)) ≤
      collisionMean (libMix i) rfuel (Collider.make o sigma) o.projectileA o.projectileB n F := by
    intro Q
    induction Q with
    | nil => exact le_rfl
    | cons q Q ih =>
      refine le_trans ?_ ih
      rw [C105_weight o sigma hk hA hB rfuel n (F := fun x => F (ones Q x)) (hF.comp (ones_meas Q)) q i]
      exact collisionMean_mono rfuel _ _ _ n i fun w b m A' B' w' h =>
        above_gamma (above_ones hb Q) hk (collided_weights _ hA hB h).1 q
  exact (all_ones o sigma hA hB rfuel n F i).symm.le.trans (step _)

end

/-! ### Functions of the thickness grids -/

/-- Along any direction in one of the two grids `H` lies below its tangent. -/
def GridBelow {n : ℕ} (H : Grid ℝ n → Grid ℝ n → ℝ) : Prop :=
  ∀ U V T : Grid ℝ n, (∀ i j, 0 ≤ U i j) → (∀ i j, 0 ≤ V i j) → (∀ i j, 0 ≤ T i j) →
    (∃ c : ℝ, 0 ≤ c ∧ ∀ f : ℝ, 0 ≤ f → H (fun i j => U i j + f * V i j) T ≤ H (fun i j => U i j + 1 * V i j) T + (f - 1) * c) ∧
    ∃ c : ℝ, 0 ≤ c ∧ ∀ f : ℝ, 0 ≤ f → H T (fun i j => U i j + f * V i j) ≤ H T (fun i j => U i j + 1 * V i j) + (f - 1) * c

/-- Along any direction in one of the two grids `H` lies above its tangent. -/
def GridAbove {n : ℕ} (H : Grid ℝ n → Grid ℝ n → ℝ) : Prop :=
  ∀ U V T : Grid ℝ n, (∀ i j, 0 ≤ U i j) → (∀ i j, 0 ≤ V i j) → (∀ i j, 0 ≤ T i j) →
    (∃ c : ℝ, 0 ≤ c ∧ ∀ f : ℝ, 0 ≤ f → H (fun i j => U i j + 1 * V i j) T + (f - 1) * c ≤ H (fun i j => U i j + f * V i j) T) ∧
    ∃ c : ℝ, 0 ≤ c ∧ ∀ f : ℝ, 0 ≤ f → H T (fun i j => U i j + 1 * V i j) + (f - 1) * c ≤ H T (fun i j => U i j + f * V i j)

/-- setting one weight moves one grid along a line -/
theorem event_line {w v : ℝ} {m : ℕ} {σ : ℝ} {ncoll : Bool} {k : ℝ} (hv : 0 < v) {c : EventCfg ℝ} (hd : 0 < c.dxy) (debug : Bool) {n : ℕ} (hn : c.nsteps = n) (hn1 : 1 ≤ n)
    (ev : Event ℝ n) {x : Collided} (hx : NonnegWeights x) (q : Label) :
    (∀ (φ : Observed n → ℝ≥0∞) (f : ℝ), 0 ≤ f → onEvent c (NucleonCommon.make w v m σ ncoll k) debug ev φ (setWeight q f x) = 0) ∨
    ∃ U V T : Grid ℝ n, (∀ i j, 0 ≤ U i j) ∧ (∀ i j, 0 ≤ V i j) ∧ (∀ i j, 0 ≤ T i j) ∧
      ((∀ (H : Grid ℝ n → Grid ℝ n → ℝ≥0∞) (f : ℝ), 0 ≤ f → onEvent c (NucleonCommon.make w v m σ ncoll k) debug ev (fun e => H e.2.2.TA e.2.2.TB) (setWeight q f x) =
          H (fun i j => U i j + f * V i j) T) ∨
        ∀ (H : Grid ℝ n → Grid ℝ n → ℝ≥0∞) (f : ℝ), 0 ≤ f → onEvent c (NucleonCommon.make w v m σ ncoll k) debug ev (fun e => H e.2.2.TA e.2.2.TB) (setWeight q f x) =
          H T (fun i j => U i j + f * V i j)) := by
  by_cases hfit : AllFit c (NucleonCommon.make w v m σ ncoll k) x
  · right
    have grids : ∀ (H : Grid ℝ n → Grid ℝ n → ℝ≥0∞) (f : ℝ), 0 ≤ f → onEvent c (NucleonCommon.make w v m σ ncoll k) debug ev (fun e => H e.2.2.TA e.2.2.TB) (setWeight q f x) =
        H (fun iy ix => directThickness (NucleonCommon.make w v m σ ncoll k) debug (setWeight q f x).2.2.1 (c.center ix.val) (c.center iy.val))
          (fun iy ix => directThickness (NucleonCommon.make w v m σ ncoll k) debug (setWeight q f x).2.2.2 (c.center ix.val) (c.center iy.val)) := by
      intro H f hf
      have hx' := nonneg_set hx q hf
      obtain ⟨e, he⟩ := (compute_fits hv hd (debug := debug) hn hn1 ev hx').mpr ((allFit_set c _ x q f).mpr hfit)
      unfold onEvent
      rw [he]
      have hc := fun iy ix => C21_thickness_is_direct_sum w v m σ ncoll k hv c hd debug n hn _ _ (fun a ha _ => hx' a (by simp [ha])) (fun a ha _ => hx' a (by simp [ha])) ev e he iy ix
      simp only [ifOk]
      congr 1
      · funext iy ix; exact (hc iy ix).1
      · funext iy ix; exact (hc iy ix).2
    have nn : ∀ (l : List (NucleonData ℝ)) (s t : ℝ), (∀ n ∈ l, ∀ c ∈ n.constituents, 0 ≤ c.fluctuation) → 0 ≤ directThickness (NucleonCommon.make w v m σ ncoll k) debug l s t := by
      intro l s t hl
      unfold directThickness
      apply List.sum_nonneg
      intro u hu
      obtain ⟨a, ha, rfl⟩ := List.mem_map.mp hu
      exact thicknessAt_nonneg w v m σ ncoll k hv debug a (hl a (List.mem_filter.mp ha).1) s t
    have h1 : ∀ n ∈ x.2.2.1, ∀ c ∈ n.constituents, 0 ≤ c.fluctuation := fun n hn => hx n (by simp [hn])
    have h2 : ∀ n ∈ x.2.2.2, ∀ c ∈ n.constituents, 0 ≤ c.fluctuation := fun n hn => hx n (by simp [hn])
    obtain ⟨s, a, j⟩ := q
    cases s
    · have hd2 := fun s t : ℝ => direct_reweigh w v m σ ncoll k hv debug s t x.2.2.2 h2 a j
      choose u r hu hr hur using hd2
      refine ⟨fun iy ix => u (c.center ix.val) (c.center iy.val), fun iy ix => r (c.center ix.val) (c.center iy.val),
        fun iy ix => directThickness (NucleonCommon.make w v m σ ncoll k) debug x.2.2.1 (c.center ix.val) (c.center iy.val),
        fun _ _ => hu _ _, fun _ _ => hr _ _, fun _ _ => nn _ _ _ h1, .inr fun H f hf => ?_⟩
      rw [grids H f hf]
      congr 1
      funext iy ix
      exact hur _ _ f
    · have hd1 := fun s t : ℝ => direct_reweigh w v m σ ncoll k hv debug s t x.2.2.1 h1 a j
      choose u r hu hr hur using hd1
      refine ⟨fun iy ix => u (c.center ix.val) (c.center iy.val), fun iy ix => r (c.center ix.val) (c.center iy.val),
        fun iy ix => directThickness (NucleonCommon.make w v m σ ncoll k) debug x.2.2.2 (c.center ix.val) (c.center iy.val),
        fun _ _ => hu _ _, fun _ _ => hr _ _, fun _ _ => nn _ _ _ h2, .inl fun H f hf => ?_⟩
      rw [grids H f hf]
      congr 1
      funext iy ix
      exact hur _ _ f
  · left
    intro φ f hf
    have hno := (compute_fits hv hd (debug := debug) hn hn1 ev (nonneg_set hx q hf)).not.mpr ((allFit_set c (NucleonCommon.make w v m σ ncoll k) x q f).not.mpr hfit)
    unfold onEvent
    cases he : ev.compute c (NucleonCommon.make w v m σ ncoll k) debug (setWeight q f x).2.2.1 (setWeight q f x).2.2.2 with
    | error e => rfl
    | ok e => exact absurd ⟨e, he⟩ hno

theorem ofReal_below {a b c f : ℝ} (ha : 0 ≤ a) (hb : 0 ≤ b) (hc : 0 ≤ c) (hf : 0 ≤ f) (h : a ≤ b + (f - 1) * c) :
    ENNReal.ofReal a + ENNReal.ofReal c ≤ ENNReal.ofReal b + ENNReal.ofReal f * ENNReal.ofReal c := by
  rw [← ENNReal.ofReal_mul hf, ← ENNReal.ofReal_add hb (mul_nonneg hf hc)]
  rw [← ENNReal.ofReal_add ha hc]
  exact ENNReal.ofReal_le_ofReal (by linarith)

theorem ofReal_above {a b c f : ℝ} (ha : 0 ≤ a) (hb : 0 ≤ b) (hc : 0 ≤ c) (hf : 0 ≤ f) (h : b + (f - 1) * c ≤ a) :
    ENNReal.ofReal b + ENNReal.ofReal f * ENNReal.ofReal c ≤ ENNReal.ofReal a + ENNReal.ofReal c := by
  rw [← ENNReal.ofReal_mul hf, ← ENNReal.ofReal_add hb (mul_nonneg hf hc), ← ENNReal.ofReal_add ha hc]
  exact ENNReal.ofReal_le_ofReal (by linarith)


theorem below_event {w v : ℝ} {m : ℕ} {σ : ℝ} {ncoll : Bool} {k : ℝ} (hv : 0 < v) {c : EventCfg ℝ} (hd : 0 < c.dxy) (debug : Bool) {n : ℕ} (hn : c.nsteps = n) (hn1 : 1 ≤ n)
    (ev : Event ℝ n) {H : Grid ℝ n → Grid ℝ n → ℝ} (h0 : ∀ U V : Grid ℝ n, (∀ i j, 0 ≤ U i j) → (∀ i j, 0 ≤ V i j) → 0 ≤ H U V) (hH : GridBelow H) :
    Below (onEvent c (NucleonCommon.make w v m σ ncoll k) debug ev fun e => ENNReal.ofReal (H e.2.2.TA e.2.2.TB)) := by
  intro x hx q
  rcases event_line (w := w) (m := m) (σ := σ) (ncoll := ncoll) (k := k) hv hd debug hn hn1 ev hx q with hz | ⟨U, V, T, hU, hV, hT, hl⟩
  · exact ⟨0, ENNReal.zero_ne_top, fun f hf => by rw [hz _ f hf, hz _ 1 zero_le_one]; simp⟩
  · have hUV : ∀ f : ℝ, 0 ≤ f → ∀ i j, 0 ≤ U i j + f * V i j := fun f hf i j => add_nonneg (hU i j) (mul_nonneg hf (hV i j))
    obtain ⟨⟨c1, p1, q1⟩, c2, p2, q2⟩ := hH U V T hU hV hT
    rcases hl with hl | hl
    · refine ⟨ENNReal.ofReal c1, ENNReal.ofReal_ne_top, fun f hf => ?_⟩
      rw [hl (fun TA TB => ENNReal.ofReal (H TA TB)) f hf, hl (fun TA TB => ENNReal.ofReal (H TA TB)) 1 zero_le_one]
      exact ofReal_below (h0 _ _ (hUV f hf) hT) (h0 _ _ (hUV 1 zero_le_one) hT) p1 hf (q1 f hf)
    · refine ⟨ENNReal.ofReal c2, ENNReal.ofReal_ne_top, fun f hf => ?_⟩
      rw [hl (fun TA TB => ENNReal.ofReal (H TA TB)) f hf, hl (fun TA TB => ENNReal.ofReal (H TA TB)) 1 zero_le_one]
      exact ofReal_below (h0 _ _ hT (hUV f hf)) (h0 _ _ hT (hUV 1 zero_le_one)) p2 hf (q2 f hf)

theorem above_event {w v : ℝ} {m : ℕ} {σ : ℝ} {ncoll : Bool} {k : ℝ} (hv : 0 < v) {c : EventCfg ℝ} (hd : 0 < c.dxy) (debug : Bool) {n : ℕ} (hn : c.nsteps = n) (hn1 : 1 ≤ n)
    (ev : Event ℝ n) {H : Grid ℝ n → Grid ℝ n → ℝ} (h0 : ∀ U V : Grid ℝ n, (∀ i j, 0 ≤ U i j) → (∀ i j, 0 ≤ V i j) → 0 ≤ H U V) (hH : GridAbove H) :
    Above (onEvent c (NucleonCommon.make w v m σ ncoll k) debug ev fun e => ENNReal.ofReal (H e.2.2.TA e.2.2.TB)) := by
  intro x hx q
  rcases event_line (w := w) (m := m) (σ := σ) (ncoll := ncoll) (k := k) hv hd debug hn hn1 ev hx q with hz | ⟨U, V, T, hU, hV, hT, hl⟩
  · exact ⟨0, ENNReal.zero_ne_top, fun f hf => by rw [hz _ f hf, hz _ 1 zero_le_one]; simp⟩
  · have hUV : ∀ f : ℝ, 0 ≤ f → ∀ i j, 0 ≤ U i j + f * V i j := fun f hf i j => add_nonneg (hU i j) (mul_nonneg hf (hV i j))
    obtain ⟨⟨c1, p1, q1⟩, c2, p2, q2⟩ := hH U V T hU hV hT
    rcases hl with hl | hl
    · refine ⟨ENNReal.ofReal c1, ENNReal.ofReal_ne_top, fun f hf => ?_⟩
      rw [hl (fun TA TB => ENNReal.ofReal (H TA TB)) f hf, hl (fun TA TB => ENNReal.ofReal (H TA TB)) 1 zero_le_one]
      exact ofReal_above (h0 _ _ (hUV f hf) hT) (h0 _ _ (hUV 1 zero_le_one) hT) p1 hf (q1 f hf)
    · refine ⟨ENNReal.ofReal c2, ENNReal.ofReal_ne_top, fun f hf => ?_⟩
      rw [hl (fun TA TB => ENNReal.ofReal (H TA TB)) f hf, hl (fun TA TB => ENNReal.ofReal (H TA TB)) 1 zero_le_one]
      exact ofReal_above (h0 _ _ hT (hUV f hf)) (h0 _ _ hT (hUV 1 zero_le_one)) p2 hf (q2 f hf)

/-! ### Reduced thickness and multiplicity -/

/-- the reduced thickness of a cell as a function of the thickness grids -/
noncomputable def cellOf {n : ℕ} (c : EventCfg ℝ) (iy ix : Fin n) (TA TB : Grid ℝ n) : ℝ := c.norm * trentoMean c.p (TA iy ix) (TB iy ix)

/-- the multiplicity as a function of the thickness grids -/
noncomputable def multOf {n : ℕ} (c : EventCfg ℝ) (TA TB : Grid ℝ n) : ℝ := c.dxy^2 * ∑ iy, ∑ ix, cellOf c iy ix TA TB

section
variable {n : ℕ} {c : EventCfg ℝ}

theorem cellOf_nonneg (hnorm : 0 ≤ c.norm) (iy ix : Fin n) (U V : Grid ℝ n) (hU : ∀ i j, 0 ≤ U i j) (hV : ∀ i j, 0 ≤ V i j) : 0 ≤ cellOf c iy ix U V :=
  mul_nonneg hnorm (C25_between _ _ _ (hU iy ix) (hV iy ix)).1

theorem multOf_nonneg (hnorm : 0 ≤ c.norm) (U V : Grid ℝ n) (hU : ∀ i j, 0 ≤ U i j) (hV : ∀ i j, 0 ≤ V i j) : 0 ≤ multOf c U V :=
  mul_nonneg (sq_nonneg _) (Finset.sum_nonneg fun iy _ => Finset.sum_nonneg fun ix _ => cellOf_nonneg hnorm iy ix U V hU hV)

theorem cellOf_below (hnorm : 0 ≤ c.norm) (h0 : 0 ≤ c.p) (h1 : c.p ≤ 1) (iy ix : Fin n) : GridBelow (cellOf c iy ix) := by
  intro U V T hU hV hT
  obtain ⟨s, s0, hs⟩ := mean_below h0 h1 (hU iy ix) (hV iy ix) (hT iy ix)
  refine ⟨⟨c.norm * s, mul_nonneg hnorm s0, fun f hf => ?_⟩, ⟨c.norm * s, mul_nonneg hnorm s0, fun f hf => ?_⟩⟩
  · have := mul_le_mul_of_nonneg_left (hs f hf) hnorm
    unfold cellOf
    dsimp only
    rw [one_mul]
    linarith
  · have := mul_le_mul_of_nonneg_left (hs f hf) hnorm
    unfold cellOf
    dsimp only
    rw [one_mul, trentoMean_comm c.p (T iy ix), trentoMean_comm c.p (T iy ix)]
    linarith

theorem cellOf_above (hnorm : 0 ≤ c.norm) (h1 : 1 ≤ c.p) (iy ix : Fin n) : GridAbove (cellOf c iy ix) := by
  intro U V T hU hV hT
  obtain ⟨s, s0, hs⟩ := mean_above h1 (hU iy ix) (hV iy ix) (hT iy ix)
  refine ⟨⟨c.norm * s, mul_nonneg hnorm s0, fun f hf => ?_⟩, ⟨c.norm * s, mul_nonneg hnorm s0, fun f hf => ?_⟩⟩
  · have := mul_le_mul_of_nonneg_left (hs f hf) hnorm
    unfold cellOf
    dsimp only
    rw [one_mul]
    linarith
  · have := mul_le_mul_of_nonneg_left (hs f hf) hnorm
    unfold cellOf
    dsimp only
    rw [one_mul, trentoMean_comm c.p (T iy ix), trentoMean_comm c.p (T iy ix)]
    linarith

theorem below_sum {ι : Type} (s : Finset ι) {H : ι → Grid ℝ n → Grid ℝ n → ℝ} (h : ∀ i, GridBelow (H i)) : GridBelow fun TA TB => ∑ i ∈ s, H i TA TB := by
  intro U V T hU hV hT
  have h1 := fun i => (h i U V T hU hV hT).1
  have h2 := fun i => (h i U V T hU hV hT).2
  choose a a0 ha using h1
  choose b b0 hb using h2
  refine ⟨⟨∑ i ∈ s, a i, Finset.sum_nonneg fun i _ => a0 i, fun f hf => ?_⟩, ⟨∑ i ∈ s, b i, Finset.sum_nonneg fun i _ => b0 i, fun f hf => ?_⟩⟩
  · rw [Finset.mul_sum, ← Finset.sum_add_distrib]
    exact Finset.sum_le_sum fun i _ => ha i f hf
  · rw [Finset.mul_sum, ← Finset.sum_add_distrib]
    exact Finset.sum_le_sum fun i _ => hb i f hf

theorem above_sum {ι : Type} (s : Finset ι) {H : ι → Grid ℝ n → Grid ℝ n → ℝ} (h : ∀ i, GridAbove (H i)) : GridAbove fun TA TB => ∑ i ∈ s, H i TA TB := by
  intro U V T hU hV hT
  have h1 := fun i => (h i U V T hU hV hT).1
  have h2 := fun i => (h i U V T hU hV hT).2
  choose a a0 ha using h1
  choose b b0 hb using h2
  refine ⟨⟨∑ i ∈ s, a i, Finset.sum_nonneg fun i _ => a0 i, fun f hf => ?_⟩, ⟨∑ i ∈ s, b i, Finset.sum_nonneg fun i _ => b0 i, fun f hf => ?_⟩⟩
  · rw [Finset.mul_sum, ← Finset.sum_add_distrib]
    exact Finset.sum_le_sum fun i _ => ha i f hf
  · rw [Finset.mul_sum, ← Finset.sum_add_distrib]
    exact Finset.sum_le_sum fun i _ => hb i f hf

theorem multOf_below (hnorm : 0 ≤ c.norm) (h0 : 0 ≤ c.p) (h1 : c.p ≤ 1) : GridBelow (multOf (n := n) c) := by
  have hs := below_sum (n := n) Finset.univ fun iy => below_sum Finset.univ fun ix => cellOf_below hnorm h0 h1 iy ix
  intro U V T hU hV hT
  obtain ⟨⟨a, a0, ha⟩, b, b0, hb⟩ := hs U V T hU hV hT
  refine ⟨⟨c.dxy^2 * a, by positivity, fun f hf => ?_⟩, ⟨c.dxy^2 * b, by positivity, fun f hf => ?_⟩⟩
  · have := mul_le_mul_of_nonneg_left (ha f hf) (sq_nonneg c.dxy)
    unfold multOf
    linarith
  · have := mul_le_mul_of_nonneg_left (hb f hf) (sq_nonneg c.dxy)
    unfold multOf
    linarith

theorem multOf_above (hnorm : 0 ≤ c.norm) (h1 : 1 ≤ c.p) : GridAbove (multOf (n := n) c) := by
  have hs := above_sum (n := n) Finset.univ fun iy => above_sum Finset.univ fun ix => cellOf_above hnorm h1 iy ix
  intro U V T hU hV hT
  obtain ⟨⟨a, a0, ha⟩, b, b0, hb⟩ := hs U V T hU hV hT
  refine ⟨⟨c.dxy^2 * a, by positivity, fun f hf => ?_⟩, ⟨c.dxy^2 * b, by positivity, fun f hf => ?_⟩⟩
  · have := mul_le_mul_of_nonneg_left (ha f hf) (sq_nonneg c.dxy)
    unfold multOf
    linarith
  · have := mul_le_mul_of_nonneg_left (hb f hf) (sq_nonneg c.dxy)
    unfold multOf
    linarith

theorem event_cellOf {nc : NucleonCommon ℝ} {debug : Bool} {ev e : Event ℝ n} {A B : List (NucleonData ℝ)} (h : ev.compute c nc debug A B = .ok e) (iy ix : Fin n) :
    e.TR iy ix = cellOf c iy ix e.TA e.TB := C25_reduced_thickness c nc debug n A B ev e h iy ix

theorem event_multOf {nc : NucleonCommon ℝ} {debug : Bool} {ev e : Event ℝ n} {A B : List (NucleonData ℝ)} (h : ev.compute c nc debug A B = .ok e) :
    e.multiplicity = multOf c e.TA e.TB := by
  rw [C27_multiplicity c nc debug n ev e A B h]
  unfold multOf gridSum
  simp only [event_cellOf h]

end

/-! ### Means -/

section
variable (o : Options ℝ) (sigma : ℝ) (rfuel fuel : ℕ) (ec : EventCfg ℝ) (debug : Bool) {n : ℕ} (ev : Event ℝ n)

theorem without_eq (i : LibMix) (φ : Event ℝ n → ℝ≥0∞) :
    meanWithoutFluctuations i rfuel fuel o sigma ec debug ev φ =
      collisionMean (libMix i) rfuel (Collider.make o sigma) o.projectileA o.projectileB fuel
        (fun x => onEvent ec (Collider.make o sigma).nc debug ev (fun e => φ e.2.2) (unitWeights x)) := by
  unfold meanWithoutFluctuations
  congr 1
  funext x
  unfold onEvent
  cases ev.compute ec (Collider.make o sigma).nc debug (unitWeights x).2.2.1 (unitWeights x).2.2.2 <;> rfl

theorem onEvent_congr (nc : NucleonCommon ℝ) {φ ψ : Observed n → ℝ≥0∞}
    (h : ∀ (A B : List (NucleonData ℝ)) (e : Event ℝ n) (b : ℝ) (m : ℕ), ev.compute ec nc debug A B = .ok e → φ (b, m, e) = ψ (b, m, e)) :
    onEvent ec nc debug ev φ = onEvent ec nc debug ev ψ := by
  funext x
  unfold onEvent
  cases he : ev.compute ec nc debug x.2.2.1 x.2.2.2 with
  | error e => rfl
  | ok e => exact h _ _ e _ _ he

variable (hk : 0 < o.fluctuation) (hv : 0 < o.constitWidth) (hA : NucleusHistory Tape (LibDist ℝ) o.projectileA)
  (hB : NucleusHistory Tape (LibDist ℝ) o.projectileB) (hd : 0 < ec.dxy) (hn : ec.nsteps = n) (hn1 : 1 ≤ n) (hnorm : 0 ≤ ec.norm)

include hA hB in
/-- means over the events as means over the collisions, with the fluctuation parameter changed -/
theorem law_onEvent (k : ℝ) {φ : Event ℝ n → ℝ≥0∞} (hφ : Measurable φ) (i : LibMix) :
    ∫⁻ e, φ e.2.2 ∂eventLaw (libMix i) rfuel fuel (Collider.make { o with fluctuation := k } sigma) ec debug ev =
      collisionMean (libMix i) rfuel (Collider.make { o with fluctuation := k } sigma) o.projectileA o.projectileB fuel
        (onEvent ec (Collider.make o sigma).nc debug ev fun e => φ e.2.2) := by
  rw [eventMean_law rfuel fuel { o with fluctuation := k } sigma hA hB ec debug ev (φ := fun e => φ e.2.2)
    (hφ.comp (measurable_snd.comp measurable_snd)) i, eventMean_eq (libMix i) rfuel fuel { o with fluctuation := k } sigma hA hB]
  congr 1
  funext x
  have := compute_gamma ec o.nucleonWidth o.constitWidth o.constitNumber sigma o.ncoll o.fluctuation k debug ev x.2.2.1 x.2.2.2
  exact congrArg (fun r => ifOk r _) this

include hk hv hA hB hd hn hn1 hnorm

/-- **C114, means.** With the library's distributions and an ideal engine: for `0 ≤ p ≤ 1` the fluctuations lower the mean reduced thickness in every cell and the mean
multiplicity below those of the same collisions without fluctuations; for `p ≥ 1` they raise them. -/
theorem C114_mean (i : LibMix) :
    let mean : (Event ℝ n → ℝ≥0∞) → ℝ≥0∞ := fun φ => ∫⁻ e, φ e.2.2 ∂eventLaw (libMix i) rfuel fuel (Collider.make o sigma) ec debug ev
    let without : (Event ℝ n → ℝ≥0∞) → ℝ≥0∞ := meanWithoutFluctuations i rfuel fuel o sigma ec debug ev
    (0 ≤ ec.p → ec.p ≤ 1 → (∀ iy ix, mean (fun e => ENNReal.ofReal (e.TR iy ix)) ≤ without fun e => ENNReal.ofReal (e.TR iy ix)) ∧
      mean (fun e => ENNReal.ofReal e.multiplicity) ≤ without fun e => ENNReal.ofReal e.multiplicity) ∧
    (1 ≤ ec.p → (∀ iy ix, (without fun e => ENNReal.ofReal (e.TR iy ix)) ≤ mean fun e => ENNReal.ofReal (e.TR iy ix)) ∧
      (without fun e => ENNReal.ofReal e.multiplicity) ≤ mean fun e => ENNReal.ofReal e.multiplicity) := by
  have oe : Measurable fun e : Observed n => e.2.2 := measurable_snd.comp measurable_snd
  have mR : ∀ iy ix, Measurable fun e : Event ℝ n => ENNReal.ofReal (e.TR iy ix) := fun iy ix => (cell_meas event_TR iy ix).ennreal_ofReal
  have mM : Measurable fun e : Event ℝ n => ENNReal.ofReal e.multiplicity := event_mult.ennreal_ofReal
  have cR : ∀ iy ix, onEvent ec (Collider.make o sigma).nc debug ev (fun e => ENNReal.ofReal (e.2.2.TR iy ix)) =
      onEvent ec (Collider.make o sigma).nc debug ev fun e => ENNReal.ofReal (cellOf ec iy ix e.2.2.TA e.2.2.TB) :=
    fun iy ix => onEvent_congr ec debug ev _ fun A B e b m he => by dsimp only; rw [event_cellOf he]
  have cM : onEvent ec (Collider.make o sigma).nc debug ev (fun e => ENNReal.ofReal e.2.2.multiplicity) =
      onEvent ec (Collider.make o sigma).nc debug ev fun e => ENNReal.ofReal (multOf ec e.2.2.TA e.2.2.TB) :=
    onEvent_congr ec debug ev _ fun A B e b m he => by dsimp only; rw [event_multOf he]
  have fR : ∀ iy ix, Measurable (onEvent ec (Collider.make o sigma).nc debug ev fun e => ENNReal.ofReal (e.2.2.TR iy ix)) :=
    fun iy ix => onEvent_meas ec _ debug ev ((mR iy ix).comp oe)
  have fM : Measurable (onEvent ec (Collider.make o sigma).nc debug ev fun e => ENNReal.ofReal e.2.2.multiplicity) :=
    onEvent_meas ec _ debug ev (mM.comp oe)
  intro mean without
  have lR : ∀ iy ix, mean (fun e => ENNReal.ofReal (e.TR iy ix)) = _ := fun iy ix => law_onEvent o sigma rfuel fuel ec debug ev hA hB o.fluctuation (mR iy ix) i
  have lM : mean (fun e => ENNReal.ofReal e.multiplicity) = _ := law_onEvent o sigma rfuel fuel ec debug ev hA hB o.fluctuation mM i
  have wR : ∀ iy ix, without (fun e => ENNReal.ofReal (e.TR iy ix)) = _ := fun iy ix => without_eq o sigma rfuel fuel ec debug ev i _
  have wM : without (fun e => ENNReal.ofReal e.multiplicity) = _ := without_eq o sigma rfuel fuel ec debug ev i _
  refine ⟨fun h0 h1 => ⟨fun iy ix => ?_, ?_⟩, fun h1 => ⟨fun iy ix => ?_, ?_⟩⟩
  · rw [lR, wR]
    refine below_mean o sigma hk hA hB rfuel fuel (fR iy ix) ?_ i
    rw [cR]
    exact below_event hv hd debug hn hn1 ev (cellOf_nonneg hnorm iy ix) (cellOf_below hnorm h0 h1 iy ix)
  · rw [lM, wM]
    refine below_mean o sigma hk hA hB rfuel fuel fM ?_ i
    rw [cM]
    exact below_event hv hd debug hn hn1 ev (multOf_nonneg hnorm) (multOf_below hnorm h0 h1)
  · rw [lR, wR]
    refine above_mean o sigma hk hA hB rfuel fuel (fR iy ix) ?_ i
    rw [cR]
    exact above_event hv hd debug hn hn1 ev (cellOf_nonneg hnorm iy ix) (cellOf_above hnorm h1 iy ix)
  · rw [lM, wM]
    refine above_mean o sigma hk hA hB rfuel fuel fM ?_ i
    rw [cM]
    exact above_event hv hd debug hn hn1 ev (multOf_nonneg hnorm) (multOf_above hnorm h1)


end

/-! ### The limit of a large fluctuation parameter -/

/-- the sum of both grids, as a real number -/
noncomputable def linOf {n : ℕ} (s : ℝ) (p : Grid ℝ n × Grid ℝ n) : ℝ := s * (gridSum p.1 + gridSum p.2)

theorem linOf_continuous {n : ℕ} (s : ℝ) : Continuous (linOf (n := n) s) := by
  unfold linOf gridSum
  fun_prop

theorem linOf_grids {n : ℕ} {s : ℝ} (hs : 0 ≤ s) {TA TB : Grid ℝ n} (hA : ∀ iy ix, 0 ≤ TA iy ix) (hB : ∀ iy ix, 0 ≤ TB iy ix) :
    bothGrids s TA TB = ENNReal.ofReal (linOf s (TA, TB)) := bothGrids_eq hs hA hB

theorem single_le_gridSum {n : ℕ} {T : Grid ℝ n} (h : ∀ iy ix, 0 ≤ T iy ix) (iy ix : Fin n) : T iy ix ≤ gridSum T := by
  unfold gridSum
  refine le_trans ?_ (Finset.single_le_sum (f := fun iy => ∑ ix, T iy ix) (fun i _ => Finset.sum_nonneg fun j _ => h i j) (Finset.mem_univ iy))
  exact Finset.single_le_sum (f := fun ix => T iy ix) (fun j _ => h iy j) (Finset.mem_univ ix)

theorem cellOf_le {n : ℕ} {c : EventCfg ℝ} (hnorm : 0 ≤ c.norm) (iy ix : Fin n) {U V : Grid ℝ n} (hU : ∀ i j, 0 ≤ U i j) (hV : ∀ i j, 0 ≤ V i j) :
    cellOf c iy ix U V ≤ c.norm * (U iy ix + V iy ix) :=
  mul_le_mul_of_nonneg_left ((C25_between _ _ _ (hU iy ix) (hV iy ix)).2.1.trans (max_le_add_of_nonneg (hU iy ix) (hV iy ix))) hnorm

theorem cellOf_lin {n : ℕ} {c : EventCfg ℝ} (hnorm : 0 ≤ c.norm) (iy ix : Fin n) {U V : Grid ℝ n} (hU : ∀ i j, 0 ≤ U i j) (hV : ∀ i j, 0 ≤ V i j) :
    cellOf c iy ix U V ≤ linOf c.norm (U, V) :=
  (cellOf_le hnorm iy ix hU hV).trans (mul_le_mul_of_nonneg_left (add_le_add (single_le_gridSum hU iy ix) (single_le_gridSum hV iy ix)) hnorm)

theorem multOf_lin {n : ℕ} {c : EventCfg ℝ} (hnorm : 0 ≤ c.norm) {U V : Grid ℝ n} (hU : ∀ i j, 0 ≤ U i j) (hV : ∀ i j, 0 ≤ V i j) :
    multOf c U V ≤ linOf (c.dxy^2 * c.norm) (U, V) := by
  have h1 : ∑ iy, ∑ ix, cellOf c iy ix U V ≤ c.norm * (gridSum U + gridSum V) := by
    rw [← gridSum_add, ← gridSum_mul]
    exact Finset.sum_le_sum fun iy _ => Finset.sum_le_sum fun ix _ => cellOf_le hnorm iy ix hU hV
  have := mul_le_mul_of_nonneg_left h1 (sq_nonneg c.dxy)
  unfold multOf linOf
  linarith

theorem cellOf_continuous {n : ℕ} {c : EventCfg ℝ} (h0 : 0 ≤ c.p) (iy ix : Fin n) : Continuous fun p : Grid ℝ n × Grid ℝ n => cellOf c iy ix p.1 p.2 := by
  have h : Continuous fun p : Grid ℝ n × Grid ℝ n => (p.1 iy ix, p.2 iy ix) := by fun_prop
  exact continuous_const.mul ((mean_continuous h0).comp h)

theorem multOf_continuous {n : ℕ} {c : EventCfg ℝ} (h0 : 0 ≤ c.p) : Continuous fun p : Grid ℝ n × Grid ℝ n => multOf c p.1 p.2 := by
  unfold multOf
  exact continuous_const.mul (continuous_finsetSum _ fun iy _ => continuous_finsetSum _ fun ix _ => cellOf_continuous h0 iy ix)

section
variable (o : Options ℝ) (sigma : ℝ) (rfuel fuel : ℕ) (ec : EventCfg ℝ) (debug : Bool) {n : ℕ} (ev : Event ℝ n)
variable (hk : 0 < o.fluctuation) (hv : 0 < o.constitWidth) (hA : NucleusHistory Tape (LibDist ℝ) o.projectileA)
  (hB : NucleusHistory Tape (LibDist ℝ) o.projectileB) (hd : 0 < ec.dxy) (hn : ec.nsteps = n) (hn1 : 1 ≤ n)

/-- the largest thickness without fluctuations -/
noncomputable def unitMax (o : Options ℝ) : ℝ :=
  o.projectileA.nucleons.length * (o.constitNumber * (1 / (2 * Real.pi * o.constitWidth^2 * o.constitNumber))) +
    o.projectileB.nucleons.length * (o.constitNumber * (1 / (2 * Real.pi * o.constitWidth^2 * o.constitNumber)))

include hv hA hB hd hn in
/-- without fluctuations the grids lie in a compact set -/
theorem unit_compact {w w' : LibState} {b : ℝ} {m : ℕ} {A' B' : Nucleus ℝ}
    (h : (Collider.make o sigma).sampleCollision rfuel fuel o.projectileA o.projectileB w = .ok ((b, m, A', B'), w')) {e1 : Event ℝ n}
    (he1 : ev.compute ec (Collider.make o sigma).nc debug (unitWeights (collided (b, m, A', B'))).2.2.1 (unitWeights (collided (b, m, A', B'))).2.2.2 = .ok e1) :
    (e1.TA, e1.TB) ∈ Set.Icc ((fun _ _ => 0, fun _ _ => 0) : Grid ℝ n × Grid ℝ n) (fun _ _ => unitMax o, fun _ _ => unitMax o) := by
  obtain ⟨lA, cA⟩ := found_shape hA hB h true
  obtain ⟨lB, cB⟩ := found_shape hA hB h false
  have hcn : (Collider.make o sigma).nc.constituentNumber = o.constitNumber := rfl
  rw [hcn] at cA cB
  simp only [if_true, Bool.false_eq_true, if_false] at lA lB
  generalize collided (b, m, A', B') = x at *
  have bd : ∀ iy ix, (0 ≤ e1.TA iy ix ∧ e1.TA iy ix ≤ unitMax o) ∧ (0 ≤ e1.TB iy ix ∧ e1.TB iy ix ≤ unitMax o) := by
    intro iy ix
    obtain ⟨g1, g2⟩ := grids_direct hv hd hn (nonneg_unit x) he1 iy ix
    rw [g1, g2, nucleonsOf_unit, nucleonsOf_unit]
    have u1 := direct_unit_bounds o.nucleonWidth o.constitWidth o.constitNumber sigma o.ncoll o.fluctuation hv debug (ec.center ix.val) (ec.center iy.val) cA
    have u2 := direct_unit_bounds o.nucleonWidth o.constitWidth o.constitNumber sigma o.ncoll o.fluctuation hv debug (ec.center ix.val) (ec.center iy.val) cB
    rw [lA] at u1
    rw [lB] at u2
    have p1 : 0 ≤ (o.projectileA.nucleons.length : ℝ) * (o.constitNumber * (1 / (2 * Real.pi * o.constitWidth^2 * o.constitNumber))) := by positivity
    have p2 : 0 ≤ (o.projectileB.nucleons.length : ℝ) * (o.constitNumber * (1 / (2 * Real.pi * o.constitWidth^2 * o.constitNumber))) := by positivity
    exact ⟨⟨u1.1, u1.2.trans (by unfold unitMax; linarith)⟩, ⟨u2.1, u2.2.trans (by unfold unitMax; linarith)⟩⟩
  exact ⟨⟨fun iy ix => (bd iy ix).1.1, fun iy ix => (bd iy ix).2.1⟩, ⟨fun iy ix => (bd iy ix).1.2, fun iy ix => (bd iy ix).2.2⟩⟩

include hk hv hA hB hd hn hn1

/-- functions of the grids that are affine in each of them do not feel the fluctuations -/
theorem biaffine_any {H : Grid ℝ n → Grid ℝ n → ℝ≥0∞} (hm : Measurable fun p : Grid ℝ n × Grid ℝ n => H p.1 p.2) (hH : Biaffine H) {k : ℝ} (hk' : 0 < k) (i : LibMix) :
    collisionMean (libMix i) rfuel (Collider.make { o with fluctuation := k } sigma) o.projectileA o.projectileB fuel
        (onEvent ec (Collider.make o sigma).nc debug ev fun e => H e.2.2.TA e.2.2.TB) =
      collisionMean (libMix i) rfuel (Collider.make o sigma) o.projectileA o.projectileB fuel
        (fun x => onEvent ec (Collider.make o sigma).nc debug ev (fun e => H e.2.2.TA e.2.2.TB) (unitWeights x)) := by
  have hφ : Measurable fun e : Observed n => H e.2.2.TA e.2.2.TB :=
    hm.comp (Measurable.prodMk (event_TA.comp (measurable_snd.comp measurable_snd)) (event_TB.comp (measurable_snd.comp measurable_snd)))
  have haff : AffineInWeights (onEvent ec (Collider.make o sigma).nc debug ev fun e => H e.2.2.TA e.2.2.TB) :=
    affine_event hv hd debug hn hn1 ev hH
  have hF : Measurable (onEvent ec (Collider.make o sigma).nc debug ev fun e => H e.2.2.TA e.2.2.TB) := onEvent_meas ec _ debug ev hφ
  generalize onEvent ec (Collider.make o sigma).nc debug ev (fun e => H e.2.2.TA e.2.2.TB) = F at *
  have c1 := C105_mean o sigma hk hA hB rfuel fuel hF haff i
  rw [c1.2 k hk', c1.1]

/-- a lower bound for the means of large `k` -/
theorem without_le_liminf {H : Grid ℝ n × Grid ℝ n → ℝ} (hH : Continuous H) (i : LibMix) :
    meanWithoutFluctuations i rfuel fuel o sigma ec debug ev (fun e => ENNReal.ofReal (H (e.TA, e.TB))) ≤
      liminf (fun k => ∫⁻ e, ENNReal.ofReal (H (e.2.2.TA, e.2.2.TB)) ∂eventLaw (libMix i) rfuel fuel (Collider.make { o with fluctuation := k } sigma) ec debug ev) atTop := by
  have hK : IsCompact (Set.Icc ((fun _ _ => 0, fun _ _ => 0) : Grid ℝ n × Grid ℝ n) (fun _ _ => unitMax o, fun _ _ => unitMax o)) := isCompact_Icc
  obtain ⟨M, hM⟩ := hK.bddAbove_image hH.continuousOn
  have hM' : ∀ p ∈ Set.Icc ((fun _ _ => 0, fun _ _ => 0) : Grid ℝ n × Grid ℝ n) (fun _ _ => unitMax o, fun _ _ => unitMax o), H p ≤ M :=
    fun p hp => hM (Set.mem_image_of_mem H hp)
  let G : Grid ℝ n × Grid ℝ n → ℝ := fun p => max 0 (min (H p) M)
  have hG : Continuous G := continuous_const.max (hH.min continuous_const)
  have lim := C106_limit o sigma hk hv hA hB rfuel fuel ec hd debug hn hn1 ev hG (M := max 0 M) (fun p => le_max_left _ _)
    (fun p => max_le_max le_rfl (min_le_right _ _)) i
  have hle : meanWithoutFluctuations i rfuel fuel o sigma ec debug ev (fun e => ENNReal.ofReal (H (e.TA, e.TB))) ≤
      meanWithoutFluctuations i rfuel fuel o sigma ec debug ev (fun e => ENNReal.ofReal (G (e.TA, e.TB))) := by
    rw [without_eq, without_eq]
    refine collisionMean_mono rfuel _ _ _ fuel i fun w b m A' B' w' h => ?_
    unfold onEvent
    cases he : ev.compute ec (Collider.make o sigma).nc debug (unitWeights (collided (b, m, A', B'))).2.2.1 (unitWeights (collided (b, m, A', B'))).2.2.2 with
    | error e => exact le_rfl
    | ok e =>
      have := hM' _ (unit_compact o sigma rfuel fuel ec debug ev hv hA hB hd hn h he)
      simp only [ifOk, G]
      rw [min_eq_left this]
      exact ENNReal.ofReal_le_ofReal (le_max_right _ _)
  refine hle.trans ?_
  refine (Tendsto.liminf_eq lim).symm.le.trans ?_
  refine liminf_le_liminf (Eventually.of_forall fun k => lintegral_mono fun e => ?_)
  dsimp only [G]
  rcases le_total 0 (min (H (e.2.2.TA, e.2.2.TB)) M) with h | h
  · rw [max_eq_right h]; exact ENNReal.ofReal_le_ofReal (min_le_left _ _)
  · rw [max_eq_left h, ENNReal.ofReal_zero]; exact zero_le

/-- **C114, convergence.** With the library's distributions and an ideal engine: for every continuous function of the two nuclear thickness grids of at most linear growth, its mean
over the events of one collision converges, as the fluctuation parameter grows, to its mean over the same collisions without fluctuations. -/
theorem C114_convergence {H : Grid ℝ n × Grid ℝ n → ℝ} (hH : Continuous H) {s : ℝ} (hs : 0 ≤ s)
    (h0 : ∀ U V : Grid ℝ n, (∀ i j, 0 ≤ U i j) → (∀ i j, 0 ≤ V i j) → 0 ≤ H (U, V) ∧ H (U, V) ≤ s * (gridSum U + gridSum V)) (i : LibMix) :
    Tendsto (fun k => ∫⁻ e, ENNReal.ofReal (H (e.2.2.TA, e.2.2.TB)) ∂eventLaw (libMix i) rfuel fuel (Collider.make { o with fluctuation := k } sigma) ec debug ev) atTop
      (𝓝 (meanWithoutFluctuations i rfuel fuel o sigma ec debug ev fun e => ENNReal.ofReal (H (e.TA, e.TB)))) := by
  let mean : ℝ → (Grid ℝ n × Grid ℝ n → ℝ) → ℝ≥0∞ := fun k H =>
    ∫⁻ e, ENNReal.ofReal (H (e.2.2.TA, e.2.2.TB)) ∂eventLaw (libMix i) rfuel fuel (Collider.make { o with fluctuation := k } sigma) ec debug ev
  let unit : (Grid ℝ n × Grid ℝ n → ℝ) → ℝ≥0∞ := fun H => meanWithoutFluctuations i rfuel fuel o sigma ec debug ev fun e => ENNReal.ofReal (H (e.TA, e.TB))
  let L : Grid ℝ n × Grid ℝ n → ℝ := linOf s
  have hL : Continuous L := linOf_continuous s
  let D : Grid ℝ n × Grid ℝ n → ℝ := fun p => L p - H p
  have hD : Continuous D := hL.sub hH
  have mH : ∀ {H : Grid ℝ n × Grid ℝ n → ℝ}, Continuous H → Measurable fun e : Event ℝ n => ENNReal.ofReal (H (e.TA, e.TB)) :=
    fun hH => (hH.measurable.comp (Measurable.prodMk event_TA event_TB)).ennreal_ofReal
  have oe : Measurable fun e : Observed n => e.2.2 := measurable_snd.comp measurable_snd
  let F : (Grid ℝ n × Grid ℝ n → ℝ) → Collided → ℝ≥0∞ := fun H => onEvent ec (Collider.make o sigma).nc debug ev fun e => ENNReal.ofReal (H (e.2.2.TA, e.2.2.TB))
  have mF : ∀ {H : Grid ℝ n × Grid ℝ n → ℝ}, Continuous H → Measurable (F H) := fun hH => onEvent_meas ec _ debug ev ((mH hH).comp oe)
  have hmean : ∀ k {H : Grid ℝ n × Grid ℝ n → ℝ}, Continuous H → mean k H =
      collisionMean (libMix i) rfuel (Collider.make { o with fluctuation := k } sigma) o.projectileA o.projectileB fuel (F H) :=
    fun k H hH => law_onEvent o sigma rfuel fuel ec debug ev hA hB k (mH hH) i
  have hunit : ∀ H : Grid ℝ n × Grid ℝ n → ℝ, unit H =
      collisionMean (libMix i) rfuel (Collider.make o sigma) o.projectileA o.projectileB fuel fun x => F H (unitWeights x) :=
    fun H => without_eq o sigma rfuel fuel ec debug ev i _
  -- splitting the linear function
  have hsplit : ∀ x, NonnegWeights x → F H x + F D x = F L x ∧ F L x = onEvent ec (Collider.make o sigma).nc debug ev (fun e => bothGrids s e.2.2.TA e.2.2.TB) x := by
    intro x hx
    simp only [F]
    unfold onEvent
    cases he : ev.compute ec (Collider.make o sigma).nc debug x.2.2.1 x.2.2.2 with
    | error e => simp [ifOk]
    | ok e =>
      have hT := C21_thickness_nonneg o.nucleonWidth o.constitWidth o.constitNumber sigma o.ncoll o.fluctuation hv ec hd debug n hn _ _
        (fun a ha _ => hx a (by simp [ha])) (fun a ha _ => hx a (by simp [ha])) ev e he
      obtain ⟨p0, p1⟩ := h0 e.TA e.TB (fun i j => (hT i j).1) (fun i j => (hT i j).2)
      simp only [ifOk]
      refine ⟨?_, (linOf_grids hs (fun i j => (hT i j).1) (fun i j => (hT i j).2)).symm⟩
      rw [← ENNReal.ofReal_add p0 (by simp only [D, L, linOf]; linarith)]
      congr 1
      simp only [D]
      ring
  have huL : unit L = unit H + unit D := by
    rw [hunit, hunit, hunit, ← collisionMean_add rfuel _ hA hB fuel (f := fun x => F H (unitWeights x)) ((mF hH).comp unitWeights_meas) (fun x => F D (unitWeights x)) i]
    congr 1
    funext x
    exact (hsplit _ (nonneg_unit x)).1.symm
  have hkL : ∀ k, 0 < k → mean k H + mean k D = unit L := by
    intro k hk'
    rw [hmean k hH, hmean k hD, ← collisionMean_add rfuel _ hA hB fuel (mF hH) (F D) i]
    have e1 : collisionMean (libMix i) rfuel (Collider.make { o with fluctuation := k } sigma) o.projectileA o.projectileB fuel (fun x => F H x + F D x) =
        collisionMean (libMix i) rfuel (Collider.make { o with fluctuation := k } sigma) o.projectileA o.projectileB fuel
          (onEvent ec (Collider.make o sigma).nc debug ev fun e => bothGrids s e.2.2.TA e.2.2.TB) := by
      refine le_antisymm ?_ ?_
      · exact collisionMean_mono rfuel _ _ _ fuel i fun w b m A' B' w' h => by
          have := hsplit _ (collided_weights _ hA hB h).1
          rw [this.1, this.2]
      · exact collisionMean_mono rfuel _ _ _ fuel i fun w b m A' B' w' h => by
          have := hsplit _ (collided_weights _ hA hB h).1
          rw [this.1, this.2]
    rw [e1]
    rw [biaffine_any o sigma rfuel fuel ec debug ev hk hv hA hB hd hn hn1 (bothGrids_meas s) (bothGrids_biaffine s) hk' i, hunit]
    congr 1
    funext x
    exact (hsplit _ (nonneg_unit x)).2.symm
  have hfin : unit L ≠ ∞ := by
    have hK : IsCompact (Set.Icc ((fun _ _ => 0, fun _ _ => 0) : Grid ℝ n × Grid ℝ n) (fun _ _ => unitMax o, fun _ _ => unitMax o)) := isCompact_Icc
    obtain ⟨M, hM⟩ := hK.bddAbove_image hL.continuousOn
    rw [hunit]
    refine ne_top_of_le_ne_top (ENNReal.ofReal_ne_top (r := M)) (le_trans ?_ (collisionMean_const_le rfuel (Collider.make o sigma) o.projectileA o.projectileB fuel (ENNReal.ofReal M) i))
    refine collisionMean_mono rfuel _ _ _ fuel i fun w b m A' B' w' h => ?_
    simp only [F]
    unfold onEvent
    cases he : ev.compute ec (Collider.make o sigma).nc debug (unitWeights (collided (b, m, A', B'))).2.2.1 (unitWeights (collided (b, m, A', B'))).2.2.2 with
    | error e => exact zero_le
    | ok e => exact ENNReal.ofReal_le_ofReal (hM (Set.mem_image_of_mem L (unit_compact o sigma rfuel fuel ec debug ev hv hA hB hd hn h he)))
  have lowH : unit H ≤ liminf (fun k => mean k H) atTop := without_le_liminf o sigma rfuel fuel ec debug ev hk hv hA hB hd hn hn1 hH i
  have lowD : unit D ≤ liminf (fun k => mean k D) atTop := without_le_liminf o sigma rfuel fuel ec debug ev hk hv hA hB hd hn hn1 hD i
  have hDfin : unit D ≠ ∞ := ne_top_of_le_ne_top hfin (by rw [huL]; exact le_add_self)
  have highH : limsup (fun k => mean k H) atTop ≤ unit H := by
    have e : limsup (fun k => mean k H) atTop = limsup (fun k => unit L - mean k D) atTop := by
      refine limsup_congr ?_
      filter_upwards [eventually_gt_atTop 0] with k hk'
      have h := hkL k hk'
      have : mean k D ≠ ∞ := ne_top_of_le_ne_top hfin (by rw [← h]; exact le_add_self)
      rw [← h, ENNReal.add_sub_cancel_right this]
    rw [e, ENNReal.limsup_const_sub _ _ hfin]
    refine (tsub_le_tsub_left lowD _).trans ?_
    rw [huL, ENNReal.add_sub_cancel_right hDfin]
  exact tendsto_of_le_liminf_of_limsup_le lowH highH

/-- **C114, limits.** With the library's distributions and an ideal engine, for `p ≥ 0`: as the fluctuation parameter grows, the mean reduced thickness of every cell and the mean
multiplicity converge to those of the same collisions without fluctuations. -/
theorem C114_limit (hnorm : 0 ≤ ec.norm) (hp : 0 ≤ ec.p) (i : LibMix) :
    let mean : ℝ → (Event ℝ n → ℝ≥0∞) → ℝ≥0∞ := fun k φ =>
      ∫⁻ e, φ e.2.2 ∂eventLaw (libMix i) rfuel fuel (Collider.make { o with fluctuation := k } sigma) ec debug ev
    let without : (Event ℝ n → ℝ≥0∞) → ℝ≥0∞ := meanWithoutFluctuations i rfuel fuel o sigma ec debug ev
    (∀ iy ix, Tendsto (fun k => mean k fun e => ENNReal.ofReal (e.TR iy ix)) atTop (𝓝 (without fun e => ENNReal.ofReal (e.TR iy ix)))) ∧
      Tendsto (fun k => mean k fun e => ENNReal.ofReal e.multiplicity) atTop (𝓝 (without fun e => ENNReal.ofReal e.multiplicity)) := by
  intro mean without
  have key : ∀ {φ : Event ℝ n → ℝ} {H : Grid ℝ n × Grid ℝ n → ℝ}, Measurable φ → Continuous H →
      (∀ (A B : List (NucleonData ℝ)) (e : Event ℝ n), ev.compute ec (Collider.make o sigma).nc debug A B = .ok e → φ e = H (e.TA, e.TB)) →
      (∀ k, (mean k fun e => ENNReal.ofReal (φ e)) = mean k fun e => ENNReal.ofReal (H (e.TA, e.TB))) ∧
        (without fun e => ENNReal.ofReal (φ e)) = without fun e => ENNReal.ofReal (H (e.TA, e.TB)) := by
    intro φ H hφ hH h
    have mH : Measurable fun e : Event ℝ n => ENNReal.ofReal (H (e.TA, e.TB)) := (hH.measurable.comp (Measurable.prodMk event_TA event_TB)).ennreal_ofReal
    have e : onEvent ec (Collider.make o sigma).nc debug ev (fun e => ENNReal.ofReal (φ e.2.2)) =
        onEvent ec (Collider.make o sigma).nc debug ev fun e => ENNReal.ofReal (H (e.2.2.TA, e.2.2.TB)) :=
      onEvent_congr ec debug ev _ fun A B e b m he => by dsimp only; rw [h A B e he]
    refine ⟨fun k => ?_, ?_⟩
    · have l1 := law_onEvent o sigma rfuel fuel ec debug ev hA hB k hφ.ennreal_ofReal i
      have l2 := law_onEvent o sigma rfuel fuel ec debug ev hA hB k mH i
      exact l1.trans ((congrArg _ e).trans l2.symm)
    · have l1 := without_eq o sigma rfuel fuel ec debug ev i fun e : Event ℝ n => ENNReal.ofReal (φ e)
      have l2 := without_eq o sigma rfuel fuel ec debug ev i fun e : Event ℝ n => ENNReal.ofReal (H (e.TA, e.TB))
      refine l1.trans (Eq.trans ?_ l2.symm)
      rw [e]
  refine ⟨fun iy ix => ?_, ?_⟩
  · obtain ⟨k1, k2⟩ := key (φ := fun e => e.TR iy ix) (H := fun p => cellOf ec iy ix p.1 p.2) (cell_meas event_TR iy ix) (cellOf_continuous hp iy ix)
      fun A B e he => event_cellOf he iy ix
    rw [k2]
    simp only [k1]
    exact C114_convergence o sigma rfuel fuel ec debug ev hk hv hA hB hd hn hn1 (cellOf_continuous hp iy ix) hnorm
      (fun U V hU hV => ⟨cellOf_nonneg hnorm iy ix U V hU hV, cellOf_lin hnorm iy ix hU hV⟩) i
  · obtain ⟨k1, k2⟩ := key (φ := fun e => e.multiplicity) (H := fun p => multOf ec p.1 p.2) event_mult (multOf_continuous hp) fun A B e he => event_multOf he
    rw [k2]
    simp only [k1]
    exact C114_convergence o sigma rfuel fuel ec debug ev hk hv hA hB hd hn hn1 (multOf_continuous hp) (mul_nonneg (sq_nonneg _) hnorm)
      (fun U V hU hV => ⟨multOf_nonneg hnorm U V hU hV, multOf_lin hnorm hU hV⟩) i

end

/-- The hypotheses are met: lead on lead with strong fluctuations (`k = 1/2`), three constituents per nucleon and the default geometric mean. -/
example : ∃ nPb : Nucleus ℝ, createNucleus false (fun _ => .missing) "Pb" 0.5 = .ok nPb ∧
    ∃ (ec : EventCfg ℝ) (n : ℕ), EventCfg.make 1 0.2 10 0 = .ok ec ∧ ec.p = 0 ∧ ∀ (ev : Event ℝ n) (i : LibMix),
    let o := { exampleOptions with projectileA := nPb, projectileB := nPb, constitNumber := 3, constitWidth := 1/2, fluctuation := 1/2 }
    let without := meanWithoutFluctuations i 1000 1000 o 3 ec true ev fun e => ENNReal.ofReal e.multiplicity
    ∫⁻ e, ENNReal.ofReal e.2.2.multiplicity ∂eventLaw (libMix i) 1000 1000 (Collider.make o 3) ec true ev ≤ without ∧
    Tendsto (fun k => ∫⁻ e, ENNReal.ofReal e.2.2.multiplicity ∂eventLaw (libMix i) 1000 1000 (Collider.make { o with fluctuation := k } 3) ec true ev) atTop (𝓝 without) := by
  obtain ⟨ec, hec⟩ := C20_grid_exists 1 0.2 10 0 (by norm_num) (by norm_num) (by norm_num)
  obtain ⟨g1, g2, g3, -⟩ := C20_grid_geometry 1 0.2 10 0 (by norm_num) (by norm_num) ec hec
  have hp : ec.p = 0 ∧ ec.norm = 1 := by
    unfold EventCfg.make at hec
    split at hec
    · cases hec
    · split at hec
      · cases hec
      · rw [← Except.ok.inj hec]; exact ⟨rfl, rfl⟩
  have hn : ec.nsteps = (100 : ℕ) := by
    rw [g1]
    have : (2 * 10 / 0.2 : ℝ) = ((100:ℤ) : ℝ) := by norm_num
    rw [this, Int.ceil_intCast]
    rfl
  refine ⟨_, rfl, ec, 100, hec, hp.1, fun ev i => ?_⟩
  intro o without
  have hh : NucleusHistory Tape (LibDist ℝ) o.projectileA := .create false (fun _ => .missing) "Pb" 0.5 _ rfl
  have hd : 0 < ec.dxy := by rw [g2]; norm_num
  exact ⟨((C114_mean o 3 1000 1000 ec true ev (by norm_num [o]) (by norm_num [o]) hh hh hd hn (by norm_num) (by rw [hp.2]; norm_num) i).1 hp.1.ge (by rw [hp.1]; norm_num)).2,
    (C114_limit o 3 1000 1000 ec true ev (by norm_num [o]) (by norm_num [o]) hh hh hd hn (by norm_num) (by rw [hp.2]; norm_num) hp.1.ge i).2⟩

end Trento
