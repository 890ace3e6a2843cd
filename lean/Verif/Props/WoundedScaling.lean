import Verif.Props.GridIntegral
import Verif.Props.FluctuationLimit

/-!
# C113: wounded nucleon scaling of the multiplicity

The mean multiplicity is half the normalization times the mean number of participants at `p = 1`, at most that for
`p ≤ 1` and at least that for `p ≥ 1`, within the accuracy of the grid, whatever the fluctuations, the substructure, the
nuclei and the cross section are.
-/

namespace Trento.Spec
/-- All constituents of all participants of a collision are at least five constituent widths inside the square
`[-X, X]²`. -/
def insideGrid (v X : ℝ) : Set Collided :=
  {x | ∀ a ∈ x.2.2.1 ++ x.2.2.2, a.isParticipant = true → ∀ q ∈ a.constituents, |q.x| + 5 * v ≤ X ∧ |q.y| + 5 * v ≤ X}
end Trento.Spec

namespace Trento
open MeasureTheory Set Spec ProbabilityTheory
open scoped ENNReal

/-! ### Collisions the sampler finds -/

theorem found_participants {c : Collider ℝ} {A B A' B' : Nucleus ℝ} (hA : NucleusHistory Tape (LibDist ℝ) A)
    (hB : NucleusHistory Tape (LibDist ℝ) B) {rfuel fuel : ℕ} {w w' : LibState} {b : ℝ} {m : ℕ}
    (h : c.sampleCollision rfuel fuel A B w = .ok ((b, m, A', B'), w')) :
    ∀ a ∈ (collided (b, m, A', B')).2.2.1 ++ (collided (b, m, A', B')).2.2.2, a.isParticipant = true →
      a.constituents.length = c.nc.constituentNumber := by
  obtain ⟨q1, q2, -, -⟩ := collision_weights _ hA hB h
  obtain ⟨-, c2⟩ := collisionLoop_inv (Q := fun _ => True) trivial (partExist_inv c.nc) (sampling_partExist A.kind _)
    (sampling_partExist B.kind _) rfuel fuel A B hA hB rfl rfl 0 false w
  obtain ⟨-, -, -, -, pA, pB, -⟩ := c2 _ _ _ _ _ h
  have key : ∀ l : List (NucleonData ℝ), (∀ a ∈ l, WeightsReal c.nc.constituentNumber a) →
      (∀ a ∈ l, a.isParticipant = true → a.constituentsExist = true) →
      ∀ a ∈ l.map NucleonData.clear, a.isParticipant = true → a.constituents.length = c.nc.constituentNumber := by
    intro l hl hp a ha hap
    obtain ⟨a', ha', rfl⟩ := List.mem_map.mp ha
    rw [clear_part] at hap
    have hex := hp a' ha' hap
    unfold NucleonData.clear
    rw [if_pos hex]
    exact ((hl a' ha').2 hex).1
  intro a ha
  simp only [collided, List.mem_append] at ha
  rcases ha with ha | ha
  · exact key _ q1 pA a ha
  · exact key _ q2 pB a ha

theorem weight_unit {m : ℕ} (hm : 1 ≤ m) (l : List (NucleonData ℝ))
    (hl : ∀ a ∈ l, a.isParticipant = true → a.constituents.length = m) :
    participantWeight m (l.map NucleonData.unweigh) = l.countP (·.isParticipant) := by
  induction l with
  | nil => simp [participantWeight]
  | cons a l ih =>
    rw [List.map_cons, participantWeight_cons, ih fun b hb => hl b (by simp [hb]), List.countP_cons]
    have e : a.unweigh.isParticipant = a.isParticipant := rfl
    rw [e]
    by_cases hp : a.isParticipant = true
    · have hm0 : (m:ℝ) ≠ 0 := by positivity
      have hlen := hl a (by simp) hp
      have hs : (a.unweigh.constituents.map (·.fluctuation)).sum = (m:ℝ) := by
        rw [← hlen]
        simp only [NucleonData.unweigh, NucleonData.revise, List.map_map]
        have : ((fun c : Constituent ℝ => c.fluctuation) ∘ fun c : Constituent ℝ => { c with fluctuation := 1 }) =
            fun _ => (1:ℝ) := rfl
        rw [this]
        simp
      simp only [hp, if_true]
      rw [hs, div_self hm0]
      push_cast
      ring
    · simp [hp]

/-! ### The grids -/

/-- `s` times the sum of all cells of both thickness grids -/
noncomputable def bothGrids {n : ℕ} (s : ℝ) (TA TB : Grid ℝ n) : ℝ≥0∞ :=
  ENNReal.ofReal s * ∑ iy, ∑ ix, (ENNReal.ofReal (TA iy ix) + ENNReal.ofReal (TB iy ix))

theorem bothGrids_biaffine {n : ℕ} (s : ℝ) : Biaffine (bothGrids (n := n) s) :=
  biaffine_smul (biaffine_sum _ fun iy => biaffine_sum _ fun ix => biaffine_add (biaffine_A iy ix) (biaffine_B iy ix)) _

theorem bothGrids_meas {n : ℕ} (s : ℝ) : Measurable fun p : Grid ℝ n × Grid ℝ n => bothGrids s p.1 p.2 := by
  unfold bothGrids
  have mA : ∀ iy ix, Measurable fun p : Grid ℝ n × Grid ℝ n => ENNReal.ofReal (p.1 iy ix) :=
    fun iy ix => (cell_meas measurable_fst iy ix).ennreal_ofReal
  have mB : ∀ iy ix, Measurable fun p : Grid ℝ n × Grid ℝ n => ENNReal.ofReal (p.2 iy ix) :=
    fun iy ix => (cell_meas measurable_snd iy ix).ennreal_ofReal
  exact (Finset.measurable_sum _ fun iy _ => Finset.measurable_sum _ fun ix _ => (mA iy ix).add (mB iy ix)).const_mul _

theorem bothGrids_eq {n : ℕ} {s : ℝ} (hs : 0 ≤ s) {TA TB : Grid ℝ n} (hA : ∀ iy ix, 0 ≤ TA iy ix)
    (hB : ∀ iy ix, 0 ≤ TB iy ix) : bothGrids s TA TB = ENNReal.ofReal (s * (gridSum TA + gridSum TB)) := by
  unfold bothGrids
  rw [ENNReal.ofReal_mul hs, ← gridSum_add]
  congr 1
  unfold gridSum
  have h0 : ∀ iy ix, 0 ≤ TA iy ix + TB iy ix := fun iy ix => add_nonneg (hA iy ix) (hB iy ix)
  rw [ENNReal.ofReal_sum_of_nonneg fun iy _ => Finset.sum_nonneg fun ix _ => h0 iy ix]
  refine Finset.sum_congr rfl fun iy _ => ?_
  rw [ENNReal.ofReal_sum_of_nonneg fun ix _ => h0 iy ix]
  exact Finset.sum_congr rfl fun ix _ => (ENNReal.ofReal_add (hA iy ix) (hB iy ix)).symm

section
variable {w v : ℝ} {m : ℕ} {σ : ℝ} {ncoll : Bool} {k : ℝ} {c : EventCfg ℝ} {debug : Bool} {n : ℕ}
  {A B : List (NucleonData ℝ)} {ev e : Event ℝ n}

theorem mult_le_grids (hv : 0 < v) (hd : 0 < c.dxy) (hn : c.nsteps = n) (hnorm : 0 ≤ c.norm) (hp : c.p ≤ 1)
    (hA : ∀ a ∈ A, a.isParticipant = true → ∀ q ∈ a.constituents, 0 ≤ q.fluctuation)
    (hB : ∀ b ∈ B, b.isParticipant = true → ∀ q ∈ b.constituents, 0 ≤ q.fluctuation)
    (h : Event.compute c (NucleonCommon.make w v m σ ncoll k) debug ev A B = .ok e) :
    ENNReal.ofReal e.multiplicity ≤ bothGrids (c.norm / 2 * c.dxy^2) e.TA e.TB := by
  have hT := C21_thickness_nonneg w v m σ ncoll k hv c hd debug n hn A B hA hB ev e h
  rw [bothGrids_eq (by positivity) (fun iy ix => (hT iy ix).1) (fun iy ix => (hT iy ix).2)]
  refine ENNReal.ofReal_le_ofReal ?_
  have h3 : gridSum e.TR ≤ c.norm * ((gridSum e.TA + gridSum e.TB) / 2) := by
    rw [← gridSum_half]
    refine gridSum_mono fun iy ix => ?_
    rw [C25_reduced_thickness c _ debug n A B ev e h iy ix, ← trentoMean_half]
    exact mul_le_mul_of_nonneg_left (C26_monotone _ _ _ _ (hT iy ix).1 (hT iy ix).2 hp) hnorm
  rw [C27_multiplicity c _ debug n ev e A B h]
  have := mul_le_mul_of_nonneg_left h3 (sq_nonneg c.dxy)
  linarith

theorem mult_ge_grids (hv : 0 < v) (hd : 0 < c.dxy) (hn : c.nsteps = n) (hnorm : 0 ≤ c.norm) (hp : 1 ≤ c.p)
    (hA : ∀ a ∈ A, a.isParticipant = true → ∀ q ∈ a.constituents, 0 ≤ q.fluctuation)
    (hB : ∀ b ∈ B, b.isParticipant = true → ∀ q ∈ b.constituents, 0 ≤ q.fluctuation)
    (h : Event.compute c (NucleonCommon.make w v m σ ncoll k) debug ev A B = .ok e) :
    bothGrids (c.norm / 2 * c.dxy^2) e.TA e.TB ≤ ENNReal.ofReal e.multiplicity := by
  have hT := C21_thickness_nonneg w v m σ ncoll k hv c hd debug n hn A B hA hB ev e h
  rw [bothGrids_eq (by positivity) (fun iy ix => (hT iy ix).1) (fun iy ix => (hT iy ix).2)]
  refine ENNReal.ofReal_le_ofReal ?_
  have h3 : c.norm * ((gridSum e.TA + gridSum e.TB) / 2) ≤ gridSum e.TR := by
    rw [← gridSum_half]
    refine gridSum_mono fun iy ix => ?_
    rw [C25_reduced_thickness c _ debug n A B ev e h iy ix, ← trentoMean_half]
    exact mul_le_mul_of_nonneg_left (C26_monotone _ _ _ _ (hT iy ix).1 (hT iy ix).2 hp) hnorm
  rw [C27_multiplicity c _ debug n ev e A B h]
  have := mul_le_mul_of_nonneg_left h3 (sq_nonneg c.dxy)
  linarith

theorem npart_count (h : Event.compute c (NucleonCommon.make w v m σ ncoll k) debug ev A B = .ok e) :
    e.npart = A.countP (·.isParticipant) + B.countP (·.isParticipant) := by
  obtain ⟨TA, TB, npA, npB, e1, e2, rfl⟩ := compute_ok h
  have n1 := depositAll_npart e1
  have n2 := depositAll_npart e2
  show npB = _
  omega

end

/-! ### Positions -/

/-- A condition on a collision that does not look at the weights. -/
def Spec.PositionsOnly (S : Set Collided) : Prop := ∀ x, unitWeights x ∈ S ↔ x ∈ S

theorem unit_set (q : Label) (f : ℝ) (x : Collided) : unitWeights (setWeight q f x) = unitWeights x := by
  unfold unitWeights setWeight
  cases q.1 <;> simp only [Bool.false_eq_true, if_false, if_true, unweigh_modify]

theorem positions_set {S : Set Collided} (hS : PositionsOnly S) (q : Label) (f : ℝ) (x : Collided) :
    setWeight q f x ∈ S ↔ x ∈ S := by
  rw [← hS, unit_set, hS]

theorem inside_positions (v X : ℝ) : PositionsOnly (insideGrid v X) := by
  intro x
  have key : ∀ n : NucleonData ℝ, (∀ q ∈ n.unweigh.constituents, |q.x| + 5 * v ≤ X ∧ |q.y| + 5 * v ≤ X) ↔
      ∀ q ∈ n.constituents, |q.x| + 5 * v ≤ X ∧ |q.y| + 5 * v ≤ X := by
    intro n
    simp only [NucleonData.unweigh, NucleonData.revise, List.forall_mem_map]
  have key2 : ∀ n : NucleonData ℝ, n.unweigh.isParticipant = n.isParticipant := fun n => rfl
  unfold insideGrid
  simp only [mem_ofPred_eq, unitWeights, List.forall_mem_append, List.forall_mem_map, key, key2]

theorem inside_meas (v X : ℝ) : MeasurableSet (insideGrid v X) := by
  classical
  have hq : Measurable fun q : Constituent ℝ => decide (¬ (|q.x| + 5 * v ≤ X ∧ |q.y| + 5 * v ≤ X)) := by
    have hs : MeasurableSet {q : Constituent ℝ | ¬ (|q.x| + 5 * v ≤ X ∧ |q.y| + 5 * v ≤ X)} := by
      refine MeasurableSet.compl (MeasurableSet.inter ?_ ?_)
      · exact measurableSet_le ((continuous_abs.measurable.comp constituent_x).add_const _) measurable_const
      · exact measurableSet_le ((continuous_abs.measurable.comp constituent_y).add_const _) measurable_const
    refine measurable_to_bool ?_
    have e : (fun q : Constituent ℝ => decide (¬ (|q.x| + 5 * v ≤ X ∧ |q.y| + 5 * v ≤ X))) ⁻¹' {true} =
        {q : Constituent ℝ | ¬ (|q.x| + 5 * v ≤ X ∧ |q.y| + 5 * v ≤ X)} := by
      ext q; simp only [mem_preimage, mem_singleton_iff, decide_eq_true_eq, mem_ofPred_eq]
    rw [e]; exact hs
  have hany : Measurable fun a : NucleonData ℝ =>
      a.constituents.any fun q => decide (¬ (|q.x| + 5 * v ≤ X ∧ |q.y| + 5 * v ≤ X)) :=
    Measurable.listAny (Y := Unit) (g := fun (_ : Unit) (q : Constituent ℝ) => decide (¬ (|q.x| + 5 * v ≤ X ∧ |q.y| + 5 * v ≤ X))) (y := fun _ => ())
      (hq.comp measurable_snd) measurable_const nucleon_cs
  have ha : Measurable fun a : NucleonData ℝ =>
      if a.isParticipant = true then a.constituents.any (fun q => decide (¬ (|q.x| + 5 * v ≤ X ∧ |q.y| + 5 * v ≤ X))) else false :=
    measurable_bite nucleon_part hany measurable_const
  have hx : Measurable fun x : Collided => (x.2.2.1 ++ x.2.2.2).any fun a =>
      if a.isParticipant = true then a.constituents.any (fun q => decide (¬ (|q.x| + 5 * v ≤ X ∧ |q.y| + 5 * v ≤ X))) else false :=
    Measurable.listAny (Y := Unit) (g := fun (_ : Unit) (a : NucleonData ℝ) =>
      if a.isParticipant = true then a.constituents.any (fun q => decide (¬ (|q.x| + 5 * v ≤ X ∧ |q.y| + 5 * v ≤ X))) else false)
      (y := fun _ => ()) (ha.comp measurable_snd) measurable_const (Measurable.append (measurable_fst.comp (measurable_snd.comp measurable_snd))
        (measurable_snd.comp (measurable_snd.comp measurable_snd)))
  have := hx (measurableSet_singleton false)
  convert this using 1
  ext x
  simp only [insideGrid, mem_ofPred_eq, mem_preimage, mem_singleton_iff, List.any_eq_false]
  refine forall₂_congr fun a _ => ?_
  by_cases hp : a.isParticipant = true
  · simp [hp]
  · simp [hp]

/-! ### Means -/

section
variable (o : Options ℝ) (sigma : ℝ) (rfuel fuel : ℕ) (ec : EventCfg ℝ) (debug : Bool) {n : ℕ} (ev : Event ℝ n)

/-- The mean of `φ` over the events that come from collisions in `S` (all other events count `0`). -/
noncomputable def Spec.meanOver (i : LibMix) (S : Set Collided) (φ : Event ℝ n → ℝ≥0∞) : ℝ≥0∞ :=
  collisionMean (libMix i) rfuel (Collider.make o sigma) o.projectileA o.projectileB fuel
    (S.indicator fun x => match ev.compute ec (Collider.make o sigma).nc debug x.2.2.1 x.2.2.2 with
      | .ok e => φ e
      | .error _ => 0)

theorem meanOver_eq (i : LibMix) (S : Set Collided) (φ : Event ℝ n → ℝ≥0∞) :
    meanOver o sigma rfuel fuel ec debug ev i S φ =
      collisionMean (libMix i) rfuel (Collider.make o sigma) o.projectileA o.projectileB fuel
        (S.indicator (onEvent ec (Collider.make o sigma).nc debug ev fun e => φ e.2.2)) := by
  unfold meanOver
  congr 2
  funext x
  unfold onEvent
  cases ev.compute ec (Collider.make o sigma).nc debug x.2.2.1 x.2.2.2 <;> rfl

/-- Over all collisions this is the mean over the events. -/
theorem meanOver_univ (hA : NucleusHistory Tape (LibDist ℝ) o.projectileA)
    (hB : NucleusHistory Tape (LibDist ℝ) o.projectileB) (i : LibMix) {φ : Event ℝ n → ℝ≥0∞} (hφ : Measurable φ) :
    meanOver o sigma rfuel fuel ec debug ev i univ φ =
      ∫⁻ e, φ e.2.2 ∂eventLaw (libMix i) rfuel fuel (Collider.make o sigma) ec debug ev := by
  rw [eventMean_law rfuel fuel o sigma hA hB ec debug ev (φ := fun e => φ e.2.2)
    (hφ.comp (measurable_snd.comp measurable_snd)) i, eventMean_eq (libMix i) rfuel fuel o sigma hA hB, meanOver_eq,
    indicator_univ]

variable {o sigma rfuel fuel ec debug ev}

theorem affine_indicator {S : Set Collided} (hS : PositionsOnly S) {F : Collided → ℝ≥0∞} (hF : AffineInWeights F) :
    AffineInWeights (S.indicator F) := by
  intro x hx q
  by_cases h : x ∈ S
  · obtain ⟨α, β, hab⟩ := hF x hx q
    refine ⟨α, β, fun f hf => ?_⟩
    rw [indicator_of_mem ((positions_set hS q f x).mpr h)]
    exact hab f hf
  · refine ⟨0, 0, fun f _ => ?_⟩
    rw [indicator_of_notMem (fun h' => h ((positions_set hS q f x).mp h'))]
    simp

/-- the mean of a function of the thickness grids that is affine in each of them is that with unit weights -/
theorem grids_unit (hk : 0 < o.fluctuation) (hv : 0 < o.constitWidth) (hd : 0 < ec.dxy) (hn : ec.nsteps = n) (hn1 : 1 ≤ n)
    (hA : NucleusHistory Tape (LibDist ℝ) o.projectileA) (hB : NucleusHistory Tape (LibDist ℝ) o.projectileB)
    {S : Set Collided} (hS : PositionsOnly S) (hSm : MeasurableSet S) {H : Grid ℝ n → Grid ℝ n → ℝ≥0∞}
    (hm : Measurable fun p : Grid ℝ n × Grid ℝ n => H p.1 p.2) (hH : Biaffine H) (i : LibMix) :
    collisionMean (libMix i) rfuel (Collider.make o sigma) o.projectileA o.projectileB fuel
        (S.indicator (onEvent ec (Collider.make o sigma).nc debug ev fun e => H e.2.2.TA e.2.2.TB)) =
      collisionMean (libMix i) rfuel (Collider.make o sigma) o.projectileA o.projectileB fuel
        (fun x => S.indicator (onEvent ec (Collider.make o sigma).nc debug ev fun e => H e.2.2.TA e.2.2.TB)
          (unitWeights x)) := by
  have hφ : Measurable fun e : Observed n => H e.2.2.TA e.2.2.TB :=
    hm.comp (Measurable.prodMk (event_TA.comp (measurable_snd.comp measurable_snd)) (event_TB.comp (measurable_snd.comp measurable_snd)))
  have haff : AffineInWeights (onEvent ec (Collider.make o sigma).nc debug ev fun e => H e.2.2.TA e.2.2.TB) :=
    affine_event hv hd debug hn hn1 ev hH
  have hF : Measurable (onEvent ec (Collider.make o sigma).nc debug ev fun e => H e.2.2.TA e.2.2.TB) := onEvent_meas ec _ debug ev hφ
  generalize onEvent ec (Collider.make o sigma).nc debug ev (fun e => H e.2.2.TA e.2.2.TB) = F at *
  exact (C105_mean o sigma hk hA hB rfuel fuel (hF.indicator hSm) (affine_indicator hS haff) i).1

variable (hk : 0 < o.fluctuation) (hm : 1 ≤ o.constitNumber) (hd : 0 < ec.dxy) (hdv : ec.dxy ≤ o.constitWidth)
  (hn : ec.nsteps = n) (hn1 : 1 ≤ n) (hnorm : 0 ≤ ec.norm)
  (hA : NucleusHistory Tape (LibDist ℝ) o.projectileA) (hB : NucleusHistory Tape (LibDist ℝ) o.projectileB)
include hk hm hd hdv hn hn1 hnorm hA hB

theorem wounded_le {S : Set Collided} (hS : PositionsOnly S) (hSm : MeasurableSet S) (hp : ec.p ≤ 1) (i : LibMix) :
    meanOver o sigma rfuel fuel ec debug ev i S (fun e => ENNReal.ofReal e.multiplicity) ≤
      ENNReal.ofReal ((1 + 2.1e-8) * (ec.norm / 2)) * meanOver o sigma rfuel fuel ec debug ev i S fun e => (e.npart : ℝ≥0∞) := by
  have hv : 0 < o.constitWidth := by linarith
  rw [meanOver_eq, meanOver_eq, ← collisionMean_smul' _ _ _ _ _ _ ENNReal.ofReal_ne_top]
  refine (collisionMean_mono rfuel _ _ _ fuel i
    (g := S.indicator (onEvent ec (Collider.make o sigma).nc debug ev fun e =>
      bothGrids (ec.norm / 2 * ec.dxy^2) e.2.2.TA e.2.2.TB)) fun w b m' A' B' w' h => ?_).trans ?_
  · have hx := (collided_weights _ hA hB h).1
    generalize collided (b, m', A', B') = x at *
    refine indicator_le_indicator ?_
    unfold onEvent
    cases he : ev.compute ec (Collider.make o sigma).nc debug x.2.2.1 x.2.2.2 with
    | error e => exact le_rfl
    | ok e => exact mult_le_grids hv hd hn hnorm hp (fun a ha _ => hx a (by simp [ha])) (fun a ha _ => hx a (by simp [ha])) he
  · rw [grids_unit hk (by linarith) hd hn hn1 hA hB hS hSm (bothGrids_meas _) (bothGrids_biaffine _)]
    refine collisionMean_mono rfuel _ _ _ fuel i fun w b m' A' B' w' h => ?_
    have hx := (collided_weights _ hA hB h).1
    have hpart := found_participants hA hB h
    generalize collided (b, m', A', B') = x at *
    by_cases hxS : x ∈ S
    · rw [indicator_of_mem hxS, indicator_of_mem ((hS x).mpr hxS)]
      have hu := nonneg_unit x
      have hf := compute_fits (w := o.nucleonWidth) (m := o.constitNumber) (σ := sigma) (ncoll := o.ncoll)
        (k := o.fluctuation) hv hd (debug := debug) hn hn1 ev hx
      have hfu := compute_fits (w := o.nucleonWidth) (m := o.constitNumber) (σ := sigma) (ncoll := o.ncoll)
        (k := o.fluctuation) hv hd (debug := debug) hn hn1 ev hu
      rw [allFit_unit, ← hf] at hfu
      unfold onEvent
      cases he : ev.compute ec (Collider.make o sigma).nc debug (unitWeights x).2.2.1 (unitWeights x).2.2.2 with
      | error e => exact zero_le
      | ok e1 =>
        obtain ⟨e, he2⟩ := hfu.mp ⟨e1, he⟩
        rw [show (Collider.make o sigma).nc =
          NucleonCommon.make o.nucleonWidth o.constitWidth o.constitNumber sigma o.ncoll o.fluctuation from rfl] at he ⊢
        rw [he2]
        simp only [ifOk]
        have nA : ∀ a ∈ (unitWeights x).2.2.1, a.isParticipant = true → ∀ q ∈ a.constituents, 0 ≤ q.fluctuation :=
          fun a ha _ => hu a (by simp [ha])
        have nB : ∀ a ∈ (unitWeights x).2.2.2, a.isParticipant = true → ∀ q ∈ a.constituents, 0 ≤ q.fluctuation :=
          fun a ha _ => hu a (by simp [ha])
        have hT := C21_thickness_nonneg _ _ _ _ _ _ hv ec hd debug n hn _ _ nA nB ev e1 he
        obtain ⟨i1, i2⟩ := C112_thickness_integral_le _ _ _ _ _ _ ec debug n _ _ ev e1 hd hdv hn nA nB he
        have w1 : participantWeight o.constitNumber (unitWeights x).2.2.1 = x.2.2.1.countP (·.isParticipant) :=
          weight_unit hm _ fun a ha => hpart a (by simp [ha])
        have w2 : participantWeight o.constitNumber (unitWeights x).2.2.2 = x.2.2.2.countP (·.isParticipant) :=
          weight_unit hm _ fun a ha => hpart a (by simp [ha])
        rw [w1] at i1
        rw [w2] at i2
        rw [bothGrids_eq (by positivity) (fun iy ix => (hT iy ix).1) (fun iy ix => (hT iy ix).2), npart_count he2,
          ← ENNReal.ofReal_natCast, ← ENNReal.ofReal_mul (by positivity)]
        refine ENNReal.ofReal_le_ofReal ?_
        push_cast
        have hh : 0 ≤ ec.norm / 2 := by positivity
        have := mul_le_mul_of_nonneg_left (add_le_add i1 i2) hh
        linarith
    · rw [indicator_of_notMem hxS, indicator_of_notMem (fun h' => hxS ((hS x).mp h'))]
      simp

theorem wounded_ge {S : Set Collided} (hS : PositionsOnly S) (hSm : MeasurableSet S)
    (hin : S ⊆ insideGrid o.constitWidth ec.xymax) (hX : 2 * ec.xymax = n * ec.dxy) (hp : 1 ≤ ec.p) (i : LibMix) :
    ENNReal.ofReal ((1 - 2.5e-4) * (ec.norm / 2)) * meanOver o sigma rfuel fuel ec debug ev i S (fun e => (e.npart : ℝ≥0∞)) ≤
      meanOver o sigma rfuel fuel ec debug ev i S fun e => ENNReal.ofReal e.multiplicity := by
  have hv : 0 < o.constitWidth := by linarith
  rw [meanOver_eq, meanOver_eq, ← collisionMean_smul' _ _ _ _ _ _ ENNReal.ofReal_ne_top]
  refine le_trans ?_ (collisionMean_mono rfuel _ _ _ fuel i
    (f := S.indicator (onEvent ec (Collider.make o sigma).nc debug ev fun e =>
      bothGrids (ec.norm / 2 * ec.dxy^2) e.2.2.TA e.2.2.TB)) fun w b m' A' B' w' h => ?_)
  · rw [grids_unit hk (by linarith) hd hn hn1 hA hB hS hSm (bothGrids_meas _) (bothGrids_biaffine _)]
    refine collisionMean_mono rfuel _ _ _ fuel i fun w b m' A' B' w' h => ?_
    have hx := (collided_weights _ hA hB h).1
    have hpart := found_participants hA hB h
    generalize collided (b, m', A', B') = x at *
    by_cases hxS : x ∈ S
    · rw [indicator_of_mem hxS, indicator_of_mem ((hS x).mpr hxS)]
      have hu := nonneg_unit x
      have hui := hin ((hS x).mpr hxS)
      have hf := compute_fits (w := o.nucleonWidth) (m := o.constitNumber) (σ := sigma) (ncoll := o.ncoll)
        (k := o.fluctuation) hv hd (debug := debug) hn hn1 ev hx
      have hfu := compute_fits (w := o.nucleonWidth) (m := o.constitNumber) (σ := sigma) (ncoll := o.ncoll)
        (k := o.fluctuation) hv hd (debug := debug) hn hn1 ev hu
      rw [allFit_unit, ← hf] at hfu
      unfold onEvent
      cases he2 : ev.compute ec (Collider.make o sigma).nc debug x.2.2.1 x.2.2.2 with
      | error e => simp [ifOk]
      | ok e =>
        obtain ⟨e1, he⟩ := hfu.mpr ⟨e, he2⟩
        rw [show (Collider.make o sigma).nc =
          NucleonCommon.make o.nucleonWidth o.constitWidth o.constitNumber sigma o.ncoll o.fluctuation from rfl] at he2 ⊢
        rw [he]
        simp only [ifOk]
        have nAB : ∀ a ∈ (unitWeights x).2.2.1 ++ (unitWeights x).2.2.2, a.isParticipant = true → ∀ q ∈ a.constituents,
            0 ≤ q.fluctuation ∧ |q.x| + 5 * o.constitWidth ≤ ec.xymax ∧ |q.y| + 5 * o.constitWidth ≤ ec.xymax :=
          fun a ha hap q hq => ⟨hu a ha q hq, hui a ha hap q hq⟩
        have hT := C21_thickness_nonneg _ _ _ _ _ _ hv ec hd debug n hn _ _
          (fun a ha hp q hq => (nAB a (by simp [ha]) hp q hq).1) (fun a ha hp q hq => (nAB a (by simp [ha]) hp q hq).1)
          ev e1 he
        obtain ⟨i1, i2⟩ := C112_thickness_integral_ge _ _ _ _ _ _ ec debug n _ _ ev e1 hd hdv hn hX nAB he
        have w1 : participantWeight o.constitNumber (unitWeights x).2.2.1 = x.2.2.1.countP (·.isParticipant) :=
          weight_unit hm _ fun a ha => hpart a (by simp [ha])
        have w2 : participantWeight o.constitNumber (unitWeights x).2.2.2 = x.2.2.2.countP (·.isParticipant) :=
          weight_unit hm _ fun a ha => hpart a (by simp [ha])
        rw [w1] at i1
        rw [w2] at i2
        rw [bothGrids_eq (by positivity) (fun iy ix => (hT iy ix).1) (fun iy ix => (hT iy ix).2), npart_count he2,
          ← ENNReal.ofReal_natCast, ← ENNReal.ofReal_mul (mul_nonneg (by norm_num) (by positivity))]
        refine ENNReal.ofReal_le_ofReal ?_
        push_cast
        have hh : 0 ≤ ec.norm / 2 := by positivity
        have := mul_le_mul_of_nonneg_left (add_le_add i1 i2) hh
        linarith
    · rw [indicator_of_notMem hxS, indicator_of_notMem (fun h' => hxS ((hS x).mp h'))]
      simp
  · have hx := (collided_weights _ hA hB h).1
    generalize collided (b, m', A', B') = x at *
    refine indicator_le_indicator ?_
    unfold onEvent
    cases he : ev.compute ec (Collider.make o sigma).nc debug x.2.2.1 x.2.2.2 with
    | error e => exact le_rfl
    | ok e => exact mult_ge_grids hv hd hn hnorm hp (fun a ha _ => hx a (by simp [ha])) (fun a ha _ => hx a (by simp [ha])) he

/-- **C113, upper bound.** With the library's distributions and an ideal engine, on a grid whose step does not exceed
the constituent width and for `p ≤ 1`: the mean multiplicity of the events is at most half the normalization times the
mean number of participants (up to `2.1e-8`), for all nuclei, cross sections, fluctuation parameters and numbers of
constituents. -/
theorem C113_mean_le (hp : ec.p ≤ 1) (i : LibMix) :
    ∫⁻ e, ENNReal.ofReal e.2.2.multiplicity ∂eventLaw (libMix i) rfuel fuel (Collider.make o sigma) ec debug ev ≤
      ENNReal.ofReal ((1 + 2.1e-8) * (ec.norm / 2)) *
        ∫⁻ e, (e.2.2.npart : ℝ≥0∞) ∂eventLaw (libMix i) rfuel fuel (Collider.make o sigma) ec debug ev := by
  have := wounded_le (sigma := sigma) (rfuel := rfuel) (fuel := fuel) (debug := debug) (ev := ev) hk hm hd hdv hn hn1 hnorm
    hA hB (S := univ) (fun x => by simp) MeasurableSet.univ hp i
  have hnp : Measurable fun e : Event ℝ n => (e.npart : ℝ≥0∞) :=
    (measurable_of_countable (fun k : ℕ => (k : ℝ≥0∞))).comp event_npart
  rw [meanOver_univ o sigma rfuel fuel ec debug ev hA hB i event_mult.ennreal_ofReal,
    meanOver_univ (φ := fun e : Event ℝ n => (e.npart : ℝ≥0∞)) o sigma rfuel fuel ec debug ev hA hB i hnp] at this
  exact this

/-- **C113, wounded nucleon model.** Over the events whose participants lie at least five constituent widths inside the
grid, the mean multiplicity at `p = 1` is half the normalization times the mean number of participants, within `2.5e-4`;
for `p ≤ 1` it is at most that and for `p ≥ 1` at least that, within the same accuracy. -/
theorem C113_wounded (hX : 2 * ec.xymax = n * ec.dxy) (i : LibMix) :
    let mean : (Event ℝ n → ℝ≥0∞) → ℝ≥0∞ :=
      meanOver o sigma rfuel fuel ec debug ev i (insideGrid o.constitWidth ec.xymax)
    (ec.p ≤ 1 → mean (fun e => ENNReal.ofReal e.multiplicity) ≤
      ENNReal.ofReal ((1 + 2.1e-8) * (ec.norm / 2)) * mean fun e => (e.npart : ℝ≥0∞)) ∧
    (1 ≤ ec.p → ENNReal.ofReal ((1 - 2.5e-4) * (ec.norm / 2)) * mean (fun e => (e.npart : ℝ≥0∞)) ≤
      mean fun e => ENNReal.ofReal e.multiplicity) :=
  ⟨fun hp => wounded_le hk hm hd hdv hn hn1 hnorm hA hB (inside_positions _ _) (inside_meas _ _) hp i,
    fun hp => wounded_ge hk hm hd hdv hn hn1 hnorm hA hB (inside_positions _ _) (inside_meas _ _) subset_rfl hX hp i⟩

end

/-- The hypotheses are met: lead on lead, three constituents per nucleon, default grid and `p = 1`. -/
example : ∃ nPb : Nucleus ℝ, createNucleus false (fun _ => .missing) "Pb" 0.5 = .ok nPb ∧
    ∃ (ec : EventCfg ℝ) (n : ℕ), EventCfg.make 1 0.2 10 1 = .ok ec ∧ ec.nsteps = n ∧ ∀ (ev : Event ℝ n) (i : LibMix),
    let o := { exampleOptions with projectileA := nPb, projectileB := nPb, constitNumber := 3, constitWidth := 1/2, reducedThickness := 1 }
    let mean : (Event ℝ n → ℝ≥0∞) → ℝ≥0∞ := meanOver o 3 1000 1000 ec true ev i (insideGrid (1/2) 10)
    ENNReal.ofReal ((1 - 2.5e-4) * (1 / 2)) * mean (fun e => (e.npart : ℝ≥0∞)) ≤ mean (fun e => ENNReal.ofReal e.multiplicity) ∧
    mean (fun e => ENNReal.ofReal e.multiplicity) ≤ ENNReal.ofReal ((1 + 2.1e-8) * (1 / 2)) * mean (fun e => (e.npart : ℝ≥0∞)) ∧
    ∫⁻ e, ENNReal.ofReal e.2.2.multiplicity ∂eventLaw (libMix i) 1000 1000 (Collider.make o 3) ec true ev ≤
      ENNReal.ofReal ((1 + 2.1e-8) * (1 / 2)) *
        ∫⁻ e, (e.2.2.npart : ℝ≥0∞) ∂eventLaw (libMix i) 1000 1000 (Collider.make o 3) ec true ev := by
  obtain ⟨ec, hec⟩ := C20_grid_exists 1 0.2 10 1 (by norm_num) (by norm_num) (by norm_num)
  obtain ⟨g1, g2, g3, -⟩ := C20_grid_geometry 1 0.2 10 1 (by norm_num) (by norm_num) ec hec
  have hp : ec.p = 1 ∧ ec.norm = 1 := by
    unfold EventCfg.make at hec
    split at hec
    · cases hec
    · split at hec
      · cases hec
      · rw [← Except.ok.inj hec]; exact ⟨rfl, rfl⟩
  have hn : ec.nsteps = (100 : ℕ) := by
    rw [g1]
    have : (2 * 10 / 0.2 : ℝ) = ((100:ℤ) : ℝ) := by norm_num
    rw [this, Int.ceil_intCast]
    rfl
  have hX : ec.xymax = 10 := by
    have : (ec.nsteps : ℝ) = 100 := by rw [hn]; norm_num
    rw [this] at g3; linarith
  refine ⟨_, rfl, ec, 100, hec, hn, fun ev i => ?_⟩
  intro o mean
  have hh : NucleusHistory Tape (LibDist ℝ) o.projectileA := .create false (fun _ => .missing) "Pb" 0.5 _ rfl
  obtain ⟨h1, h2⟩ := C113_wounded (o := o) (sigma := 3) (rfuel := 1000) (fuel := 1000) (ec := ec) (debug := true) (ev := ev)
    (by norm_num [o, exampleOptions]) (by norm_num [o]) (by rw [g2]; norm_num) (by rw [g2]; norm_num [o]) hn (by norm_num)
    (by rw [hp.2]; norm_num) hh hh (by rw [hX, g2]; norm_num) i
  have h3 := C113_mean_le (o := o) (sigma := 3) (rfuel := 1000) (fuel := 1000) (ec := ec) (debug := true) (ev := ev)
    (by norm_num [o, exampleOptions]) (by norm_num [o]) (by rw [g2]; norm_num) (by rw [g2]; norm_num [o]) hn (by norm_num)
    (by rw [hp.2]; norm_num) hh hh hp.1.le i
  have h1 := h1 hp.1.le
  have h2 := h2 hp.1.ge
  rw [hp.2, hX] at h1 h2
  rw [hp.2] at h3
  exact ⟨h2, h1, h3⟩

end Trento
