import Verif.Lemmas.RoundedSampling
import Verif.Props.RoundedThickness
import Verif.Props.NoUB

/-! # C77, C78: whole runs in rounded arithmetic -/

namespace Trento
open Spec
set_option linter.unusedSectionVars false

/-! ## Sampling: nothing but non-termination, for any arithmetic -/
section generic
variable {F E D : Type} [Arith F] [Rng F E D]

theorem deuteronLoop_fuel (a b : F) (fuel : Nat) (w : Rand E D) (e : Err) (h : deuteronLoop a b fuel w = .error e) : e = .fuel := by
  induction fuel generalizing w with
  | zero => cases h; rfl
  | succ fuel ih =>
    rw [deuteronLoop] at h
    dsimp only at h
    split at h
    · exact ih _ h
    · cases h

theorem deformedReject_fuel (R a b2 b4 rmax : F) (fuel : Nat) (w : Rand E D) (e : Err)
    (h : deformedReject R a b2 b4 rmax fuel w = .error e) : e = .fuel := by
  induction fuel generalizing w with
  | zero => cases h; rfl
  | succ fuel ih =>
    rw [deformedReject] at h
    dsimp only at h
    split at h
    · exact ih _ h
    · cases h

theorem drawDeformed_fuel (R a b2 b4 rmax : F) (fuel k : Nat) (w : Rand E D) (e : Err)
    (h : drawDeformed fuel R a b2 b4 rmax k w = .error e) : e = .fuel := by
  induction k generalizing w with
  | zero => cases h
  | succ k ih =>
    rw [drawDeformed] at h
    cases hd : deformedReject R a b2 b4 rmax fuel w with
    | error e' => simp only [hd] at h; cases h; exact deformedReject_fuel _ _ _ _ _ _ _ _ hd
    | ok r =>
      simp only [hd] at h
      cases hr : drawDeformed fuel R a b2 b4 rmax k r.2 with
      | error e' => simp only [hr] at h; cases h; exact ih _ hr
      | ok r => simp only [hr] at h; cases h

theorem placeManual_total (off : F) (e : Euler F) (ps : List (F × F × F)) (ns : List (NucleonData F)) (h : ps.length = ns.length) :
    ∃ ns', placeManual off e ps ns = .ok ns' := by
  induction ns generalizing ps with
  | nil => cases ps <;> exact ⟨_, rfl⟩
  | cons n ns ih =>
    cases ps with
    | nil => simp at h
    | cons p ps =>
      obtain ⟨ns', h'⟩ := ih ps (by simpa using h)
      obtain ⟨x, y, z⟩ := p
      rw [placeManual, h']
      exact ⟨_, rfl⟩

/-- A manual nucleus has at least one configuration. -/
def Spec.NonEmptyConfigs (kind : Kind F) : Prop :=
  match kind with
  | .manual configs _ => configs ≠ []
  | _ => True

theorem sampling_only_fuel (hidx : ∀ (k : Nat) (d : D) (e : E), (Rng.uniformInt F k d e).1 ≤ k) (nuc : Nucleus F) (hh : NucleusHistory E D nuc)
    (hc : NonEmptyConfigs nuc.kind) (fuel : Nat) (b : F) (w : Rand E D) (e : Err) (h : nuc.sampleNucleons fuel b w = .error e) : e = .fuel := by
  have hw := hh.wf
  cases hk : nuc.kind with
  | manual configs rmax =>
    unfold NonEmptyConfigs at hc
    rw [hk] at hc
    unfold Nucleus.WF at hw
    unfold Nucleus.sampleNucleons at h
    rw [hk] at hw
    simp only [hk, sampleManual] at hw h
    have hlen : configs.length ≠ 0 := by simpa using hc
    have hi : (drawIndex F (configs.length - 1) (drawEuler (F := F) w).2).1 < configs.length := by
      have : (drawIndex F (configs.length - 1) (drawEuler (F := F) w).2).1 ≤ configs.length - 1 := hidx _ _ _
      omega
    obtain ⟨ns', h'⟩ := placeManual_total b (drawEuler (F := F) w).1 _ nuc.nucleons (hw _ (List.getElem_mem hi))
    simp only [hlen, if_false, List.getElem?_eq_getElem hi, h'] at h
    cases h
  | proton => unfold Nucleus.sampleNucleons at h; simp only [hk] at h; cases h
  | woodsSaxon R a d => unfold Nucleus.sampleNucleons at h; simp only [hk] at h; cases h
  | deuteron α β =>
    unfold Nucleus.sampleNucleons at h
    unfold Nucleus.WF at hw
    rw [hk] at hw
    obtain ⟨m1, m2, hm⟩ := List.length_eq_two.mp hw
    simp only [hk, sampleDeuteron, hm] at h
    cases hd : deuteronLoop α β fuel w with
    | error e' => simp only [hd] at h; cases h; exact deuteronLoop_fuel _ _ _ _ _ hd
    | ok r => simp only [hd] at h; cases h
  | deformed R a b2 b4 rmax d =>
    unfold Nucleus.sampleNucleons at h
    simp only [hk, sampleDeformed] at h
    cases hd : drawDeformed fuel R a b2 b4 rmax nuc.nucleons.length (drawTiltSpin (F := F) w).2 with
    | error e' => simp only [hd] at h; cases h; exact drawDeformed_fuel _ _ _ _ _ _ _ _ _ hd
    | ok r => simp only [hd] at h; cases h

theorem boundaryLoop_inv (p : F → Prop) (cs : List (Constituent F)) (b : Box F) (h1 : p b.xmin) (h2 : p b.xmax) (h3 : p b.ymin) (h4 : p b.ymax)
    (hc : ∀ c ∈ cs, p c.x ∧ p c.y) :
    p (boundaryLoop cs b).xmin ∧ p (boundaryLoop cs b).xmax ∧ p (boundaryLoop cs b).ymin ∧ p (boundaryLoop cs b).ymax := by
  induction cs generalizing b with
  | nil => exact ⟨h1, h2, h3, h4⟩
  | cons c cs ih =>
    obtain ⟨c1, c2⟩ := hc c (by simp)
    have hc' : ∀ c ∈ cs, p c.x ∧ p c.y := fun c hc'' => hc c (by simp [hc''])
    unfold boundaryLoop
    dsimp only
    split <;> split <;> (try split) <;> (try split) <;> exact ih _ (by assumption) (by assumption) (by assumption) (by assumption) hc'

end generic

section rounded
variable {M : Machine} {E D : Type} [Rng (Fl M) E D]

/-! ## C77: signs -/

theorem thickness_fl_ok (w v : Fl M) (hv : 1e-10 ≤ v.val) (m : ℕ) (σ : Fl M) (nc : Bool) (k : Fl M) (n : NucleonData (Fl M))
    (hf : ∀ c ∈ n.constituents, 0 ≤ c.fluctuation.val) (x y : Fl M) :
    ∃ t, (NucleonCommon.make w v m σ nc k).thickness false n x y = .ok t ∧ 0 ≤ t.val := by
  obtain ⟨S, e1, e2, -⟩ := thicknessLoop_fl v hv (NucleonCommon.make w v m σ nc k) rfl rfl rfl x y n.constituents (lit 0) hf (by rw [M.lit_zero])
  refine ⟨(NucleonCommon.make w v m σ nc k).prefactor * S, ?_, ?_⟩
  · unfold NucleonCommon.thickness; rw [e1]
  · have h1 : 0 ≤ (oneDivTwoPi / sqr v / ofInt m : Fl M).val := by
      have hpi := Real.pi_pos
      rw [Fl.div_val, Fl.div_val, Fl.sqr_val, Fl.oneDivTwoPi_val, Fl.ofInt_val]
      have a1 : 0 ≤ M.fl (1 / (2 * Real.pi)) := M.fl_nonneg (by positivity)
      have a2 : 0 ≤ M.fl (v.val * v.val) := M.fl_nonneg (mul_self_nonneg _)
      have a3 : 0 ≤ M.fl ((m:ℤ):ℝ) := M.fl_nonneg (by positivity)
      exact M.fl_nonneg (div_nonneg (M.fl_nonneg (div_nonneg a1 a2)) a3)
    exact M.fl_nonneg (mul_nonneg h1 e2)

/-- A participant has constituents, and all weights are non-negative. -/
def WeightsFl (n : NucleonData (Fl M)) : Prop :=
  (n.isParticipant = true → n.constituentsExist = true) ∧ (n.constituentsExist = true → ∀ q ∈ n.constituents, 0 ≤ q.fluctuation.val)

theorem drawConstituents_weights [LawfulRngFl M E D] (nc : NucleonCommon (Fl M)) (k : ℕ) (xc yc : Fl M) (w : Rand E D) :
    ∀ q ∈ (drawConstituents nc k xc yc w).1.1, 0 ≤ q.fluctuation.val := by
  induction k generalizing xc yc w with
  | zero => simp [drawConstituents]
  | succ k ih =>
    intro q hq
    unfold drawConstituents at hq
    simp only [List.mem_cons] at hq
    rcases hq with rfl | hq
    · exact LawfulRngFl.gamma_nonneg _ _ _ _
    · exact ih _ _ _ q hq

theorem weights_invariant [LawfulRngFl M E D] (nc : NucleonCommon (Fl M)) : NucleonInvariant E D nc (WeightsFl (M := M)) where
  sampled n w hn := by
    unfold NucleonCommon.sampleConstituents
    split
    · exact hn
    · refine ⟨fun _ => rfl, fun _ => ?_⟩
      intro q hq
      simp only [List.mem_map] at hq
      obtain ⟨c, hc, rfl⟩ := hq
      exact drawConstituents_weights nc _ _ _ _ c hc
  participant n he hn := ⟨fun _ => he, hn.2⟩

theorem fresh_sampling (kind : Kind (Fl M)) (off : Fl M → Prop) (P : NucleonData (Fl M) → Prop)
    (hP : ∀ n : NucleonData (Fl M), n.isParticipant = false → n.constituentsExist = false → P n) :
    SamplingInvariant E D kind off P (fun _ => True) := by
  intro nuc rfuel x w hh hk hx
  refine ⟨fun _ _ => trivial, ?_⟩
  intro nuc' w' hs n hn
  have := (C12_sampling_resets nuc nuc' hh _ _ _ _ hs).2 n hn
  exact hP n this.1 this.2

theorem depositAll_nonneg (w v : Fl M) (hv : 1e-10 ≤ v.val) (m : ℕ) (σ : Fl M) (nc : Bool) (k : Fl M) (c : EventCfg (Fl M)) {n : ℕ} (hn : c.nsteps = n)
    (A : List (NucleonData (Fl M))) (hA : ∀ a ∈ A, WeightsFl a) (g g' : Grid (Fl M) n) (j j' : ℕ) (hg : ∀ iy ix, 0 ≤ (g iy ix).val)
    (h : depositAll c (NucleonCommon.make w v m σ nc k) false A (g, j) = .ok (g', j')) : ∀ iy ix, 0 ≤ (g' iy ix).val := by
  rcases Nat.eq_zero_or_pos n with h0 | h0
  · subst h0; intro iy; exact iy.elim0
  induction A generalizing g j with
  | nil =>
    simp only [depositAll, Except.ok.injEq, Prod.mk.injEq] at h
    rw [← h.1]; exact hg
  | cons a A ih =>
    have hA' : ∀ a ∈ A, WeightsFl a := fun b hb => hA b (by simp [hb])
    unfold depositAll at h
    by_cases hp : a.isParticipant = true
    · simp only [hp, if_true] at h
      cases hd : depositNucleon c (NucleonCommon.make w v m σ nc k) false a g with
      | error e => simp only [hd] at h; cases h
      | ok g1 =>
        simp only [hd] at h
        refine ih hA' g1 _ ?_ h
        have hf : ∀ q ∈ a.constituents, 0 ≤ q.fluctuation.val := (hA a (by simp)).2 ((hA a (by simp)).1 hp)
        choose T hT hT0 using fun iy ix : Int => thickness_fl_ok w v hv m σ nc k a hf (c.center ix) (c.center iy)
        obtain ⟨b, x0, x1, y0, y1, hb, h1, h2, h3, h4⟩ := depositNucleon_ok_inv hd
        have := depositNucleon_rect hn h0 hT hb h1 h2 h3 h4 g
        rw [hd, Except.ok.injEq] at this
        intro iy ix
        rw [this]
        dsimp only
        split
        · exact M.fl_nonneg (add_nonneg (hg iy ix) (hT0 _ _))
        · exact hg iy ix
    · simp only [hp, Bool.false_eq_true, if_false] at h
      exact ih hA' g j hg h

theorem genMean_fl_nonneg (p a b : Fl M) (ha : 0 ≤ a.val) (hb : 0 ≤ b.val) : 0 ≤ (genMean p a b).val := by
  have hpos : 0 ≤ (positivePmean p a b).val := by
    unfold positivePmean
    rw [Fl.pow_val]
    apply M.pow_nonneg
    rw [Fl.mul_val, M.lit_half, Fl.add_val, Fl.pow_val, Fl.pow_val]
    exact M.fl_nonneg (mul_nonneg (by norm_num) (M.fl_nonneg (add_nonneg (M.pow_nonneg _ _ ha) (M.pow_nonneg _ _ hb))))
  unfold genMean
  split
  · unfold geometricMean
    rw [Fl.sqrt_val]
    exact M.fl_nonneg (Real.sqrt_nonneg _)
  · split
    · exact hpos
    · unfold negativePmean
      split
      · rw [M.lit_zero]
      · exact hpos

theorem rt_sum_nonneg (c : EventCfg (Fl M)) (hc : 0 ≤ c.norm.val) {n : ℕ} (TA TB : Grid (Fl M) n) (hA : ∀ iy ix, 0 ≤ (TA iy ix).val)
    (hB : ∀ iy ix, 0 ≤ (TB iy ix).val) (l : List (Fin n × Fin n)) (s : RTState (Fl M) n) (hs : 0 ≤ s.sum.val) :
    0 ≤ (l.foldl (rtStep c TA TB) s).sum.val := by
  induction l generalizing s with
  | nil => exact hs
  | cons i l ih =>
    apply ih
    show 0 ≤ (s.sum + c.norm * genMean c.p (TA i.1 i.2) (TB i.1 i.2)).val
    exact M.fl_nonneg (add_nonneg hs (M.fl_nonneg (mul_nonneg hc (genMean_fl_nonneg _ _ _ (hA _ _) (hB _ _)))))

theorem ecc_fl_nonneg (a : EccAcc (Fl M)) : 0 ≤ a.finish.val := by
  unfold EccAcc.finish
  rw [Fl.div_val, Fl.sqrt_val, Fl.fmax_val]
  apply M.fl_nonneg
  apply div_nonneg (M.fl_nonneg (Real.sqrt_nonneg _))
  apply le_max_of_le_right
  unfold TINY
  rw [Fl.lit_val]
  apply M.fl_nonneg
  norm_num

/-- No negative number in an event. -/
def Spec.NonNegative {n : ℕ} (ev : Event (Fl M) n) : Prop :=
  (∀ iy ix, 0 ≤ (ev.TA iy ix).val ∧ 0 ≤ (ev.TB iy ix).val ∧ 0 ≤ (ev.TR iy ix).val) ∧ 0 ≤ ev.multiplicity.val ∧
    0 ≤ ev.ecc.e2.val ∧ 0 ≤ ev.ecc.e3.val ∧ 0 ≤ ev.ecc.e4.val ∧ 0 ≤ ev.ecc.e5.val

theorem compute_nonneg (w v : Fl M) (hv : 1e-10 ≤ v.val) (m : ℕ) (σ : Fl M) (nc : Bool) (k : Fl M) (c : EventCfg (Fl M)) (hc : 0 ≤ c.norm.val)
    {n : ℕ} (hn : c.nsteps = n) (A B : List (NucleonData (Fl M))) (hA : ∀ a ∈ A, WeightsFl a) (hB : ∀ a ∈ B, WeightsFl a) (ev ev' : Event (Fl M) n)
    (h : ev.compute c (NucleonCommon.make w v m σ nc k) false A B = .ok ev') : NonNegative ev' := by
  obtain ⟨TA, TB, npA, npB, h1, h2, rfl⟩ := compute_ok h
  have hz : ∀ (iy ix : Fin n), 0 ≤ ((lit 0 : Fl M)).val := fun _ _ => by rw [M.lit_zero]
  have gA := depositAll_nonneg w v hv m σ nc k c hn A hA _ _ _ _ hz h1
  have gB := depositAll_nonneg w v hv m σ nc k c hn B hB _ _ _ _ hz h2
  refine ⟨fun iy ix => ⟨gA iy ix, gB iy ix, ?_⟩, ?_, ecc_fl_nonneg _, ecc_fl_nonneg _, ecc_fl_nonneg _, ecc_fl_nonneg _⟩
  · show 0 ≤ ((computeReducedThickness c { ev with TA := TA, TB := TB, npart := npB }).TR iy ix).val
    rw [computeReducedThickness_TR]
    exact M.fl_nonneg (mul_nonneg hc (genMean_fl_nonneg _ _ _ (gA iy ix) (gB iy ix)))
  · have := rt_sum_nonneg c hc TA TB gA gB (cells n) ⟨ev.TR, lit 0, lit 0, lit 0⟩ (by rw [M.lit_zero])
    exact M.fl_nonneg (mul_nonneg (M.fl_nonneg (mul_self_nonneg _)) this)

theorem eventCfg_make_inv {F : Type} [Arith F] {norm dxy gm p : F} {ec : EventCfg F} (h : EventCfg.make norm dxy gm p = .ok ec) :
    ec.norm = norm ∧ ec.dxy = dxy ∧ ec.nsteps = (ec.nsteps.toNat : ℤ) := by
  unfold EventCfg.make at h
  split at h
  · cases h
  · rename_i ns hns
    split at h
    · cases h
    · cases h
      exact ⟨rfl, rfl, by dsimp only; omega⟩

/-- **C77.** In rounded arithmetic, whatever the projectiles, the impact parameter range and the random numbers (release build, constituent
width at least 1e-10 fm, non-negative normalisation): no record of a run contains a negative impact parameter, thickness, reduced thickness,
multiplicity or eccentricity. -/
theorem C77_nonnegative [LawfulRngFl M E D] (o : Options (Fl M)) (sigma : Fl M) (hA : NucleusHistory E D o.projectileA)
    (hB : NucleusHistory E D o.projectileB) (hv : 1e-10 ≤ o.constitWidth.val) (hnorm : 0 ≤ o.normalization.val)
    (rfuel fuel : Nat) (ev0 : (n : Nat) → Event (Fl M) n) (w : Rand E D) (n : ℕ) (rs : List (EventRecord (Fl M) n))
    (h : runAll rfuel fuel o sigma false ev0 w = .ok ⟨n, rs⟩) :
    ∀ rec ∈ rs, 0 ≤ rec.b.val ∧ NonNegative rec.event := by
  unfold runAll at h
  cases hec : EventCfg.make o.normalization o.gridStep o.gridMax o.reducedThickness with
  | error e => simp only [hec] at h; cases h
  | ok ec =>
    obtain ⟨g1, -, g3⟩ := eventCfg_make_inv hec
    simp only [hec] at h
    unfold Collider.runEvents at h
    have hP : ∀ n : NucleonData (Fl M), n.isParticipant = false → n.constituentsExist = false → WeightsFl n := by
      intro n h1 h2; exact ⟨fun h => absurd h (by rw [h1]; simp), fun h => absurd h (by rw [h2]; simp)⟩
    obtain ⟨-, key⟩ := runLoop_inv (E := E) (D := D) (c := Collider.make o sigma) (ec := ec) (debug := false) (n := ec.nsteps.toNat)
      (P := WeightsFl) (Q := fun _ => True) (R := NonNegative) trivial (weights_invariant _)
      (fresh_sampling o.projectileA.kind _ _ hP) (fresh_sampling o.projectileB.kind _ _ hP)
      (fun ev A B pA pB => ⟨fun _ _ => trivial, fun ev' he =>
        compute_nonneg _ _ hv _ _ _ _ ec (by rw [g1]; exact hnorm) g3 A B pA pB ev ev' he⟩)
      rfuel fuel (Collider.make o sigma).nevents.toNat 0
      ⟨(Collider.make o sigma).nucleusA, (Collider.make o sigma).nucleusB, ev0 ec.nsteps.toNat, seedRand (Fl M) o.randomSeed w⟩ hA hB rfl rfl
    cases hr : runLoop rfuel fuel (Collider.make o sigma) ec false (Collider.make o sigma).nevents.toNat 0
        ⟨(Collider.make o sigma).nucleusA, (Collider.make o sigma).nucleusB, ev0 ec.nsteps.toNat, seedRand (Fl M) o.randomSeed w⟩ with
    | error e => simp only [hr] at h; cases h
    | ok r =>
      obtain ⟨rs', s'⟩ := r
      simp only [hr, Except.ok.injEq, Sigma.mk.injEq] at h
      obtain ⟨rfl, h⟩ := h
      rw [heq_eq_eq] at h
      subst h
      intro rec hrec
      obtain ⟨k1, w1, k2⟩ := key _ _ hr rec hrec
      refine ⟨?_, k1⟩
      rw [k2]
      unfold impactFormula
      rw [Fl.sqrt_val]
      exact M.fl_nonneg (Real.sqrt_nonneg _)

end rounded
end Trento
