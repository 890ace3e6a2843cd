import Verif.Props.RoundedReduced

/-! # C82: collisions in rounded arithmetic -/

namespace Trento
open Spec
variable {M : Machine}

/-! ## Impact parameter -/

/-- The rounded impact parameter formula has a small relative error for all limits, although it subtracts squares. -/
theorem impact_near (bmin bmax u : Fl M) (h0 : 0 ≤ bmin.val) (h1 : bmin.val ≤ bmax.val) (hu0 : 0 ≤ u.val) (hu1 : u.val ≤ 1) :
    |(impactFormula bmin bmax u).val - Real.sqrt (bmin.val^2 + (bmax.val^2 - bmin.val^2) * u.val)| ≤
      3e-15 * Real.sqrt (bmin.val^2 + (bmax.val^2 - bmin.val^2) * u.val) + 1e-120 := by
  unfold impactFormula
  rw [Fl.sqrt_val]
  simp only [Fl.add_val, Fl.mul_val, Fl.sub_val]
  generalize bmin.val = p at *
  generalize bmax.val = q at *
  generalize u.val = t at *
  have hq0 : 0 ≤ q := h0.trans h1
  have hpq : p^2 ≤ q^2 := by nlinarith
  have hX : 0 ≤ p^2 + (q^2 - p^2) * t := by
    have := mul_nonneg (sub_nonneg.2 hpq) hu0
    nlinarith [sq_nonneg p]
  have nP : Near (p^2) 1.2e-16 1e-250 (M.fl (p * p)) (p^2) := by
    have := (Near.exact (a := p^2) (W := p^2) (by rw [abs_of_nonneg (sq_nonneg p)])).round (M := M) le_rfl (ε' := 1.2e-16) (δ' := 1e-250) (by norm_num) (by norm_num)
    rwa [sq] at this ⊢
  have nQ : Near (q^2) 1.2e-16 1e-250 (M.fl (q * q)) (q^2) := by
    have := (Near.exact (a := q^2) (W := q^2) (by rw [abs_of_nonneg (sq_nonneg q)])).round (M := M) le_rfl (ε' := 1.2e-16) (δ' := 1e-250) (by norm_num) (by norm_num)
    rwa [sq] at this ⊢
  have nR := nQ.sub (M := M) nP (W := q^2 + p^2) le_rfl (ε := 2.5e-16) (δ := 4e-250) (by norm_num) (by norm_num)
  have nT : Near t 0 0 t t := Near.exact (by rw [abs_of_nonneg hu0])
  have nS := nR.mul (M := M) nT (q^2 + p^2) 1 le_rfl hu1 (W := (q^2 + p^2) * t) le_rfl (ε := 4e-16) (δ := 6e-250) (by norm_num) (by norm_num)
  have nX := (nP.mono (by norm_num : (1.2e-16:ℝ) ≤ 4e-16) (le_refl _)).add (M := M) nS (W := p^2 + (q^2 + p^2) * t) le_rfl (ε := 6e-16) (δ := 9e-250) (by norm_num) (by norm_num)
  have e := Real.sq_sqrt hX
  have nX' := nX.sharpen (W' := p^2 + (q^2 - p^2) * t) (C := 3) (ε' := 2e-15) (by rw [abs_of_nonneg hX])
    (by nlinarith [mul_nonneg (sub_nonneg.2 hpq) hu0, mul_nonneg (sq_nonneg p) (sub_nonneg.2 hu1)]) (by norm_num) (by norm_num)
  rw [← e] at nX'
  have := (Near.sqrt (M := M) (η := 1e-124) (Real.sqrt_nonneg _) nX' (by norm_num) (by norm_num) (by norm_num) (ε' := 3e-15) (δ' := 1e-120) (by norm_num) (by norm_num)).err
  exact this

/-! ## Maximum distance of a pair -/

/-- A pair passes the test `distance_sq <= max_impact_sq` in rounded arithmetic only if its exact distance is at most six widths, and fails
only if it is at least six widths, up to a relative 1e-15. -/
theorem inRange_fl (w v : Fl M) (m : ℕ) (σ : Fl M) (ncoll : Bool) (k : Fl M) (hw : 0 ≤ w.val) (a b : NucleonData (Fl M)) :
    (InRange (NucleonCommon.make w v m σ ncoll k) a b →
      Real.sqrt ((a.x.val - b.x.val)^2 + (a.y.val - b.y.val)^2) ≤ 6 * w.val * (1 + 1e-15) + 1e-120) ∧
    (¬ InRange (NucleonCommon.make w v m σ ncoll k) a b →
      6 * w.val * (1 - 1e-15) - 1e-120 ≤ Real.sqrt ((a.x.val - b.x.val)^2 + (a.y.val - b.y.val)^2)) := by
  have hmi : (NucleonCommon.make w v m σ ncoll k).maxImpactSq.val = M.fl (M.fl (6 * w.val) * M.fl (6 * w.val)) := by
    have l6 : (lit 6 : Fl M).val = 6 := by rw [M.lit_exact 6 6 0 (by norm_num) (by norm_num) (by norm_num)]; norm_num
    show (sqr (lit 6 * w) : Fl M).val = _
    rw [Fl.sqr_val, Fl.mul_val, l6]
  have hI : InRange (NucleonCommon.make w v m σ ncoll k) a b ↔
      M.fl (M.fl (M.fl (a.x.val - b.x.val) * M.fl (a.x.val - b.x.val)) + M.fl (M.fl (a.y.val - b.y.val) * M.fl (a.y.val - b.y.val))) ≤
        M.fl (M.fl (6 * w.val) * M.fl (6 * w.val)) := by
    unfold InRange
    show decide (_ < _) = false ↔ _
    rw [decide_eq_false_iff_not, not_lt, hmi]
    simp only [Fl.add_val, Fl.sqr_val, Fl.sub_val]
  rw [hI]
  have h1 := M.sq_err (6 * w.val)
  have h2 := M.dist_err (a.x.val - b.x.val) (a.y.val - b.y.val)
  have hu := Machine.uRound_le
  have hu0 := Machine.uRound_pos
  have he := Machine.etaRound_tiny
  have he0 := Machine.etaRound_pos
  generalize (a.x.val - b.x.val) = p at *
  generalize (a.y.val - b.y.val) = q at *
  have hD : 0 ≤ p^2 + q^2 := by positivity
  generalize p^2 + q^2 = D at *
  generalize M.fl (M.fl (M.fl p * M.fl p) + M.fl (M.fl q * M.fl q)) = d at *
  generalize M.fl (M.fl (6 * w.val) * M.fl (6 * w.val)) = X at *
  have h6 : 0 ≤ 6 * w.val := by positivity
  generalize 6 * w.val = y at *
  have hy2 : 0 ≤ y^2 := sq_nonneg y
  have k1 : uRound * D ≤ 1.2e-16 * D := mul_le_mul_of_nonneg_right (by linarith) hD
  have k2 : uRound * y^2 ≤ 1.2e-16 * y^2 := mul_le_mul_of_nonneg_right (by linarith) hy2
  have h1 := abs_le.1 h1
  have h2 := abs_le.1 h2
  have hs := Real.sqrt_nonneg D
  have hsq := Real.sq_sqrt hD
  generalize Real.sqrt D = s at *
  subst hsq
  constructor
  · intro h
    have h3 : s^2 * (1 - 9.6e-16) ≤ y^2 * (1 + 7.2e-16) + 2e-249 := by linarith
    apply le_of_sq_le_sq _ (by nlinarith)
    have h4 : s^2 ≤ y^2 * (1 + 1.7e-15) + 3e-249 := by nlinarith
    have h5 : y^2 * (1 + 1.7e-15) + 3e-249 ≤ (y * (1 + 1e-15))^2 + (1e-120)^2 := by nlinarith
    have h6 : 0 ≤ y * (1 + 1e-15) * 1e-120 := by positivity
    nlinarith
  · intro h
    push Not at h
    have h3 : y^2 * (1 - 7.2e-16) ≤ s^2 * (1 + 9.6e-16) + 2e-249 := by linarith
    have h4 : y^2 * (1 - 1.7e-15) ≤ s^2 + 3e-249 := by nlinarith
    have : y * (1 - 1e-15) ≤ s + 1e-120 := by
      apply le_of_sq_le_sq _ (by nlinarith)
      have h5 : (y * (1 - 1e-15))^2 ≤ y^2 * (1 - 1.7e-15) := by nlinarith
      have h6 : 0 ≤ s * 1e-120 := by positivity
      nlinarith
    linarith

/-! ## Largest impact parameter -/

/-- The default largest impact parameter `r_A + r_B + 6 w`. -/
theorem bmax_near {E D : Type} [Rng (Fl M) E D] (o : Options (Fl M)) (sigma : Fl M) (hA : NucleusHistory E D o.projectileA)
    (hB : NucleusHistory E D o.projectileB) (hw : 0 ≤ o.nucleonWidth.val) :
    (0 ≤ o.bMax.val → (Collider.make o sigma).bmax = o.bMax) ∧
    (o.bMax.val < 0 → |(Collider.make o sigma).bmax.val - (o.projectileA.radius.val + o.projectileB.radius.val + 6 * o.nucleonWidth.val)| ≤
      1e-15 * (o.projectileA.radius.val + o.projectileB.radius.val + 6 * o.nucleonWidth.val) + 1e-120) := by
  have e : (Collider.make o sigma).bmax = if lt o.bMax (lit 0) then o.projectileA.radius + o.projectileB.radius + (Collider.make o sigma).nc.maxImpact else o.bMax := rfl
  have l6 : (lit 6 : Fl M).val = 6 := by rw [M.lit_exact 6 6 0 (by norm_num) (by norm_num) (by norm_num)]; norm_num
  have hl : (lt o.bMax (lit 0)) = decide (o.bMax.val < 0) := by
    show decide (_ < _) = _
    rw [M.lit_zero]
  rw [e, hl]
  have rA := radius_fl_nonneg hA
  have rB := radius_fl_nonneg hB
  constructor
  · intro h
    rw [decide_eq_false (not_lt.2 h)]; rfl
  · intro h
    rw [decide_eq_true h, if_pos rfl, Fl.add_val, Fl.add_val]
    have hm : (Collider.make o sigma).nc.maxImpact.val = M.fl (Real.sqrt (M.fl (M.fl (6 * o.nucleonWidth.val) * M.fl (6 * o.nucleonWidth.val)))) := by
      show (sqrt (sqr (lit 6 * o.nucleonWidth)) : Fl M).val = _
      rw [Fl.sqrt_val, Fl.sqr_val, Fl.mul_val, l6]
    rw [hm]
    have h1 := M.sq_err (6 * o.nucleonWidth.val)
    have hu := Machine.uRound_le
    have he := Machine.etaRound_tiny
    have h6 : 0 ≤ 6 * o.nucleonWidth.val := by positivity
    generalize 6 * o.nucleonWidth.val = y at *
    generalize M.fl (M.fl y * M.fl y) = X at *
    generalize o.projectileA.radius.val = a at *
    generalize o.projectileB.radius.val = b at *
    have nX : Near (y^2) 7.2e-16 3e-250 X (y^2) := by
      refine ⟨by rw [abs_of_nonneg (sq_nonneg y)], h1.trans ?_, by norm_num, by norm_num⟩
      have : uRound * y^2 ≤ 1.2e-16 * y^2 := mul_le_mul_of_nonneg_right (by linarith) (sq_nonneg y)
      linarith
    have nS := Near.sqrt (M := M) (η := 1e-124) h6 nX (by norm_num) (by norm_num) (by norm_num) (ε' := 8.5e-16) (δ' := 2e-124) (by norm_num) (by norm_num)
    have nAB := (Near.exact (a := a) (W := a) (by rw [abs_of_nonneg rA])).add (M := M) (Near.exact (a := b) (W := b) (by rw [abs_of_nonneg rB])) (W := a + b) le_rfl
      (ε := 8.5e-16) (δ := 1e-250) (by norm_num) (by norm_num)
    exact (nAB.add (M := M) nS (W := a + b + y) le_rfl (ε := 1e-15) (δ := 1e-120) (by norm_num) (by norm_num)).err

section run
variable {E D : Type} [Rng (Fl M) E D]

/-- The largest impact parameter: the option `b-max`, or if it is negative the sum of the radii and six nucleon widths. -/
noncomputable def Spec.largestImpact (o : Options (Fl M)) : ℝ :=
  if o.bMax.val < 0 then o.projectileA.radius.val + o.projectileB.radius.val + 6 * o.nucleonWidth.val else o.bMax.val

/-- **C82.** In rounded arithmetic, for `0 ≤ b-min ≤ b-max` (or a `b-min` below the default largest impact parameter): the impact parameter of every record lies between the limits up to a relative 5e-15,
and in the collision it reports every participant of one nucleus has a participating partner in the other nucleus whose exact transverse distance
is at most six nucleon widths up to a relative 1e-15. -/
theorem C82_collisions [LawfulRngFl M E D] (o : Options (Fl M)) (sigma : Fl M) (hA : NucleusHistory E D o.projectileA)
    (hB : NucleusHistory E D o.projectileB) (hw : 0 ≤ o.nucleonWidth.val) (hb0 : 0 ≤ o.bMin.val)
    (hb : o.bMin.val ≤ o.bMax.val ∨ o.bMin.val ≤ largestImpact o * (1 - 1e-15) - 1e-120) (debug : Bool)
    (rfuel fuel : Nat) (ev0 : (n : Nat) → Event (Fl M) n) (w : Rand E D) (n : ℕ) (rs : List (EventRecord (Fl M) n))
    (h : runAll rfuel fuel o sigma debug ev0 w = .ok ⟨n, rs⟩) :
    ∀ rec ∈ rs, o.bMin.val * (1 - 3e-15) - 1e-119 ≤ rec.b.val ∧ rec.b.val ≤ largestImpact o * (1 + 5e-15) + 1e-119 ∧
      ∃ A B : Nucleus (Fl M), CollisionOf E D (Collider.make o sigma) rec.b rec.ncoll A B ∧
        (∃ a ∈ A.nucleons, a.isParticipant = true) ∧ (∃ b ∈ B.nucleons, b.isParticipant = true) ∧
        (∀ a ∈ A.nucleons, a.isParticipant = true → ∃ b ∈ B.nucleons, b.isParticipant = true ∧
          Real.sqrt ((a.x.val - b.x.val)^2 + (a.y.val - b.y.val)^2) ≤ 6 * o.nucleonWidth.val * (1 + 1e-15) + 1e-120) ∧
        (∀ b ∈ B.nucleons, b.isParticipant = true → ∃ a ∈ A.nucleons, a.isParticipant = true ∧
          Real.sqrt ((a.x.val - b.x.val)^2 + (a.y.val - b.y.val)^2) ≤ 6 * o.nucleonWidth.val * (1 + 1e-15) + 1e-120) := by
  obtain ⟨ec, hec, hns, key⟩ := runAll_records_inv o sigma debug (P := fun _ => True) (E := E) (D := D)
      ⟨fun _ _ _ => trivial, fun _ _ _ => trivial⟩ (fun _ _ _ => trivial) hA hB rfuel fuel ev0 w n _ h
  have hbm := bmax_near o sigma hA hB hw
  have hb1 : o.bMin.val ≤ (Collider.make o sigma).bmax.val := by
    by_cases hneg : o.bMax.val < 0
    · have := abs_le.1 (hbm.2 hneg)
      rcases hb with hb | hb
      · linarith
      · rw [largestImpact, if_pos hneg] at hb
        linarith
    · have h0 := not_lt.1 hneg
      rw [hbm.1 h0]
      rcases hb with hb | hb
      · exact hb
      · rw [largestImpact, if_neg hneg] at hb
        linarith
  intro rec hrec
  obtain ⟨A, B, hcol, -⟩ := key rec hrec
  obtain ⟨w', hb⟩ := hcol.b_eq
  have hu := LawfulRngFl.canonical_mem (M := M) (D := D) w'.eng
  have hn := impact_near (Collider.make o sigma).bmin (Collider.make o sigma).bmax (canonical w').1 hb0 hb1 hu.1 hu.2
  rw [← hb] at hn
  have hbmin : (Collider.make o sigma).bmin = o.bMin := rfl
  rw [hbmin] at hn
  have hle : (Collider.make o sigma).bmax.val ≤ largestImpact o * (1 + 1e-15) + 1e-120 := by
    unfold largestImpact
    by_cases hneg : o.bMax.val < 0
    · rw [if_pos hneg]
      have := abs_le.1 (hbm.2 hneg)
      linarith
    · rw [if_neg hneg, hbm.1 (not_lt.1 hneg)]
      have := not_lt.1 hneg
      linarith
  have hp := hcol.participants
  have hu0 : 0 ≤ ((canonical w').1 : Fl M).val := hu.1
  have hu1 : ((canonical w').1 : Fl M).val ≤ 1 := hu.2
  generalize ((canonical w').1 : Fl M).val = u at *
  generalize (Collider.make o sigma).bmax.val = bm at *
  have hlo : o.bMin.val ≤ Real.sqrt (o.bMin.val^2 + (bm^2 - o.bMin.val^2) * u) := by
    apply Real.le_sqrt_of_sq_le
    have : 0 ≤ (bm^2 - o.bMin.val^2) * u := mul_nonneg (by nlinarith) hu0
    linarith
  have hhi : Real.sqrt (o.bMin.val^2 + (bm^2 - o.bMin.val^2) * u) ≤ bm := by
    apply Real.sqrt_le_iff.2
    refine ⟨by linarith, ?_⟩
    have : (bm^2 - o.bMin.val^2) * u ≤ (bm^2 - o.bMin.val^2) * 1 := mul_le_mul_of_nonneg_left hu1 (by nlinarith)
    linarith
  have hn := abs_le.1 hn
  refine ⟨by linarith, by linarith, A, B, hcol, hp.1, hp.2.1, ?_, ?_⟩
  · intro a ha hpa
    obtain ⟨b, hb, hpb, hr⟩ := hp.2.2.1 a ha hpa
    exact ⟨b, hb, hpb, (inRange_fl o.nucleonWidth o.constitWidth o.constitNumber sigma o.ncoll o.fluctuation hw a b).1 hr⟩
  · intro b hb hpb
    obtain ⟨a, ha, hpa, hr⟩ := hp.2.2.2 b hb hpb
    exact ⟨a, ha, hpa, (inRange_fl o.nucleonWidth o.constitWidth o.constitNumber sigma o.ncoll o.fluctuation hw a b).1 hr⟩

end run

/-- The run of `example_run_fl` satisfies the hypotheses of C82 on every machine; both records come from collisions whose two nucleons are close. -/
theorem example_collisions_fl (ev0 : (n : Nat) → Event (Fl M) n) : ∃ n r1 r2,
    runAll 0 1 (exampleOptionsFl M) ⟨100⟩ false ev0 halfTape = .ok ⟨n, [r1, r2]⟩ ∧ r2.b.val ≤ 1e-119 ∧
    ∃ A B : Nucleus (Fl M), CollisionOf Tape Unit (Collider.make (exampleOptionsFl M) ⟨100⟩) r2.b r2.ncoll A B ∧
      ∃ a ∈ A.nucleons, ∃ b ∈ B.nucleons, a.isParticipant = true ∧ b.isParticipant = true ∧
        Real.sqrt ((a.x.val - b.x.val)^2 + (a.y.val - b.y.val)^2) ≤ 6 * 1 * (1 + 1e-15) + 1e-120 := by
  obtain ⟨n, r1, r2, h⟩ := example_run_fl (M := M) ev0
  have hh : NucleusHistory Tape Unit (mkProton : Nucleus (Fl M)) := .create false (fun _ => .missing) "p" (lit 0) _ rfl
  have ew : (exampleOptionsFl M).nucleonWidth.val = 1 := M.lit_one
  have eb : (exampleOptionsFl M).bMax.val = 0 := M.lit_zero
  have eb' : (exampleOptionsFl M).bMin.val = 0 := M.lit_zero
  have key := C82_collisions (E := Tape) (D := Unit) (exampleOptionsFl M) ⟨100⟩ hh hh (by rw [ew]; norm_num) (by rw [eb']) (Or.inl (by rw [eb, eb'])) false 0 1 ev0 halfTape n _ h
    r2 (by simp)
  obtain ⟨-, k2, A, B, hc, ⟨a, ha, hpa⟩, -, k3, -⟩ := key
  obtain ⟨b, hb, hpb, hd⟩ := k3 a ha hpa
  refine ⟨n, r1, r2, h, ?_, A, B, hc, a, ha, b, hb, hpa, hpb, ?_⟩
  · rw [largestImpact, eb, if_neg (lt_irrefl _)] at k2
    linarith
  · rw [ew] at hd; exact hd

end Trento
