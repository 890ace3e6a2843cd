import Verif.Lemmas.SpecialEvent
import Verif.Props.NoUB
import Verif.Props.Termination

/-!
# No NaN and no infinity (C18, C32, C71)

Theorems about the model computing with reals and the special values of IEEE 754 (`Verif/Model/Special.lean`).
-/

namespace Trento
open XReal Spec
variable {E D : Type}

/-! ## Nuclei from the species table -/

/-- The HDF5 view of a path with its numbers read as finite `double`s. -/
def H5View.map {F G : Type} (f : F → G) : H5View F → H5View G
  | .missing => .missing
  | .notHdf5 => .notHdf5
  | .file objs => .file (objs.map fun o => (o.1, match o.2 with
    | .dataset dims value => .dataset dims fun i j k => f (value i j k)
    | .other => .other))

theorem fin_h5Configs (value : ℕ → ℕ → ℕ → ℝ) (k A : ℕ) : h5Configs (fun i j k => fin (value i j k)) k A =
    (h5Configs value k A).map (List.map fun p => (fin p.1, fin p.2.1, fin p.2.2)) := by
  unfold h5Configs
  rw [List.map_map]
  apply List.map_congr_left
  intro i _
  simp only [Function.comp, List.map_map]
  rfl

theorem fin_maxRadiusSq (ps : List (ℝ × ℝ × ℝ)) (m : ℝ) :
    maxRadiusSq (ps.map fun p => (fin p.1, fin p.2.1, fin p.2.2)) (fin m) = fin (maxRadiusSq ps m) := by
  induction ps generalizing m with
  | nil => rfl
  | cons p ps ih =>
    obtain ⟨x, y, z⟩ := p
    simp only [List.map_cons, maxRadiusSq, fin_mul, fin_add, fin_lt]
    by_cases h : lt m (x*x + y*y + z*z) = true
    · simp only [h, if_true]; exact ih _
    · simp only [h, Bool.false_eq_true, if_false]; exact ih _

theorem maxRadiusSq_nonneg (ps : List (ℝ × ℝ × ℝ)) (m : ℝ) (hm : 0 ≤ m) : 0 ≤ maxRadiusSq ps m := by
  induction ps generalizing m with
  | nil => exact hm
  | cons p ps ih =>
    obtain ⟨x, y, z⟩ := p
    rw [maxRadiusSq]
    apply ih
    split
    · nlinarith [mul_self_nonneg x, mul_self_nonneg y, mul_self_nonneg z]
    · exact hm

theorem fin_ofKind (k : Kind ℝ) (A : ℕ) : Nucleus.ofKind (k.map fin) A = (Nucleus.ofKind k A).map fin := by
  simp only [Nucleus.ofKind, Nucleus.map, List.map_replicate]
  rfl

theorem fin_manualCreate (path : String) (v : H5View ℝ) :
    manualCreate path (v.map fin) = (manualCreate path v).map (Nucleus.map fin) := by
  cases v with
  | missing => rfl
  | notHdf5 => rfl
  | file objs =>
    match objs with
    | [] => rfl
    | [(s, .other)] => rfl
    | (s, o) :: b :: l => cases o <;> rfl
    | [(s, .dataset dims value)] =>
      simp only [manualCreate, H5View.map, List.map_cons, List.map_nil]
      split
      · rfl
      · split
        · rfl
        · split
          · rfl
          · split
            · rfl
            · simp only [fin_h5Configs, ← List.map_flatten, fin_lit, fin_maxRadiusSq, Except.map]
              rw [fin_sqrt (maxRadiusSq_nonneg _ _ (by simp)), ← fin_ofKind]
              rfl

theorem fin_createNucleus (hdf5 : Bool) (disk : String → H5View ℝ) (s : String) (d : ℝ) :
    createNucleus hdf5 (fun p => (disk p).map fin) s (fin d) = (createNucleus hdf5 disk s d).map (Nucleus.map fin) := by
  have mapOk : ∀ a : Nucleus ℝ, Except.map (ε := Err) (Nucleus.map fin) (.ok a) = .ok (a.map fin) := fun _ => rfl
  have mapErr : ∀ e : Err, Except.map (Nucleus.map fin) (.error e : Res (Nucleus ℝ)) = .error e := fun _ => rfl
  have m1 : (mkProton : Nucleus XReal) = (mkProton : Nucleus ℝ).map fin := fin_ofKind .proton 1
  have m2 : ∀ a b : ℚ, mkDeuteron (lit a : XReal) (lit b) = (mkDeuteron (lit a : ℝ) (lit b)).map fin := fun _ _ => fin_ofKind (.deuteron _ _) _
  have m3 : ∀ (A : ℕ) (R a : ℚ), mkWoodsSaxon A (lit R : XReal) (lit a) (fin d) = (mkWoodsSaxon A (lit R : ℝ) (lit a) d).map fin :=
    fun _ _ _ => fin_ofKind (.woodsSaxon _ _ _) _
  have m4 : ∀ (A : ℕ) (R a b c : ℚ), mkDeformed A (lit R : XReal) (lit a) (lit b) (lit c) (fin d) =
      (mkDeformed A (lit R : ℝ) (lit a) (lit b) (lit c) d).map fin :=
    fun _ _ _ _ _ => fin_ofKind (.deformed _ _ _ _ _ _) _
  unfold createNucleus
  simp only [fin_manualCreate, apply_ite (Except.map (Nucleus.map fin)), mapOk, mapErr, m1, m2, m3, m4]

/-- Every nucleus that can be created has non-zero constants where the samplers divide by them. -/
theorem created_regular {hdf5 : Bool} {disk : String → H5View ℝ} {s : String} {d : ℝ} {nuc : Nucleus ℝ}
    (h : createNucleus hdf5 disk s d = .ok nuc) : nuc.kind.Regular := by
  rcases createNucleus_cases h with rfl | ⟨-, rfl⟩ | ⟨A, R, a, hR, ha, rfl⟩ | ⟨A, R, a, b2, b4, hR, ha, rfl⟩ | ⟨cf, rm, A, -, rfl⟩
  · trivial
  · simp only [mkDeuteron, Nucleus.ofKind, Kind.Regular, lit_real, fmin_real]; norm_num
  · exact ha.ne'
  · refine ⟨ha.ne', ?_⟩
    simp only [lit_real, fabs_real]
    have h1 := abs_nonneg b2
    have h2 := abs_nonneg b4
    norm_num
    positivity
  · trivial

/-- Only the name `d` gives a deuteron. -/
theorem created_notDeuteron {hdf5 : Bool} {disk : String → H5View ℝ} {s : String} {d : ℝ} {nuc : Nucleus ℝ}
    (h : createNucleus hdf5 disk s d = .ok nuc) (hs : s ≠ "d") : nuc.kind.notDeuteron := by
  rcases createNucleus_cases h with rfl | ⟨hd, rfl⟩ | ⟨A, R, a, hR, ha, rfl⟩ | ⟨A, R, a, b2, b4, hR, ha, rfl⟩ | ⟨cf, rm, A, -, rfl⟩
  · trivial
  · exact absurd hd hs
  · trivial
  · trivial
  · trivial

/-- … and stays so whatever happens to the object. -/
theorem history_regular [Rng ℝ E D] {nuc : Nucleus ℝ} (h : NucleusHistory E D nuc) : nuc.kind.Regular := by
  induction h with
  | create hdf5 disk species dmin nuc h => exact created_regular h
  | sample nuc nuc' fuel offset w w' hh h ih => rw [(sampleNucleons_reset hh.wf h).1]; exact ih
  | collide nuc ns hh hl ih => exact ih

/-! ## Fluctuations of the participants are non-negative -/

/-- A nucleon as it can occur in a run: participants have constituents, and constituents have non-negative weights. -/
structure Weighted (n : NucleonData ℝ) : Prop where
  part : n.isParticipant = true → n.constituentsExist = true
  weight : n.constituentsExist = true → ∀ q ∈ n.constituents, 0 ≤ q.fluctuation

section weighted
variable [Rng ℝ E D] [LawfulRng E D]

theorem sampleConstituents_weighted (nc : NucleonCommon ℝ) (n : NucleonData ℝ) (w : Rand E D) (h : Weighted n) (p : Bool) :
    Weighted { (nc.sampleConstituents n w).1 with isParticipant := p } := by
  refine ⟨fun _ => (sampleConstituents_frame nc n w).2.2.2.2.1, fun _ => ?_⟩
  by_cases he : n.constituentsExist = true
  · rw [(sampleConstituents_frame nc n w).2.2.2.2.2 he]; exact h.weight he
  · show ∀ q ∈ (nc.sampleConstituents n w).1.constituents, 0 ≤ q.fluctuation
    unfold NucleonCommon.sampleConstituents
    simp only [he, Bool.false_eq_true, if_false]
    intro q hq
    obtain ⟨q0, hq0, rfl⟩ := List.mem_map.mp hq
    exact drawConstituents_fluct nc _ _ _ _ q0 hq0

theorem participate_weighted (nc : NucleonCommon ℝ) (A B : NucleonData ℝ) (w : Rand E D) (hA : Weighted A) (hB : Weighted B) :
    Weighted (nc.participate A B w).1.2.1 ∧ Weighted (nc.participate A B w).1.2.2 := by
  rcases participate_cases nc A B w with ⟨h, -, -⟩ | h | ⟨w1, p, -, h1, h2⟩
  · rw [h]; exact ⟨hA, hB⟩
  · rw [h]; exact ⟨hA, hB⟩
  · rw [h1, h2]; exact ⟨sampleConstituents_weighted nc A w hA _, sampleConstituents_weighted nc B w1 hB _⟩

theorem pairRow_weighted (nc : NucleonCommon ℝ) (cn : Bool) (A : NucleonData ℝ) (Bs : List (NucleonData ℝ)) (k : ℕ) (c : Bool)
    (w : Rand E D) (hA : Weighted A) (hB : ∀ b ∈ Bs, Weighted b) :
    Weighted (pairRow nc cn A Bs k c w).1.1 ∧ ∀ b ∈ (pairRow nc cn A Bs k c w).1.2.1, Weighted b := by
  induction Bs generalizing A k c w with
  | nil => exact ⟨hA, hB⟩
  | cons B Bs ih =>
    simp only [pairRow]
    obtain ⟨h1, h2⟩ := participate_weighted nc A B w hA (hB B (by simp))
    obtain ⟨h3, h4⟩ := ih _ _ _ _ h1 (fun b hb => hB b (by simp [hb]))
    refine ⟨h3, ?_⟩
    intro b hb
    rcases List.mem_cons.mp hb with rfl | hb
    · exact h2
    · exact h4 b hb

theorem pairLoop_weighted (nc : NucleonCommon ℝ) (cn : Bool) (As Bs : List (NucleonData ℝ)) (k : ℕ) (c : Bool)
    (w : Rand E D) (hA : ∀ a ∈ As, Weighted a) (hB : ∀ b ∈ Bs, Weighted b) :
    (∀ a ∈ (pairLoop nc cn As Bs k c w).1.1, Weighted a) ∧ ∀ b ∈ (pairLoop nc cn As Bs k c w).1.2.1, Weighted b := by
  induction As generalizing Bs k c w with
  | nil => exact ⟨hA, hB⟩
  | cons A As ih =>
    simp only [pairLoop]
    obtain ⟨h1, h2⟩ := pairRow_weighted nc cn A Bs k c w (hA A (by simp)) hB
    obtain ⟨h3, h4⟩ := ih _ _ _ (pairRow nc cn A Bs k c w).2 (fun b hb => hA b (by simp [hb])) h2
    refine ⟨?_, h4⟩
    intro a ha
    rcases List.mem_cons.mp ha with rfl | ha
    · exact h1
    · exact h3 a ha

theorem fresh_weighted {n : NucleonData ℝ} (h : Fresh n) : Weighted n :=
  ⟨fun hp => absurd hp (by rw [h.1]; simp), fun he => absurd he (by rw [h.2]; simp)⟩

end weighted

/-! ## Events -/

/-- Two results are the same up to the relation `R` on successful outcomes. -/
def Spec.SameRes {α β : Type} (R : α → β → Prop) : Res α → Res β → Prop
  | .ok a, .ok b => R a b
  | .error e, .error e' => e = e'
  | _, _ => False

theorem fin_Event_compute {w v : ℝ} {m : ℕ} {σ : ℝ} {ncoll : Bool} {k : ℝ} (hv : 0 < v) (hm : m ≠ 0)
    {c : EventCfg ℝ} (hd : 0 < c.dxy) (debug : Bool) {n : ℕ} (hn : c.nsteps = n) {A B : List (NucleonData ℝ)}
    (hAw : ∀ a ∈ A, a.isParticipant = true → ∀ q ∈ a.constituents, 0 ≤ q.fluctuation)
    (hBw : ∀ a ∈ B, a.isParticipant = true → ∀ q ∈ a.constituents, 0 ≤ q.fluctuation) (ev : Event ℝ n) (evx : Event XReal n) :
    SameRes SameEvent
      (Event.compute (c.map fin) ((NucleonCommon.make w v m σ ncoll k).map fin) debug evx (finNs A) (finNs B))
      (Event.compute c (NucleonCommon.make w v m σ ncoll k) debug ev A B) := by
  set nc := NucleonCommon.make w v m σ ncoll k with hnc
  have hr : nc.Regular := make_regular σ ncoll k hv hm
  have hz : (fun _ _ => lit 0 : Grid XReal n) = Grid.map fin (fun _ _ => lit 0 : Grid ℝ n) := rfl
  cases hres : Event.compute c nc debug ev A B with
  | error e =>
    unfold Event.compute computeNuclearThickness at hres ⊢
    simp only [hz, fin_depositAll hd.ne' hr] at hres ⊢
    cases h1 : depositAll c nc debug A (fun _ _ => lit 0, 0) with
    | error e1 =>
      simp only [h1] at hres
      simp only [Except.map]
      cases hres; rfl
    | ok r1 =>
      obtain ⟨TA, np⟩ := r1
      simp only [h1] at hres
      simp only [Except.map]
      cases h2 : depositAll c nc debug B (fun _ _ => lit 0, np) with
      | error e2 =>
        simp only [h2] at hres
        cases hres; rfl
      | ok r2 => simp only [h2] at hres; cases hres
  | ok ev' =>
    have hT := C21_thickness_nonneg w v m σ ncoll k hv c hd debug n hn A B hAw hBw ev ev' hres
    have hC := C30_no_cancellation w v m σ ncoll k hv c hd debug n hn A B hAw hBw ev ev' hres
    obtain ⟨TA, TB, npA, npB, h1, h2, rfl⟩ := compute_ok hres
    unfold Event.compute computeNuclearThickness
    simp only [hz, fin_depositAll hd.ne' hr, h1, h2, Except.map]
    show SameEvent _ _
    have tA : ∀ i j, 0 ≤ TA i j := fun i j => (hT i j).1
    have tB : ∀ i j, 0 ≤ TB i j := fun i j => (hT i j).2
    obtain ⟨s1, s2, s3⟩ := fin_rt_foldl c TA TB tA tB (cells n) ⟨ev.TR, lit 0, lit 0, lit 0⟩ ⟨evx.TR, lit 0, lit 0, lit 0⟩
      rfl rfl rfl
    have hTR : ∀ i j, (computeReducedThickness (c.map fin) { evx with TA := TA.map fin, TB := TB.map fin, npart := npB }).TR i j =
        fin ((computeReducedThickness c { ev with TA := TA, TB := TB, npart := npB }).TR i j) := by
      intro i j
      rw [computeReducedThickness_TR, computeReducedThickness_TR]
      have : genMean (c.map fin).p (Grid.map fin TA i j) (Grid.map fin TB i j) = fin (genMean c.p (TA i j) (TB i j)) :=
        fin_genMean (tA i j) (tB i j)
      show (c.map fin).norm * genMean (c.map fin).p (Grid.map fin TA i j) (Grid.map fin TB i j) = _
      rw [this]; rfl
    have hTR' : (computeReducedThickness (c.map fin) { evx with TA := TA.map fin, TB := TB.map fin, npart := npB }).TR =
        Grid.map fin (computeReducedThickness c { ev with TA := TA, TB := TB, npart := npB }).TR := by
      funext i j; exact hTR i j
    refine ⟨fun _ _ => rfl, fun _ _ => rfl, hTR, rfl, ?_, ?_⟩
    · show (c.map fin).dxy * (c.map fin).dxy * _ = fin (c.dxy * c.dxy * _)
      rw [s1]; rfl
    · show (computeObservables _).ecc = ((computeObservables _).ecc).map fin
      unfold computeObservables
      have hacc : (cells n).foldl (obsStep
            (computeReducedThickness (c.map fin) { evx with TA := TA.map fin, TB := TB.map fin, npart := npB }).TR
            (computeReducedThickness (c.map fin) { evx with TA := TA.map fin, TB := TB.map fin, npart := npB }).ixcm
            (computeReducedThickness (c.map fin) { evx with TA := TA.map fin, TB := TB.map fin, npart := npB }).iycm) EccAccs.zero =
          ((cells n).foldl (obsStep (computeReducedThickness c { ev with TA := TA, TB := TB, npart := npB }).TR
            (computeReducedThickness c { ev with TA := TA, TB := TB, npart := npB }).ixcm
            (computeReducedThickness c { ev with TA := TA, TB := TB, npart := npB }).iycm) EccAccs.zero).map fin := by
        rw [hTR']
        rcases hC with hC | hC
        · have hs : ((cells n).foldl (rtStep c TA TB) ⟨ev.TR, lit 0, lit 0, lit 0⟩).sum ≠ 0 := by
            have := (computeReducedThickness_scalars c { ev with TA := TA, TB := TB, npart := npB }).1
            have e : (computeReducedThickness c { ev with TA := TA, TB := TB, npart := npB }).multiplicity =
              c.dxy * c.dxy * ((cells n).foldl (rtStep c TA TB) ⟨ev.TR, lit 0, lit 0, lit 0⟩).sum := rfl
            rw [e] at this
            intro h0
            rw [h0, mul_zero] at this
            have h3 := mul_eq_zero.mp this.symm
            rcases h3 with h3 | h3
            · exact (mul_pos hd hd).ne' h3
            · exact hC h3
          have ex : (computeReducedThickness (c.map fin) { evx with TA := TA.map fin, TB := TB.map fin, npart := npB }).ixcm =
              fin (computeReducedThickness c { ev with TA := TA, TB := TB, npart := npB }).ixcm := by
            show _ / _ = fin (_ / _)
            rw [s1, s2, fin_div _ hs]
          have ey : (computeReducedThickness (c.map fin) { evx with TA := TA.map fin, TB := TB.map fin, npart := npB }).iycm =
              fin (computeReducedThickness c { ev with TA := TA, TB := TB, npart := npB }).iycm := by
            show _ / _ = fin (_ / _)
            rw [s1, s3, fin_div _ hs]
          rw [ex, ey]
          exact fin_obs_foldl _ _ _ (cells n) EccAccs.zero
        · have skip : ∀ {G : Type} [Arith G] (T : Grid G n) (x y : G) (l : List (Fin n × Fin n)) (s : EccAccs G),
              (∀ i j, lt (T i j) TINY = true) → l.foldl (obsStep T x y) s = s := by
            intro G _ T x y l s hT
            induction l with
            | nil => rfl
            | cons i l ih =>
              rw [List.foldl_cons]
              have : obsStep T x y s i = s := by unfold obsStep; simp only [hT, if_true]
              rw [this, ih]
          have hlt : ∀ i j, lt ((computeReducedThickness c { ev with TA := TA, TB := TB, npart := npB }).TR i j) (TINY : ℝ) = true := by
            intro i j
            rw [lt_real, TINY_real]
            exact decide_eq_true (hC i j)
          rw [skip, skip]
          · rfl
          · exact hlt
          · intro i j
            exact hlt i j
      rw [hacc]
      simp only [EccAccs.map, Ecc.map, fin_finish]

/-! ## Collisions and runs -/

theorem fin_radius {nuc : Nucleus ℝ} (h : nuc.kind.Regular) : (nuc.map fin).radius = fin nuc.radius := by
  obtain ⟨kind, ns, off⟩ := nuc
  cases kind with
  | proton => rfl
  | deuteron a b =>
    show -(log (lit 0.01)) / (lit 2 * fin a) = fin (-(log (lit 0.01)) / (lit 2 * a))
    have ha : a ≠ 0 := h
    rw [fin_lit, fin_log (by simp; norm_num), fin_neg, fin_lit, fin_mul, fin_div]
    simpa using ha
  | woodsSaxon R a d => rfl
  | deformed R a b2 b4 rm d => rfl
  | manual cf r => rfl

section runs
variable [Rng ℝ E D] [LawfulRng E D]

theorem fin_impactFormula (bmin bmax : ℝ) {u : ℝ} (hu : 0 ≤ u) (hu1 : u < 1) :
    impactFormula (fin bmin) (fin bmax) (fin u) = fin (impactFormula bmin bmax u) := by
  unfold impactFormula
  simp only [fin_mul, fin_sub, fin_add]
  rw [fin_sqrt]
  nlinarith [mul_nonneg (mul_self_nonneg bmin) (sub_nonneg.mpr hu1.le), mul_nonneg (mul_self_nonneg bmax) hu]

/-- What `collisionLoop` returns, number type changed. -/
def finColl (r : (ℝ × ℕ × Nucleus ℝ × Nucleus ℝ) × Rand E D) : (XReal × ℕ × Nucleus XReal × Nucleus XReal) × Rand E D :=
  ((fin r.1.1, r.1.2.1, r.1.2.2.1.map fin, r.1.2.2.2.map fin), r.2)

theorem fin_collisionLoop (rfuel : ℕ) {c : Collider ℝ} (hn : c.nc.Regular) (fuel : ℕ) (A B : Nucleus ℝ)
    (hA : NucleusHistory E D A) (hB : NucleusHistory E D B) (dA : A.kind.notDeuteron ∨ NoZero E D)
    (dB : B.kind.notDeuteron ∨ NoZero E D) (n : ℕ) (coll : Bool) (w : Rand E D) :
    collisionLoop rfuel (c.map fin) fuel (A.map fin) (B.map fin) n coll w = (collisionLoop rfuel c fuel A B n coll w).map finColl ∧
    ∀ r, collisionLoop rfuel c fuel A B n coll w = .ok r → (∀ a ∈ r.1.2.2.1.nucleons, Weighted a) ∧ ∀ b ∈ r.1.2.2.2.nucleons, Weighted b := by
  induction fuel generalizing A B n coll w with
  | zero => exact ⟨rfl, fun r h => by cases h⟩
  | succ fuel ih =>
    rw [collisionLoop, collisionLoop]
    obtain ⟨hu0, hu1⟩ := canonical_mem w
    have ec : canonical (F := XReal) w = (fin (canonical (F := ℝ) w).1, (canonical (F := ℝ) w).2) := rfl
    simp only [ec]
    have eb : impactFormula (c.map fin).bmin (c.map fin).bmax (fin (canonical (F := ℝ) w).1) =
        fin (impactFormula c.bmin c.bmax (canonical (F := ℝ) w).1) := fin_impactFormula _ _ hu0 hu1
    rw [eb]
    generalize impactFormula c.bmin c.bmax (canonical (F := ℝ) w).1 = b
    generalize (canonical (F := ℝ) w).2 = w0
    have eo : (c.map fin).asymmetry * fin b = fin (c.asymmetry * b) := rfl
    have eo2 : ((c.map fin).asymmetry - lit 1) * fin b = fin ((c.asymmetry - lit 1) * b) := rfl
    rw [eo, eo2, fin_sampleNucleons rfuel A (history_regular hA) dA]
    cases hA1 : A.sampleNucleons rfuel (c.asymmetry * b) w0 with
    | error e => exact ⟨rfl, fun r h => by cases h⟩
    | ok r1 =>
      obtain ⟨A1, w1⟩ := r1
      simp only [Except.map]
      rw [fin_sampleNucleons rfuel B (history_regular hB) dB]
      cases hB1 : B.sampleNucleons rfuel ((c.asymmetry - lit 1) * b) w1 with
      | error e => exact ⟨rfl, fun r h => by cases h⟩
      | ok r2 =>
        obtain ⟨B1, w2⟩ := r2
        simp only [Except.map]
        have fA := sampleNucleons_reset hA.wf hA1
        have fB := sampleNucleons_reset hB.wf hB1
        have hw := pairLoop_weighted c.nc c.calcNcoll A1.nucleons B1.nucleons n coll w2 (fun a ha => fresh_weighted (fA.2.2.2 a ha))
          (fun a ha => fresh_weighted (fB.2.2.2 a ha))
        obtain ⟨M, hM, -, -⟩ := pairLoop_spec (E := E) (D := D) c.nc c.calcNcoll A1.nucleons B1.nucleons n coll w2
        have lA : (pairLoop c.nc c.calcNcoll A1.nucleons B1.nucleons n coll w2).1.1.length = A1.nucleons.length := by
          have := congrArg List.length hM.placeA; simpa using this
        have lB : (pairLoop c.nc c.calcNcoll A1.nucleons B1.nucleons n coll w2).1.2.1.length = B1.nucleons.length := by
          have := congrArg List.length hM.placeB; simpa using this
        have ep : pairLoop (c.map fin).nc (c.map fin).calcNcoll (A1.map fin).nucleons (B1.map fin).nucleons n coll w2 = _ :=
          fin_pairLoop hn c.calcNcoll A1.nucleons B1.nucleons n coll w2
        rw [ep]
        generalize pairLoop c.nc c.calcNcoll A1.nucleons B1.nucleons n coll w2 = res at *
        obtain ⟨⟨As, Bs, nc', coll'⟩, w3⟩ := res
        simp only at *
        have hHA : NucleusHistory E D { A1 with nucleons := As } := .collide _ _ (.sample _ _ _ _ _ _ hA hA1) lA
        have hHB : NucleusHistory E D { B1 with nucleons := Bs } := .collide _ _ (.sample _ _ _ _ _ _ hB hB1) lB
        by_cases hc : coll' = true
        · simp only [hc, if_true]
          refine ⟨rfl, ?_⟩
          intro r hr
          cases hr
          exact hw
        · rw [Bool.not_eq_true] at hc
          subst hc
          simp only [Bool.false_eq_true, if_false]
          have := ih { A1 with nucleons := As } { B1 with nucleons := Bs } hHA hHB
            (by show A1.kind.notDeuteron ∨ _; rw [fA.1]; exact dA) (by show B1.kind.notDeuteron ∨ _; rw [fB.1]; exact dB) nc' false w3
          exact this

/-- Two output records are the same: number, impact parameter, number of collisions and event. -/
structure Spec.SameRecord {n : ℕ} (x : EventRecord XReal n) (r : EventRecord ℝ n) : Prop where
  num : x.num = r.num
  b : x.b = fin r.b
  ncoll : x.ncoll = r.ncoll
  event : SameEvent x.event r.event

theorem fin_runLoop (rfuel fuel : ℕ) {w v : ℝ} {m : ℕ} {σ : ℝ} {ncoll : Bool} {k : ℝ} (hv : 0 < v) (hm : m ≠ 0)
    {c : Collider ℝ} (hc : c.nc = NucleonCommon.make w v m σ ncoll k) {ec : EventCfg ℝ} (hd : 0 < ec.dxy) (debug : Bool)
    {n : ℕ} (hn : ec.nsteps = n) (N num : ℕ) (s : RunState ℝ E D n) (evx : Event XReal n)
    (hA : NucleusHistory E D s.A) (hB : NucleusHistory E D s.B) (dA : s.A.kind.notDeuteron ∨ NoZero E D)
    (dB : s.B.kind.notDeuteron ∨ NoZero E D) :
    SameRes (fun x r => List.Forall₂ SameRecord x.1 r.1)
      (runLoop rfuel fuel (c.map fin) (ec.map fin) debug N num ⟨s.A.map fin, s.B.map fin, evx, s.rand⟩)
      (runLoop rfuel fuel c ec debug N num s) := by
  induction N generalizing num s evx with
  | zero => exact .nil
  | succ N ih =>
    rw [runLoop, runLoop]
    have hr : c.nc.Regular := by rw [hc]; exact make_regular σ ncoll k hv hm
    obtain ⟨e1, e2⟩ := fin_collisionLoop rfuel hr fuel s.A s.B hA hB dA dB 0 false s.rand
    have e1' : (c.map fin).sampleCollision rfuel fuel (s.A.map fin) (s.B.map fin) s.rand = _ := e1
    simp only [e1']
    have e3 : c.sampleCollision rfuel fuel s.A s.B s.rand = collisionLoop rfuel c fuel s.A s.B 0 false s.rand := rfl
    rw [e3]
    cases hcl : collisionLoop rfuel c fuel s.A s.B 0 false s.rand with
    | error e => exact rfl
    | ok r =>
      obtain ⟨⟨b, nco, A, B⟩, w1⟩ := r
      obtain ⟨-, hA', hB', -, -, kA, kB⟩ := collisionLoop_spec rfuel c fuel s.A s.B A B hA hB s.rand w1 b nco hcl
      obtain ⟨wA, wB⟩ := e2 _ hcl
      simp only [Except.map, finColl]
      have hcomp := fin_Event_compute (w := w) (σ := σ) (ncoll := ncoll) (k := k) hv hm hd debug hn
        (fun a ha hp => (wA a ha).weight ((wA a ha).part hp)) (fun a ha hp => (wB a ha).weight ((wB a ha).part hp)) s.event evx
      rw [← hc] at hcomp
      simp only at hcomp
      have en : (c.map fin).nc = c.nc.map fin := rfl
      have ea : (A.map fin).nucleons = finNs A.nucleons := rfl
      have eb : (B.map fin).nucleons = finNs B.nucleons := rfl
      rw [en, ea, eb]
      cases hx : Event.compute (ec.map fin) (c.nc.map fin) debug evx (finNs A.nucleons) (finNs B.nucleons) with
      | error e =>
        cases hy : Event.compute ec c.nc debug s.event A.nucleons B.nucleons with
        | error e' => simp only [hx, hy] at hcomp ⊢; exact hcomp
        | ok ev => simp only [hx, hy] at hcomp; exact hcomp.elim
      | ok ev1 =>
        cases hy : Event.compute ec c.nc debug s.event A.nucleons B.nucleons with
        | error e' => simp only [hx, hy] at hcomp; exact hcomp.elim
        | ok ev =>
          simp only [hx, hy] at hcomp ⊢
          have := ih (num+1) ⟨A, B, ev, w1⟩ ev1 hA' hB' (by show A.kind.notDeuteron ∨ _; rw [kA]; exact dA)
            (by show B.kind.notDeuteron ∨ _; rw [kB]; exact dB)
          cases hlx : runLoop rfuel fuel (c.map fin) (ec.map fin) debug N (num+1) ⟨A.map fin, B.map fin, ev1, w1⟩ with
          | error e =>
            cases hly : runLoop rfuel fuel c ec debug N (num+1) ⟨A, B, ev, w1⟩ with
            | error e' => simp only [hlx, hly] at this ⊢; exact this
            | ok r => simp only [hlx, hly] at this; exact this.elim
          | ok rx =>
            cases hly : runLoop rfuel fuel c ec debug N (num+1) ⟨A, B, ev, w1⟩ with
            | error e' => simp only [hlx, hly] at this; exact this.elim
            | ok r =>
              simp only [hlx, hly] at this ⊢
              exact .cons ⟨rfl, rfl, rfl, hcomp⟩ this

theorem fin_Collider_make {o : Options ℝ} (sigma : ℝ) (hA : o.projectileA.kind.Regular) (hB : o.projectileB.kind.Regular)
    (hv : 0 < o.constitWidth) (hm : o.constitNumber ≠ 0) (hk : o.fluctuation ≠ 0) :
    Collider.make (o.map fin) (fin sigma) = (Collider.make o sigma).map fin := by
  have e1 : NucleonCommon.make (fin o.nucleonWidth) (fin o.constitWidth) o.constitNumber (fin sigma) o.ncoll (fin o.fluctuation) =
      (NucleonCommon.make o.nucleonWidth o.constitWidth o.constitNumber sigma o.ncoll o.fluctuation).map fin :=
    fin_NucleonCommon_make sigma o.ncoll hv hm hk
  have e2 : determineAsym (o.projectileA.map fin) (o.projectileB.map fin) = fin (determineAsym o.projectileA o.projectileB) := by
    unfold determineAsym
    simp only [fin_radius hA, fin_radius hB, fin_add, fin_lit, fin_lt]
    by_cases h : lt (o.projectileA.radius + o.projectileB.radius) (lit 0.1) = true
    · simp only [h, if_true]
    · simp only [h, Bool.false_eq_true, if_false]
      rw [fin_div]
      intro h0
      rw [lt_real, h0] at h
      apply h
      apply decide_eq_true
      simp; norm_num
  have e3 : ∀ nc : NucleonCommon ℝ, 0 ≤ nc.maxImpactSq → determineBmax (fin o.bMax) (o.projectileA.map fin) (o.projectileB.map fin) (nc.map fin) =
      fin (determineBmax o.bMax o.projectileA o.projectileB nc) := by
    intro nc h0
    have h1 : (nc.map fin).maxImpact = fin nc.maxImpact := fin_sqrt h0
    unfold determineBmax
    simp only [fin_radius hA, fin_radius hB, fin_add, fin_lit, fin_lt, h1]
    by_cases h : lt o.bMax (lit 0) = true
    · simp only [h, if_true]
    · simp only [h, Bool.false_eq_true, if_false]
  unfold Collider.make Collider.map
  simp only [Options.map, e1, e2]
  rw [e3 _ (by simp only [NucleonCommon.make, sqr_real]; positivity)]

theorem fin_EventCfg_make (norm : ℝ) {dxy : ℝ} (gm p : ℝ) (hd : dxy ≠ 0) :
    EventCfg.make (fin norm) (fin dxy) (fin gm) (fin p) = (EventCfg.make norm dxy gm p).map (EventCfg.map fin) := by
  unfold EventCfg.make
  simp only [fin_lit, fin_mul, fin_div _ hd, fin_ceil, fin_castInt]
  cases castInt (ceil (lit 2 * gm / dxy)) with
  | error e => rfl
  | ok k =>
    simp only
    by_cases h : k < 0
    · simp only [h, if_true]; rfl
    · simp only [h, if_false]; rfl

/-- Two runs are the same: grid size and records. -/
def Spec.SameRun (x : (n : ℕ) × List (EventRecord XReal n)) (r : (n : ℕ) × List (EventRecord ℝ n)) : Prop :=
  ∃ n xs rs, x = ⟨n, xs⟩ ∧ r = ⟨n, rs⟩ ∧ List.Forall₂ SameRecord xs rs

/-- **C71.** Take any valid set of finite options — projectiles made by `Nucleus::create`, positive constituent width, at least
one constituent, non-zero fluctuation parameter, positive grid step — and compute with the special values of IEEE 754
(division by zero gives ±∞ or NaN, square roots and logarithms of negative numbers give NaN, and NaN spreads).  The run does
exactly what it does in exact real arithmetic, draw by draw: same errors, same number of records, and every impact
parameter, grid cell, multiplicity and eccentricity is the (finite) real value.  Deuterons need that the generator never
returns exactly 0. -/
theorem C71_no_special_values (rfuel fuel : ℕ) (o : Options ℝ) (sigma : ℝ) (debug : Bool)
    (hA : NucleusHistory E D o.projectileA) (hB : NucleusHistory E D o.projectileB)
    (dA : o.projectileA.kind.notDeuteron ∨ NoZero E D) (dB : o.projectileB.kind.notDeuteron ∨ NoZero E D)
    (hv : 0 < o.constitWidth) (hm : 1 ≤ o.constitNumber) (hk : o.fluctuation ≠ 0) (hstep : 0 < o.gridStep)
    (ev0 : (n : ℕ) → Event ℝ n) (evx : (n : ℕ) → Event XReal n) (w : Rand E D) :
    SameRes SameRun (runAll rfuel fuel (o.map fin) (fin sigma) debug evx w) (runAll rfuel fuel o sigma debug ev0 w) := by
  unfold runAll
  have e1 : EventCfg.make (o.map fin).normalization (o.map fin).gridStep (o.map fin).gridMax (o.map fin).reducedThickness = _ :=
    fin_EventCfg_make o.normalization o.gridMax o.reducedThickness hstep.ne'
  rw [e1, fin_Collider_make sigma (history_regular hA) (history_regular hB) hv (by omega) hk]
  cases hec : EventCfg.make o.normalization o.gridStep o.gridMax o.reducedThickness with
  | error e => exact rfl
  | ok ec =>
    simp only [Except.map]
    have hn0 : ec.dxy = o.gridStep ∧ 0 ≤ ec.nsteps := by
      unfold EventCfg.make at hec
      split at hec
      · cases hec
      · split at hec
        · cases hec
        · rename_i hneg
          cases hec
          exact ⟨rfl, not_lt.mp hneg⟩
    have hrun := fin_runLoop rfuel fuel (w := o.nucleonWidth) (σ := sigma) (ncoll := o.ncoll) (k := o.fluctuation) hv
      (show o.constitNumber ≠ 0 by omega) (c := Collider.make o sigma) rfl (ec := ec) (by rw [hn0.1]; exact hstep) debug
      (n := ec.nsteps.toNat) (by omega) (Collider.make o sigma).nevents.toNat 0
      ⟨(Collider.make o sigma).nucleusA, (Collider.make o sigma).nucleusB, ev0 _, seedRand ℝ o.randomSeed w⟩ (evx _)
      hA hB dA dB
    unfold Collider.runEvents
    have es : seedRand XReal (o.map fin).randomSeed w = seedRand ℝ o.randomSeed w := rfl
    have en : (EventCfg.map fin ec).nsteps.toNat = ec.nsteps.toNat := rfl
    rw [es]
    cases hX : runLoop rfuel fuel ((Collider.make o sigma).map fin) (ec.map fin) debug (Collider.make o sigma).nevents.toNat 0
          ⟨(Collider.make o sigma).nucleusA.map fin, (Collider.make o sigma).nucleusB.map fin, evx ec.nsteps.toNat,
            seedRand ℝ o.randomSeed w⟩ with
    | error e =>
      cases hY : runLoop rfuel fuel (Collider.make o sigma) ec debug (Collider.make o sigma).nevents.toNat 0
          ⟨(Collider.make o sigma).nucleusA, (Collider.make o sigma).nucleusB, ev0 ec.nsteps.toNat,
            seedRand ℝ o.randomSeed w⟩ with
      | error e' =>
        rw [hX, hY] at hrun
        rw [show runLoop rfuel fuel ((Collider.make o sigma).map fin) (ec.map fin) debug ((Collider.make o sigma).map fin).nevents.toNat 0
          ⟨((Collider.make o sigma).map fin).nucleusA, ((Collider.make o sigma).map fin).nucleusB, evx (ec.map fin).nsteps.toNat,
            seedRand ℝ o.randomSeed w⟩ = _ from hX]
        exact hrun
      | ok r => rw [hX, hY] at hrun; exact hrun.elim
    | ok x =>
      cases hY : runLoop rfuel fuel (Collider.make o sigma) ec debug (Collider.make o sigma).nevents.toNat 0
          ⟨(Collider.make o sigma).nucleusA, (Collider.make o sigma).nucleusB, ev0 ec.nsteps.toNat,
            seedRand ℝ o.randomSeed w⟩ with
      | error e' => rw [hX, hY] at hrun; exact hrun.elim
      | ok r =>
        rw [hX, hY] at hrun
        rw [show runLoop rfuel fuel ((Collider.make o sigma).map fin) (ec.map fin) debug ((Collider.make o sigma).map fin).nevents.toNat 0
          ⟨((Collider.make o sigma).map fin).nucleusA, ((Collider.make o sigma).map fin).nucleusB, evx (ec.map fin).nsteps.toNat,
            seedRand ℝ o.randomSeed w⟩ = _ from hX]
        exact ⟨_, x.1, r.1, rfl, rfl, hrun⟩

end runs

end Trento
