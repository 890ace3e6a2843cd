import Verif.Props.NoUB
import Verif.Props.SamplingWidth

/-!
# A concrete run

Proton–proton events on a tape of uniform numbers 1/2: the hypotheses of C33–C40 and C61 are met by a run that delivers records.
-/

namespace Trento
open Spec

/-- the tape of halves -/
noncomputable def halfTape : Rand Tape Unit := ⟨Tape.const (1/2) (by norm_num), ()⟩

/-- proton–proton, impact parameters in [0, 1], two events, binary collisions counted -/
noncomputable def exampleOptions : Options ℝ :=
  { projectileA := mkProton, projectileB := mkProton, numberEvents := 2, ncoll := true, reducedThickness := 0, fluctuation := 1,
    nucleonWidth := 1, constitWidth := 1, constitNumber := 1, crossSection := 6.4, normalization := 1, bMin := 0, bMax := 1,
    randomSeed := 0, gridMax := 10, gridStep := 0.2 }

theorem canonical_half : canonical (F := ℝ) halfTape = (1/2, halfTape) := rfl

theorem example_overlap : Real.exp (-(100:ℝ) * (1/(2*Real.pi)) / 2 * Real.exp (-(1/4)*(1/2))) < 1/2 := by
  have h1 : (7:ℝ)/8 ≤ Real.exp (-(1/4)*(1/2)) := by
    have := Real.add_one_le_exp (-(1/4)*(1/2) : ℝ); linarith
  have hpi := Real.pi_le_four
  have hpos := Real.pi_pos
  have h2 : (1:ℝ)/8 ≤ 1/(2*Real.pi) := by
    rw [div_le_div_iff₀ (by norm_num) (by positivity)]; linarith
  have h3 : (100:ℝ) * (1/(2*Real.pi)) / 2 * Real.exp (-(1/4)*(1/2)) ≥ 4 := by nlinarith
  have h4 : Real.exp (-(100:ℝ) * (1/(2*Real.pi)) / 2 * Real.exp (-(1/4)*(1/2))) ≤ Real.exp (-1) := by
    apply Real.exp_le_exp.mpr; nlinarith
  have h5 : Real.exp (-1) < 1/2 := by
    have : (2:ℝ) < Real.exp 1 := by
      have := Real.add_one_lt_exp (x := 1) (by norm_num); linarith
    rw [Real.exp_neg, inv_lt_comm₀ (Real.exp_pos _) (by norm_num)]; linarith
  linarith

theorem example_pair (a b : NucleonData ℝ) (ha : Fresh a) (hb : Fresh b) (hx : a.x - b.x = Real.sqrt (1/2)) (hy : a.y = b.y) :
    let nc := (Collider.make exampleOptions 100).nc
    (nc.participate a b halfTape).1.1 = true ∧ (nc.participate a b halfTape).2 = halfTape := by
  intro nc
  have hs : ∀ (n : NucleonData ℝ), Fresh n → ∃ c : Constituent ℝ, nc.sampleConstituents n halfTape =
      ({ n with constituents := [c], constituentsExist := true }, halfTape) ∧ c.x = n.x ∧ c.y = n.y := by
    intro n hn
    unfold NucleonCommon.sampleConstituents
    rw [hn.2]
    refine ⟨_, rfl, ?_, ?_⟩
    · show _ + (n.x - (lit 0 + _) / ((1:ℤ):ℝ)) = n.x
      simp
    · show _ + (n.y - (lit 0 + _) / ((1:ℤ):ℝ)) = n.y
      simp
  obtain ⟨ca, h1, h2, h3⟩ := hs a ha
  obtain ⟨cb, h4, h5, h6⟩ := hs b hb
  have hsq : Real.sqrt (1/2) ^ 2 = 1/2 := Real.sq_sqrt (by norm_num)
  have hfar : lt nc.maxImpactSq (sqr (a.x - b.x) + sqr (a.y - b.y)) = false := by
    show lt (NucleonCommon.make _ _ _ _ _ _).maxImpactSq _ = false
    rw [make_maxImpactSq, hx, hy]
    simp only [lt_real, sqr_real, hsq, decide_eq_false_iff_not]
    norm_num [exampleOptions]
  have hlt : lt (nc.oneMinusProb (overlapSum nc.constituentWidthSq [ca] [cb])) (1/2 : ℝ) = true := by
    have e1 : overlapSum nc.constituentWidthSq [ca] [cb] = Real.exp (-(1/4)*(1/2)) := by
      have e0 : nc.constituentWidthSq = 1 := by
        show (NucleonCommon.make _ _ _ _ _ _).constituentWidthSq = 1
        rw [make_widthSq]; norm_num [exampleOptions]
      unfold overlapSum
      simp only [List.foldl, sqr_real, lit_real, exp_real, h2, h3, h5, h6, hx, hy, e0, hsq]
      norm_num
    rw [e1]
    simp only [lt_real, decide_eq_true_eq]
    refine lt_of_eq_of_lt ?_ example_overlap
    unfold NucleonCommon.oneMinusProb
    have e2 : nc.prefactor = 1/(2*Real.pi) := by
      show (NucleonCommon.make _ _ _ _ _ _).prefactor = _
      rw [make_prefactor]; norm_num [exampleOptions]
    have e3 : nc.sigmaPartonic = 100 := rfl
    have e4 : nc.constituentNumber = 1 := rfl
    rw [e2, e3, e4]
    simp only [exp_real, lit_real, ofInt_real]
    norm_num
  unfold NucleonCommon.participate
  rw [ha.1]
  simp only [Bool.false_and, Bool.false_eq_true, if_false, hfar, h1, h4, canonical_half, hlt, if_true]
  exact ⟨trivial, trivial⟩

section
variable {F : Type} [Arith F]

theorem forRes_not_fuel {ι S : Type} (f : ι → S → Res S) (hf : ∀ i s, f i s ≠ .error .fuel) (l : List ι) (s : S) :
    forRes f l s ≠ .error .fuel := by
  induction l generalizing s with
  | nil => intro h; cases h
  | cons i l ih =>
    intro h
    rw [forRes] at h
    cases hi : f i s with
    | error e => simp only [hi] at h; exact hf i s (hi.trans h)
    | ok s' => simp only [hi] at h; exact ih s' h

theorem castInt_not_fuel (x : F) : castInt x ≠ .error .fuel := by
  intro h
  unfold castInt at h
  repeat' split at h
  all_goals cases h

theorem eval_not_fuel (fe : FastExp F) (debug : Bool) (x : F) : fe.eval debug x ≠ .error .fuel := by
  intro h
  unfold FastExp.eval at h
  split at h
  · cases h
  · split at h
    · rename_i e he
      injection h with h; subst h
      unfold castSize at he
      repeat' split at he
      all_goals cases he
    · split at h <;> cases h

theorem thickness_not_fuel (nc : NucleonCommon F) (debug : Bool) (n : NucleonData F) (x y : F) :
    nc.thickness debug n x y ≠ .error .fuel := by
  have hl : ∀ (cs : List (Constituent F)) (t : F), nc.thicknessLoop debug x y cs t ≠ .error .fuel := by
    intro cs
    induction cs with
    | nil => intro t h; cases h
    | cons c cs ih =>
      intro t h
      rw [NucleonCommon.thicknessLoop] at h
      split at h
      · split at h
        · rename_i e he; exact eval_not_fuel _ _ _ (he.trans h)
        · exact ih _ h
      · exact ih _ h
  intro h
  unfold NucleonCommon.thickness at h
  split at h
  · rename_i e he; exact hl _ _ (he.trans h)
  · cases h

theorem deposit_not_fuel (c : EventCfg F) (nc : NucleonCommon F) (debug : Bool) {n : Nat} (nucl : NucleonData F) (g : Grid F n) :
    depositNucleon c nc debug nucl g ≠ .error .fuel := by
  intro h
  unfold depositNucleon at h
  simp only [bind, Except.bind] at h
  split at h
  · rename_i e he
    injection h with h; subst h
    unfold NucleonCommon.boundary at he
    split at he <;> cases he
  · split at h
    · rename_i e he; injection h with h; subst h; exact castInt_not_fuel _ he
    · split at h
      · rename_i e he; injection h with h; subst h; exact castInt_not_fuel _ he
      · split at h
        · rename_i e he; injection h with h; subst h; exact castInt_not_fuel _ he
        · split at h
          · rename_i e he; injection h with h; subst h; exact castInt_not_fuel _ he
          · refine forRes_not_fuel _ ?_ _ _ h
            intro iy g
            refine forRes_not_fuel _ ?_ _ _
            intro ix g h
            unfold depositCell at h
            split at h
            · rename_i e he; injection h with h; subst h; exact thickness_not_fuel _ _ _ _ _ he
            · unfold Grid.addAt at h
              split at h <;> cases h

/-- Computing an event involves no unbounded loop. -/
theorem compute_not_fuel (c : EventCfg F) (nc : NucleonCommon F) (debug : Bool) {n : Nat} (ev : Event F n)
    (A B : List (NucleonData F)) : ev.compute c nc debug A B ≠ .error .fuel := by
  have hall : ∀ (l : List (NucleonData F)) (s : Grid F n × Nat), depositAll c nc debug l s ≠ .error .fuel := by
    intro l
    induction l with
    | nil => intro s h; cases h
    | cons a l ih =>
      rintro ⟨g, k⟩ h
      rw [depositAll] at h
      split at h
      · split at h
        · rename_i e he; injection h with h; subst h; exact deposit_not_fuel _ _ _ _ _ he
        · exact ih _ h
      · exact ih _ h
  intro h
  unfold Event.compute at h
  split at h
  · rename_i e he; injection h with h; subst h; exact hall _ _ he
  · split at h
    · rename_i e he; injection h with h; subst h; exact hall _ _ he
    · cases h

end

theorem example_collision (A B : Nucleus ℝ) (hA : NucleusHistory Tape Unit A) (hB : NucleusHistory Tape Unit B)
    (kA : A.kind = .proton) (kB : B.kind = .proton) :
    ∃ r, (Collider.make exampleOptions 100).sampleCollision 0 1 A B halfTape = .ok (r, halfTape) := by
  unfold Collider.sampleCollision
  rw [collisionLoop]
  dsimp only
  rw [canonical_half]
  dsimp only
  rw [sampleProton_ok A kA]
  dsimp only
  rw [sampleProton_ok B kB]
  dsimp only
  have wA := hA.wf
  have wB := hB.wf
  unfold Nucleus.WF at wA wB
  rw [kA] at wA
  rw [kB] at wB
  obtain ⟨na, ha⟩ := List.length_eq_one_iff.mp wA
  obtain ⟨nb, hb⟩ := List.length_eq_one_iff.mp wB
  rw [ha, hb]
  simp only [sampleProton, pairLoop, pairRow]
  have hbb : impactFormula (Collider.make exampleOptions 100).bmin (Collider.make exampleOptions 100).bmax (1/2) = Real.sqrt (1/2) := by
    rw [impactFormula_real]
    have e1 : (Collider.make exampleOptions 100).bmin = 0 := rfl
    have e2 : (Collider.make exampleOptions 100).bmax = 1 := by
      rw [(C35_bmax exampleOptions (by norm_num [exampleOptions]) 100).1 (by norm_num [exampleOptions])]; rfl
    rw [e1, e2]; norm_num
  rw [hbb]
  obtain ⟨p1, p2⟩ := example_pair
    (setNucleonPosition ((Collider.make exampleOptions 100).asymmetry * Real.sqrt (1/2)) na (lit 0) (lit 0) (lit 0))
    (setNucleonPosition (((Collider.make exampleOptions 100).asymmetry - lit 1) * Real.sqrt (1/2)) nb (lit 0) (lit 0) (lit 0))
    ⟨rfl, rfl⟩ ⟨rfl, rfl⟩ (by
      unfold setNucleonPosition NucleonData.setPosition
      simp only [lit_real]; push_cast; ring) rfl
  rw [p1, p2]
  simp

/-- The run delivers its two records. -/
theorem example_run : ∃ res, runAll 0 1 exampleOptions 100 true
    (fun n => (⟨fun _ _ => 0, fun _ _ => 0, fun _ _ => 0, 0, 0, 0, 0, ⟨0, 0, 0, 0⟩⟩ : Event ℝ n)) halfTape = .ok res := by
  have hK : NormalBounded Tape Unit 1 := by
    intro s d e hs
    show |0 + s * (2 * e.val 0 - 1)| ≤ 1 * s
    have := e.mem 0
    rw [zero_add, one_mul, abs_mul, abs_of_nonneg hs]
    have : |2 * e.val 0 - 1| ≤ 1 := by rw [abs_le]; constructor <;> linarith
    nlinarith
  have hh : NucleusHistory Tape Unit (mkProton : Nucleus ℝ) := .create false (fun _ => .missing) "p" 0 _ rfl
  have hu : Usable Tape Unit (mkProton : Nucleus ℝ) 0 := ⟨hh, trivial, reach_proton⟩
  have hbm : (Collider.make exampleOptions 100).bmax = 1 := by
    rw [(C35_bmax exampleOptions (by norm_num [exampleOptions]) 100).1 (by norm_num [exampleOptions])]; rfl
  have hsw : calcSamplingWidth exampleOptions.nucleonWidth exampleOptions.constitWidth exampleOptions.constitNumber = 0 :=
    C09_sampling_width_zero _ _ 1 (.inl rfl)
  rcases C61_no_undefined_behaviour hK exampleOptions 100 (rA := 0) (rB := 0) hu hu (by norm_num [exampleOptions])
    (by norm_num [exampleOptions]) (by norm_num [exampleOptions]) (by rw [hbm]; norm_num [exampleOptions])
    (by norm_num [exampleOptions]) (by norm_num [exampleOptions]) (by norm_num [exampleOptions])
    (by rw [hbm, hsw]; norm_num [exampleOptions]) true 0 1
    (fun n => (⟨fun _ _ => 0, fun _ _ => 0, fun _ _ => 0, 0, 0, 0, 0, ⟨0, 0, 0, 0⟩⟩ : Event ℝ n)) halfTape with h | h
  · exact h
  · exfalso
    unfold runAll Collider.runEvents at h
    have hseed : seedRand ℝ exampleOptions.randomSeed halfTape = halfTape := by
      unfold seedRand
      rw [if_neg (by decide)]
    rw [hseed] at h
    have hloop : ∀ (ec : EventCfg ℝ) (n k num : Nat) (s : RunState ℝ Tape Unit n), NucleusHistory Tape Unit s.A →
        NucleusHistory Tape Unit s.B → s.A.kind = .proton → s.B.kind = .proton → s.rand = halfTape →
        runLoop 0 1 (Collider.make exampleOptions 100) ec true k num s ≠ .error .fuel := by
      intro ec n k
      induction k with
      | zero => intro num s _ _ _ _ _ h; cases h
      | succ k ih =>
        intro num s hA hB kA kB hr h
        rw [runLoop, hr] at h
        obtain ⟨⟨b, ncoll, A', B'⟩, hc⟩ := example_collision s.A s.B hA hB kA kB
        simp only [hc] at h
        obtain ⟨-, hA', hB', -, -, kA', kB'⟩ := collisionLoop_spec 0 _ 1 s.A s.B A' B' hA hB halfTape halfTape b ncoll hc
        cases hev : s.event.compute ec (Collider.make exampleOptions 100).nc true A'.nucleons B'.nucleons with
        | error e =>
          simp only [hev] at h
          injection h with h
          subst h
          exact absurd hev (compute_not_fuel _ _ _ _ _ _)
        | ok ev =>
          simp only [hev] at h
          cases hrl : runLoop 0 1 (Collider.make exampleOptions 100) ec true k (num+1) ⟨A', B', ev, halfTape⟩ with
          | error e =>
            simp only [hrl] at h
            injection h with h
            subst h
            exact ih (num+1) ⟨A', B', ev, halfTape⟩ hA' hB' (kA'.trans kA) (kB'.trans kB) rfl hrl
          | ok r => simp only [hrl] at h; cases h
    cases hec : EventCfg.make exampleOptions.normalization exampleOptions.gridStep exampleOptions.gridMax exampleOptions.reducedThickness with
    | error e =>
      obtain ⟨ec, hec'⟩ := C20_grid_exists exampleOptions.normalization exampleOptions.gridStep exampleOptions.gridMax
        exampleOptions.reducedThickness (by norm_num [exampleOptions]) (by norm_num [exampleOptions]) (by norm_num [exampleOptions])
      rw [hec] at hec'; cases hec'
    | ok ec =>
      simp only [hec] at h
      cases hrl : runLoop 0 1 (Collider.make exampleOptions 100) ec true (Collider.make exampleOptions 100).nevents.toNat 0
          ⟨(Collider.make exampleOptions 100).nucleusA, (Collider.make exampleOptions 100).nucleusB,
            (⟨fun _ _ => 0, fun _ _ => 0, fun _ _ => 0, 0, 0, 0, 0, ⟨0, 0, 0, 0⟩⟩ : Event ℝ ec.nsteps.toNat), halfTape⟩ with
      | error e =>
        simp only [hrl] at h
        injection h with h
        subst h
        exact hloop ec _ _ _ _ hh hh rfl rfl rfl hrl
      | ok r => simp only [hrl] at h; cases h

end Trento
