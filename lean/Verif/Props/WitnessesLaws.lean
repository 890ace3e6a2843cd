import Verif.Props.Witnesses
import Verif.Props.Wounded

/-!
# Concrete cases: probability laws

The statements on the law of collisions and events, applied to lead on copper with the library's generators started afresh (`libMix freshMix`, by C97 the law of an ideal
generator with new distribution objects) and to two protons.
-/

namespace Trento
open Spec MeasureTheory ProbabilityTheory Set
open scoped ENNReal

/-- copper and lead as `Nucleus::create` makes them, without a minimum distance -/
noncomputable def exCu : Nucleus ℝ := mkWoodsSaxon 63 (lit 4.20) (lit 0.596) 0
noncomputable def exPb : Nucleus ℝ := mkWoodsSaxon 208 (lit 6.62) (lit 0.546) 0

theorem exCu_history {E D : Type} [Rng ℝ E D] : NucleusHistory E D exCu := .create false (fun _ => .missing) "Cu" 0 exCu rfl
theorem exPb_history {E D : Type} [Rng ℝ E D] : NucleusHistory E D exPb := .create false (fun _ => .missing) "Pb" 0 exPb rfl

/-- copper on lead, impact parameters between 0 and 40, three constituents per nucleon -/
noncomputable def cuPb : Options ℝ :=
  { exampleOptions with projectileA := exCu, projectileB := exPb, bMin := 0, bMax := 40, nucleonWidth := 1/2, constitWidth := 1/5, constitNumber := 3, fluctuation := 2 }

/-- two protons at the default range of impact parameters, nucleons of width 1/2 -/
noncomputable def ppOpts : Options ℝ := { exampleOptions with bMin := 0, bMax := -1, nucleonWidth := 1/2, constitWidth := 1/2 }

theorem cuPb_bmax : (Collider.make cuPb 2).bmax = 40 := by
  rw [(C35_bmax cuPb (by norm_num [cuPb]) 2).1 (by norm_num [cuPb])]; rfl

theorem pp_bmax : (Collider.make ppOpts 2).bmax = 3 := by
  rw [(C35_bmax ppOpts (by norm_num [ppOpts]) 2).2 (by norm_num [ppOpts])]
  have : (mkProton : Nucleus ℝ).kind.radius = 0 := by simp [mkProton, Nucleus.ofKind, Kind.radius]
  norm_num [ppOpts, exampleOptions, Nucleus.radius, this]

/-- C89: the law of the result does not depend on the number of attempts. -/
example (f : Collided → ℝ≥0∞) (hf : Measurable f) :
    collisionMean (libMix freshMix) 10 (Collider.make cuPb 2) exCu exPb 50 f * collisionMean (libMix freshMix) 10 (Collider.make cuPb 2) exCu exPb 1 (fun _ => 1) =
      collisionMean (libMix freshMix) 10 (Collider.make cuPb 2) exCu exPb 50 (fun _ => 1) * collisionMean (libMix freshMix) 10 (Collider.make cuPb 2) exCu exPb 1 f :=
  C89_unbiased C97_fresh.1 _ _ _ exCu_history exPb_history 10 50 f hf freshMix freshMix

example : ∃ q P1 : ℝ≥0∞, q + P1 ≤ 1 ∧ ∀ n, collisionMean (libMix freshMix) 10 (Collider.make cuPb 2) exCu exPb n (fun _ => 1) = (∑ k ∈ Finset.range n, q ^ k) * P1 := by
  obtain ⟨q, P1, h, hh⟩ := C89_attempts C97_fresh.1 (Collider.make cuPb 2) exCu exPb exCu_history exPb_history 10
  exact ⟨q, P1, h, fun n => (hh n freshMix).1⟩

/-- C91, C89: two protons collide with probability one; the cross section is the one of the options. -/
theorem pp_positive : collisionMean (freshTape ()) 0 (Collider.make ppOpts 2) mkProton mkProton 1 (fun _ => 1) ≠ 0 := by
  intro h
  have key := C91_options freshTape_fresh ppOpts proton_history proton_history rfl rfl (by norm_num [ppOpts]) rfl rfl rfl (by norm_num [ppOpts]) 2 (by norm_num) _ rfl 0 ()
  have e : collisionMean (freshTape ()) 0 (Collider.make ppOpts 2) ppOpts.projectileA ppOpts.projectileB 1 (fun _ => 1) = 0 := h
  rw [e, mul_zero] at key
  have : 0 < inelasticCrossSection ppOpts.nucleonWidth 2 := by
    exact inelastic_pos (by norm_num [ppOpts]) (by norm_num)
  exact absurd key.symm (ENNReal.ofReal_pos.mpr this).ne'

example : ∀ᵐ w ∂(freshTape ()), ∃ (rfuel n : ℕ) (t : (ℝ × ℕ × Nucleus ℝ × Nucleus ℝ) × Rand Tape Unit), (Collider.make ppOpts 2).sampleCollision rfuel n mkProton mkProton w = .ok t :=
  C89_terminates freshTape_fresh _ _ _ proton_history proton_history trivial trivial 0 () pp_positive ()

example : ∀ᵐ w ∂(freshTape ()), ∃ (rfuel n : ℕ) (t : (ℝ × ℕ × Nucleus ℝ × Nucleus ℝ) × Rand Tape Unit), (Collider.make ppOpts 2).sampleCollision rfuel n mkProton mkProton w = .ok t :=
  C91_terminates freshTape_fresh _ (1/2) 2 (by norm_num) (by norm_num) _ _ rfl _ _ proton_history proton_history rfl rfl rfl (by rw [pp_bmax]; norm_num) ()

/-- C91: two protons at distance 1 fm, and at 4 fm. -/
example : collisionMean (freshTape ()) 0 { Collider.make ppOpts 2 with bmin := 1, bmax := 1 } mkProton mkProton 1 (fun _ => 1) =
      ENNReal.ofReal (1 - Real.exp (-2 * overlapTAB (1/2) 1 [⟨1, 0, 1⟩] [⟨0, 0, 1⟩])) ∧
    collisionMean (freshTape ()) 0 { Collider.make ppOpts 2 with bmin := 4, bmax := 4 } mkProton mkProton 1 (fun _ => 1) = 0 := by
  have h := fun b hb => C91_at freshTape_fresh (Collider.make ppOpts 2) (1/2) (1/2) 2 (by norm_num) (by norm_num) _ _ rfl mkProton mkProton proton_history proton_history rfl rfl b hb 0 ()
  refine ⟨?_, ?_⟩
  · rw [h 1 (by norm_num), if_pos (by norm_num)]
  · rw [h 4 (by norm_num), if_neg (by norm_num)]

example : ENNReal.ofReal (Real.pi * 3^2) * collisionMean (freshTape ()) 0 (Collider.make ppOpts 2) mkProton mkProton 1 (fun _ => 1) = ENNReal.ofReal (inelasticCrossSection (1/2) 2) := by
  have := C91_cross_section freshTape_fresh (Collider.make ppOpts 2) (1/2) 2 (by norm_num) (by norm_num) _ _ rfl mkProton mkProton proton_history proton_history rfl rfl rfl
    (by rw [pp_bmax]; norm_num) 0 ()
  rwa [pp_bmax] at this

/-- C97: the same with the library's generator. -/
example : ENNReal.ofReal (Real.pi * (6 * (1/2))^2) *
      collisionMean (idealTape.map (fun e => (⟨e, Rng.freshDist ℝ Tape⟩ : Rand Tape (LibDist ℝ)))) 0 (Collider.make ppOpts 2) mkProton mkProton 1 (fun _ => 1) =
    ENNReal.ofReal (inelasticCrossSection (1/2) 2) :=
  C97_proton_proton ppOpts proton_history proton_history rfl rfl (by norm_num [ppOpts]) rfl rfl rfl (by norm_num [ppOpts]) 2 (by norm_num) _ rfl 0

/-- C90: copper on lead at impact parameters between 0 and 40 is the mixture of the fixed impact parameters. -/
example (f : Collided → ℝ≥0∞) (hf : Measurable f) :
    collisionMean (libMix freshMix) 10 (Collider.make cuPb 2) exCu exPb 1 f =
      ∫⁻ b in Ioo (Collider.make cuPb 2).bmin (Collider.make cuPb 2).bmax, ENNReal.ofReal (2 * b / ((Collider.make cuPb 2).bmax^2 - (Collider.make cuPb 2).bmin^2)) *
        collisionMean (libMix freshMix) 10 { Collider.make cuPb 2 with bmin := b, bmax := b } exCu exPb 1 f :=
  C90_impact_mixture C97_fresh.1 _ _ _ exCu_history exPb_history le_rfl (by rw [cuPb_bmax]; show (0:ℝ) < 40; norm_num) 10 f hf freshMix freshMix

example : ENNReal.ofReal (Real.pi * ((Collider.make cuPb 2).bmax^2 - (Collider.make cuPb 2).bmin^2)) * collisionMean (libMix freshMix) 10 (Collider.make cuPb 2) exCu exPb 1 (fun _ => 1) =
      ∫⁻ b in Ioo (Collider.make cuPb 2).bmin (Collider.make cuPb 2).bmax, ENNReal.ofReal (2 * Real.pi * b) *
        collisionMean (libMix freshMix) 10 { Collider.make cuPb 2 with bmin := b, bmax := b } exCu exPb 1 (fun _ => 1) :=
  C90_cross_section C97_fresh.1 _ _ _ exCu_history exPb_history le_rfl (by rw [cuPb_bmax]; show (0:ℝ) < 40; norm_num) 10 freshMix freshMix

/-- events with at least ten participants -/
theorem npart_set_meas {n : ℕ} : MeasurableSet {e : Observed n | 10 ≤ e.2.2.npart} :=
  measurableSet_le measurable_const (event_npart.comp (measurable_snd.comp measurable_snd))

/-- C92: in a run of two events both have at least ten participants with the square of the probability for one event. -/
example (ec : EventCfg ℝ) {n : ℕ} (ev : Event ℝ n) :
    (libMix freshMix) {w | ∃ rs, (Collider.make cuPb 2).runEvents 10 50 ec false ev w = .ok rs ∧ ∀ r ∈ rs, observed r ∈ {e : Observed n | 10 ≤ e.2.2.npart}} =
      (libMix freshMix) (Event1 10 50 (Collider.make cuPb 2) ec false ev {e : Observed n | 10 ≤ e.2.2.npart}) ^ 2 := by
  have := C92_independent C97_fresh.1 10 50 (Collider.make cuPb 2) ec false ev exCu_history exPb_history (fun _ => {e : Observed n | 10 ≤ e.2.2.npart}) (fun _ => npart_set_meas) freshMix freshMix
  rw [this, Finset.prod_const, Finset.card_range]
  rfl

example (ec : EventCfg ℝ) {n : ℕ} (ev : Event ℝ n) :
    (libMix freshMix) {w | ∃ rs, (Collider.make cuPb 2).runEvents 10 50 ec false ev w = .ok rs ∧ ∀ r ∈ rs, r.num = 1 → observed r ∈ {e : Observed n | 10 ≤ e.2.2.npart}} =
      (libMix freshMix) (Event1 10 50 (Collider.make cuPb 2) ec false ev {e : Observed n | 10 ≤ e.2.2.npart}) * (libMix freshMix) (Event1 10 50 (Collider.make cuPb 2) ec false ev univ) ^ 1 :=
  C92_each C97_fresh.1 10 50 (Collider.make cuPb 2) ec false ev exCu_history exPb_history _ npart_set_meas 1 (by show 1 < (2:ℤ).toNat; norm_num) freshMix freshMix

example (ec : EventCfg ℝ) {n : ℕ} (ev : Event ℝ n) :
    (libMix freshMix) (Event1 10 50 (Collider.make cuPb 2) ec false ev {e : Observed n | 10 ≤ e.2.2.npart}) * (libMix freshMix) (Event1 10 1 (Collider.make cuPb 2) ec false ev univ) =
      (libMix freshMix) (Event1 10 50 (Collider.make cuPb 2) ec false ev univ) * (libMix freshMix) (Event1 10 1 (Collider.make cuPb 2) ec false ev {e : Observed n | 10 ≤ e.2.2.npart}) :=
  C92_attempts C97_fresh.1 10 50 (Collider.make cuPb 2) ec false ev exCu_history exPb_history _ npart_set_meas freshMix freshMix

example (ec : EventCfg ℝ) {n : ℕ} (ev : Event ℝ n) (T : Set (List (Observed n))) (hT : MeasurableSet T) :
    (libMix freshMix) {w | ∃ rs, (Collider.make cuPb 2).runEvents 10 50 ec false ev w = .ok rs ∧ rs.map observed ∈ T} =
      Measure.pi (fun _ : Fin 2 => eventLaw (libMix freshMix) 10 50 (Collider.make cuPb 2) ec false ev) {v | List.ofFn v ∈ T} :=
  C92_joint C97_fresh.1 10 50 (Collider.make cuPb 2) ec false ev exCu_history exPb_history T hT freshMix freshMix

/-- C97: the law of a run from an ideal generator; the radii of the nucleons of lead. -/
example (ec : EventCfg ℝ) {n : ℕ} (ev : Event ℝ n) :
    idealTape.map (fun e => (⟨e, Rng.freshDist ℝ Tape⟩ : Rand Tape (LibDist ℝ)))
        {w | ∃ rs, (Collider.make cuPb 2).runEvents 10 50 ec false ev w = .ok rs ∧ ∀ r ∈ rs, observed r ∈ {e : Observed n | 10 ≤ e.2.2.npart}} =
      ∏ _l ∈ Finset.range (Collider.make cuPb 2).nevents.toNat,
        idealTape.map (fun e => (⟨e, Rng.freshDist ℝ Tape⟩ : Rand Tape (LibDist ℝ))) (Event1 10 50 (Collider.make cuPb 2) ec false ev {e : Observed n | 10 ≤ e.2.2.npart}) :=
  C97_events 10 50 (Collider.make cuPb 2) ec false ev exCu_history exPb_history (fun _ => {e : Observed n | 10 ≤ e.2.2.npart}) (fun _ => npart_set_meas)

example (d : LibDist ℝ) (g : ℝ → ℝ≥0∞) (hg : Measurable g) :
    ∫⁻ e, ifOk (exPb.sampleNucleons 10 3 (⟨e, d⟩ : Rand Tape (LibDist ℝ))) (fun r => ((radii 3 r.1.nucleons).map g).prod) ∂idealTape =
      (∫⁻ r, g r ∂interpolatedLaw (profile (lit 6.62) (lit 0.546))) ^ 208 := by
  have := C97_spherical exPb (lit 6.62) (lit 0.546) (0 * 0) (by norm_num [lit_real]) rfl 10 3 d g hg
  rwa [show exPb.nucleons.length = 208 from List.length_replicate] at this

/-- C97: a normal number after a uniform, a gamma and another normal number is below its mean with probability 1/2 of the normal law. -/
example : idealTape {e | (answers ([.gamma 2 1, .normal 0 1] ++ [.normal 3 2]) (⟨e, Rng.freshDist ℝ Tape⟩ : Rand Tape (LibDist ℝ))).getLastD 0 ∈ Iic 3} =
    (Request.normal 3 2).law (Iic 3) :=
  C97_each [.gamma 2 1, .normal 0 1] (.normal 3 2) (by
    intro q hq
    simp only [List.mem_cons, List.not_mem_nil, or_false] at hq
    rcases hq with rfl | rfl <;> simp [Request.Allowed]) (by simp [Request.Allowed]) _ measurableSet_Iic

/-- C98: a nucleon of width 1/2 with three constituents of width 1/5. -/
theorem keeps_example : KeepsWidth (1/2) (1/5) 3 := by
  unfold KeepsWidth
  norm_num

example (S : Set (ℝ × ℝ × ℝ)) (hS : MeasurableSet S) :
    libMix freshMix {r | HasConstituent ((NucleonCommon.make (1/2) (1/5) 3 2 true 2).sampleConstituents (newNucleon 1 0) r).1 2 S} = Spec.constituent (1/2) (1/5) 2 S :=
  C98_constituent keeps_example (by norm_num) _ rfl 2 (by norm_num) freshMix S hS

example : libMix freshMix {r | ∀ j : Fin 3, HasConstituent ((NucleonCommon.make (1/2) (1/5) 3 2 true 2).sampleConstituents (newNucleon 1 0) r).1 j {p | p.2.2 ∈ Iic 1}} =
    gammaMeasure 2 2 (Iic 1) ^ 3 := by
  rw [C98_weights (by norm_num) (newNucleon 1 0) rfl freshMix (fun _ => Iic 1) (fun _ => measurableSet_Iic)]
  simp

/-- C102: two nucleons of one nucleus against one of the other. -/
example (nc : NucleonCommon ℝ) (hn : nc = NucleonCommon.make (1/2) (1/5) 3 2 true 2) :
    ∫⁻ w, ((pairLoop nc true [newNucleon 1 0, newNucleon 0 1] [newNucleon 0 0] 0 false w).1.2.2.1 : ℝ≥0∞) ∂(libMix freshMix) =
      pairProbability (libMix freshMix) nc 1 0 + pairProbability (libMix freshMix) nc 0 1 := by
  rw [C102_pairs C97_fresh.1 nc (by rw [hn]; rfl) _ _ (by simp [Fresh, newNucleon]) (by simp [Fresh, newNucleon]) freshMix]
  simp [newNucleon]

example : collisionMean (libMix freshMix) 10 { Collider.make cuPb 2 with bmin := 5, bmax := 5 } exCu exPb 1 binaryCollisions =
    glauber (nucleonDensity (libMix freshMix) 10 exCu) (nucleonDensity (libMix freshMix) 10 exPb) (pairProbability (libMix freshMix) (Collider.make cuPb 2).nc) 5 0 :=
  C102_glauber C97_fresh.1 (Collider.make cuPb 2) rfl rfl exCu exPb exCu_history exPb_history 5 (by norm_num) 10 freshMix

theorem cu_reach {E D : Type} [Rng ℝ E D] [LawfulRng E D] : Reach E D exCu.kind (4.20 + 10 * 0.596) := by
  show Reach E D (.woodsSaxon (lit 4.20) (lit 0.596) (0 * 0)) _
  simp only [lit_real]; convert reach_woodsSaxon (E := E) (D := D) 4.20 0.596 (0 * 0) (by norm_num) using 2 <;> norm_num

theorem pb_reach {E D : Type} [Rng ℝ E D] [LawfulRng E D] : Reach E D exPb.kind (6.62 + 10 * 0.546) := by
  show Reach E D (.woodsSaxon (lit 6.62) (lit 0.546) (0 * 0)) _
  simp only [lit_real]; convert reach_woodsSaxon (E := E) (D := D) 6.62 0.546 (0 * 0) (by norm_num) using 2 <;> norm_num

theorem cuPb_isotropic : Isotropic (pairProbability (libMix freshMix) (Collider.make cuPb 2).nc) := C102_isotropic (k := 2) (by norm_num) freshMix

example : ENNReal.ofReal (Real.pi * (Collider.make cuPb 2).bmax^2) * collisionMean (libMix freshMix) 10 (Collider.make cuPb 2) exCu exPb 1 binaryCollisions =
      (exCu.nucleons.length * sampled (libMix freshMix) 10 exCu) * (exPb.nucleons.length * sampled (libMix freshMix) 10 exPb) *
        ∫⁻ v : ℝ × ℝ, pairProbability (libMix freshMix) (Collider.make cuPb 2).nc v.1 v.2 :=
  C102_total C97_fresh.1 C97_ideal freshMix _ libMix_fresh _ rfl (1/2) (1/5) (by norm_num) 3 2 2 rfl _ _ exCu_history exPb_history cuPb_isotropic _ _ cu_reach pb_reach rfl
    (by rw [cuPb_bmax]; norm_num) (by rw [cuPb_bmax]; norm_num) 10 freshMix

example (n : ℕ) : collisionMean (libMix freshMix) 10 (Collider.make cuPb 2) exCu exPb n binaryCollisions *
      (ENNReal.ofReal (Real.pi * (Collider.make cuPb 2).bmax^2) * collisionMean (libMix freshMix) 10 (Collider.make cuPb 2) exCu exPb 1 (fun _ => 1)) =
      collisionMean (libMix freshMix) 10 (Collider.make cuPb 2) exCu exPb n (fun _ => 1) *
        ((exCu.nucleons.length * sampled (libMix freshMix) 10 exCu) * (exPb.nucleons.length * sampled (libMix freshMix) 10 exPb) *
          ∫⁻ v : ℝ × ℝ, pairProbability (libMix freshMix) (Collider.make cuPb 2).nc v.1 v.2) :=
  C102_events C97_fresh.1 C97_ideal freshMix _ libMix_fresh _ rfl (1/2) (1/5) (by norm_num) 3 2 2 rfl _ _ exCu_history exPb_history cuPb_isotropic _ _ cu_reach pb_reach rfl
    (by rw [cuPb_bmax]; norm_num) (by rw [cuPb_bmax]; norm_num) 10 n freshMix

/-- C102: at impact parameters between 10 and 40 only an upper bound is left. -/
example : ENNReal.ofReal (Real.pi * (40^2 - 10^2)) * collisionMean (libMix freshMix) 10 { Collider.make cuPb 2 with bmin := 10, bmax := 40 } exCu exPb 1 binaryCollisions ≤
      exCu.nucleons.length * exPb.nucleons.length * ∫⁻ v : ℝ × ℝ, pairProbability (libMix freshMix) (Collider.make cuPb 2).nc v.1 v.2 :=
  C102_bound C97_fresh.1 C97_ideal freshMix _ libMix_fresh { Collider.make cuPb 2 with bmin := 10, bmax := 40 } rfl rfl _ _ exCu_history exPb_history cuPb_isotropic (by norm_num) (by norm_num) 10 freshMix

/-- C102: two protons with substructure; copper on lead compared with them. -/
noncomputable def ppSub : Options ℝ := { cuPb with projectileA := mkProton, projectileB := mkProton }

theorem ppSub_bmax : (Collider.make ppSub 2).bmax = 40 := by
  rw [(C35_bmax ppSub (by norm_num [ppSub, cuPb]) 2).1 (by norm_num [ppSub, cuPb])]; rfl

example : ENNReal.ofReal (Real.pi * (Collider.make ppSub 2).bmax^2) * collisionMean (libMix freshMix) 10 (Collider.make ppSub 2) mkProton mkProton 1 (fun _ => 1) =
    ∫⁻ v : ℝ × ℝ, pairProbability (libMix freshMix) (Collider.make ppSub 2).nc v.1 v.2 :=
  C102_protons C97_fresh.1 C97_ideal freshMix _ libMix_fresh (Collider.make ppSub 2) rfl (1/2) (1/5) (by norm_num) 3 2 2 rfl _ _ proton_history proton_history rfl rfl
    cuPb_isotropic rfl (by rw [ppSub_bmax]; norm_num) 10 freshMix

example : ENNReal.ofReal (Real.pi * (Collider.make cuPb 2).bmax^2) * collisionMean (libMix freshMix) 10 (Collider.make cuPb 2) exCu exPb 1 binaryCollisions =
      (exCu.nucleons.length * sampled (libMix freshMix) 10 exCu) * (exPb.nucleons.length * sampled (libMix freshMix) 10 exPb) *
        (ENNReal.ofReal (Real.pi * (Collider.make ppSub 2).bmax^2) * collisionMean (libMix freshMix) 10 (Collider.make ppSub 2) mkProton mkProton 1 (fun _ => 1)) :=
  C102_scaling C97_fresh.1 C97_ideal freshMix _ libMix_fresh (Collider.make cuPb 2) (Collider.make ppSub 2) rfl rfl (1/2) (1/5) (by norm_num) 3 2 2 rfl rfl _ _ _ _ exCu_history exPb_history proton_history proton_history rfl rfl
    cuPb_isotropic _ _ cu_reach pb_reach rfl (by rw [cuPb_bmax]; norm_num) (by rw [cuPb_bmax]; norm_num) rfl (by rw [ppSub_bmax]; norm_num) 10 freshMix

open scoped Classical in
/-- C104: the probability that the first two nucleons of copper and no given one of lead stay untouched. -/
example : ∫⁻ r, (if Quiet {0} (pairLoop (NucleonCommon.make (1/2) (1/5) 3 2 true 2) true [newNucleon 1 0, newNucleon 0 1] [newNucleon 0 0] 0 false r).1.1 ∧
        Quiet ∅ (pairLoop (NucleonCommon.make (1/2) (1/5) 3 2 true 2) true [newNucleon 1 0, newNucleon 0 1] [newNucleon 0 0] 0 false r).1.2.1 then 1 else 0) ∂(libMix freshMix) =
      spared (libMix freshMix) (NucleonCommon.make (1/2) (1/5) 3 2 true 2) (pass (1/2) (1/5) 3 2) {0} ∅ [newNucleon 1 0, newNucleon 0 1] [newNucleon 0 0] :=
  C104_positions C97_fresh.1 (1/2) (1/5) 3 (by norm_num) true 2 {0} ∅ _ _ (by simp [newNucleon]) (by simp [newNucleon]) freshMix

example : spared (libMix freshMix) (NucleonCommon.make (1/2) (1/2) 1 2 true 2) (pass (1/2) (1/2) 1 2) {0} ∅ [newNucleon 1 0, newNucleon 0 1] [newNucleon 0 0] =
      pairProduct (fun a b => pass (1/2) (1/2) 1 2 (point a) (point b)) {0} ∅ [newNucleon 1 0, newNucleon 0 1] [newNucleon 0 0] :=
  C104_point C97_fresh.1 (1/2) (1/2) 2 true 2 {0} ∅ _ _ (by simp [Fresh, newNucleon]) (by simp [Fresh, newNucleon]) freshMix

example : collisionMean (libMix freshMix) 10 { Collider.make cuPb 2 with bmin := 5, bmax := 5 } exCu exPb 1 (fun _ => 1) =
      positionMean (libMix freshMix) 10 exCu exPb ((Collider.make cuPb 2).asymmetry * 5) (((Collider.make cuPb 2).asymmetry - 1) * 5)
        fun As Bs => 1 - spared (libMix freshMix) (Collider.make cuPb 2).nc (pass (1/2) (1/5) 3 2) univ univ As Bs :=
  C104_collision C97_fresh.1 (Collider.make cuPb 2) (1/2) (1/5) 3 (by norm_num) 2 rfl exCu exPb exCu_history exPb_history (by norm_num) 10 freshMix

example : ENNReal.ofReal (Real.pi * ((Collider.make cuPb 2).bmax^2 - (Collider.make cuPb 2).bmin^2)) * collisionMean (libMix freshMix) 10 (Collider.make cuPb 2) exCu exPb 1 (fun _ => 1) =
      ∫⁻ b in Ioo (Collider.make cuPb 2).bmin (Collider.make cuPb 2).bmax, ENNReal.ofReal (2 * Real.pi * b) *
        positionMean (libMix freshMix) 10 exCu exPb ((Collider.make cuPb 2).asymmetry * b) (((Collider.make cuPb 2).asymmetry - 1) * b)
          fun As Bs => 1 - spared (libMix freshMix) (Collider.make cuPb 2).nc (pass (1/2) (1/5) 3 2) univ univ As Bs :=
  C104_cross_section C97_fresh.1 (Collider.make cuPb 2) (1/2) (1/5) 3 (by norm_num) 2 rfl exCu exPb exCu_history exPb_history le_rfl (by rw [cuPb_bmax]; show (0:ℝ) < 40; norm_num) 10 freshMix

example : collisionMean (libMix freshMix) 10 { Collider.make cuPb 2 with bmin := 5, bmax := 5 } exCu exPb 1 (wounded {0} ∅) ≤
    collisionMean (libMix freshMix) 10 { Collider.make cuPb 3 with bmin := 5, bmax := 5 } exCu exPb 1 (wounded {0} ∅) :=
  C104_monotone C97_fresh.1 (Collider.make cuPb 2) (Collider.make cuPb 3) (1/2) (1/5) 3 (by norm_num) (by norm_num) 2 rfl rfl rfl exCu exPb exCu_history exPb_history {0} ∅ (by norm_num) 10 freshMix

example : collisionMean (libMix freshMix) 10 { Collider.make { cuPb with constitNumber := 1, constitWidth := 1/2 } 2 with bmin := 5, bmax := 5 } exCu exPb 1 (wounded {0} ∅) =
      positionMean (libMix freshMix) 10 exCu exPb ((Collider.make { cuPb with constitNumber := 1, constitWidth := 1/2 } 2).asymmetry * 5)
        (((Collider.make { cuPb with constitNumber := 1, constitWidth := 1/2 } 2).asymmetry - 1) * 5)
        fun As Bs => 1 - pairProduct (fun a b => pass (1/2) (1/2) 1 2 (point a) (point b)) {0} ∅ As Bs :=
  C104_point_nuclei C97_fresh.1 (Collider.make { cuPb with constitNumber := 1, constitWidth := 1/2 } 2) (1/2) (1/2) (by norm_num) 2 rfl exCu exPb exCu_history exPb_history {0} ∅ (by norm_num) 10 freshMix

/-- C105, C106: the fluctuation parameter of copper on lead. -/
example (F : Collided → ℝ≥0∞) (hF : Measurable F) :
    collisionMean (libMix freshMix) 10 (Collider.make { cuPb with fluctuation := 7 } 2) exCu exPb 50 (fun x => F (unitWeights x)) =
      collisionMean (libMix freshMix) 10 (Collider.make cuPb 2) exCu exPb 50 fun x => F (unitWeights x) :=
  C105_positions cuPb 2 (by norm_num [cuPb]) exCu_history exPb_history (by norm_num) 10 50 hF freshMix

example (F : Collided → ℝ≥0∞) (hF : Measurable F) (q : Label) :
    collisionMean (libMix freshMix) 10 (Collider.make cuPb 2) exCu exPb 50 F =
      collisionMean (libMix freshMix) 10 (Collider.make cuPb 2) exCu exPb 50 fun x => ∫⁻ f, F (setWeight q f x) ∂gammaMeasure cuPb.fluctuation cuPb.fluctuation :=
  C105_weight cuPb 2 (by norm_num [cuPb]) exCu_history exPb_history 10 50 hF q freshMix

/-- C105: the weight of one constituent and one of the thicknesses. -/
example : collisionMean (libMix freshMix) 10 (Collider.make { cuPb with fluctuation := 7 } 2) exCu exPb 50 (fun x => ENNReal.ofReal x.1) =
    collisionMean (libMix freshMix) 10 (Collider.make cuPb 2) exCu exPb 50 (fun x => ENNReal.ofReal x.1) :=
  (C105_mean cuPb 2 (by norm_num [cuPb]) exCu_history exPb_history 10 50 (by fun_prop)
    (fun x _ q => ⟨ENNReal.ofReal x.1, 0, fun f _ => by rw [mul_zero, add_zero]; rcases q with ⟨s, j, k⟩; cases s <;> rfl⟩) freshMix).2 7 (by norm_num)

theorem default_grid : ∃ (ec : EventCfg ℝ), EventCfg.make 1 0.2 10 1 = .ok ec ∧ ec.nsteps = (100:ℕ) ∧ 0 < ec.dxy := by
  obtain ⟨ec, hec⟩ := C20_grid_exists 1 0.2 10 1 (by norm_num) (by norm_num) (by norm_num)
  obtain ⟨g1, g2, -⟩ := C20_grid_geometry 1 0.2 10 1 (by norm_num) (by norm_num) ec hec
  refine ⟨ec, hec, ?_, by rw [g2]; norm_num⟩
  rw [g1]
  have : (2 * 10 / 0.2 : ℝ) = ((100:ℤ) : ℝ) := by norm_num
  rw [this, Int.ceil_intCast]
  rfl

example : ∃ ec : EventCfg ℝ, ec.nsteps = (100:ℕ) ∧ ∀ ev : Event ℝ 100,
    (eventLaw (libMix freshMix) 10 50 (Collider.make { cuPb with fluctuation := 7 } 2) ec false ev).map (fun e => (e.1, e.2.1, e.2.2.npart)) =
      (eventLaw (libMix freshMix) 10 50 (Collider.make cuPb 2) ec false ev).map fun e => (e.1, e.2.1, e.2.2.npart) := by
  obtain ⟨ec, -, hn, hd⟩ := default_grid
  exact ⟨ec, hn, fun ev => C105_counts cuPb 2 (by norm_num [cuPb]) (by norm_num [cuPb]) exCu_history exPb_history 10 50 ec hd false hn (by norm_num) ev (by norm_num) freshMix⟩

example : ∃ ec : EventCfg ℝ, ec.nsteps = (100:ℕ) ∧ ∀ ev : Event ℝ 100,
    collisionMean (libMix freshMix) 10 (Collider.make cuPb 2) exCu exPb 50 ((GridsDiffer ec (Collider.make cuPb 2).nc false ev 1).indicator 1) ≤
      ENNReal.ofReal ((100:ℕ)^2 * (fluctuationBound exCu.nucleons.length 3 (1/5) 2 1 + fluctuationBound exPb.nucleons.length 3 (1/5) 2 1)) := by
  obtain ⟨ec, -, hn, hd⟩ := default_grid
  exact ⟨ec, hn, fun ev => C106_events cuPb 2 (by norm_num [cuPb]) (by norm_num [cuPb]) exCu_history exPb_history 10 50 ec hd false hn ev one_pos freshMix⟩

example : collisionMean (libMix freshMix) 10 (Collider.make cuPb 2) exCu exPb 50
      (fun x => ENNReal.ofReal ((directThickness (Collider.make cuPb 2).nc false (nucleonsOf true x) 1 2 - directThickness (Collider.make cuPb 2).nc false (nucleonsOf true (unitWeights x)) 1 2)^2)) =
    ENNReal.ofReal (1 / cuPb.fluctuation) * collisionMean (libMix freshMix) 10 (Collider.make cuPb 2) exCu exPb 50 (fun x => squares (Collider.make cuPb 2).nc false (nucleonsOf true x) 1 2) :=
  (C106_variance cuPb 2 (by norm_num [cuPb]) (by norm_num [cuPb]) exCu_history exPb_history 10 50 false true 1 2 freshMix).1

end Trento
