import Verif.Lemmas.GaussTurn
import Verif.Props.BinaryCollisions
import Verif.Props.Substructure
import Verif.Props.ExampleRun
import Verif.Lemmas.FreshTape

/-!
# C102 for the distributions of libstdc++: any substructure

The constituents of a nucleon are spread with two independent normal numbers, which have no preferred direction.  So the probability that a pair of nucleons collides depends on
their distance only, whatever the number, width and weights of the constituents.
-/

namespace Trento
open MeasureTheory Set ProbabilityTheory Spec
open scoped ENNReal NNReal

/-- the constituents of a nucleon at `(x, y)` -/
noncomputable def consList {m : ℕ} (x y : ℝ) (v : Fin m → ℝ × ℝ × ℝ) : List (Constituent ℝ) :=
  List.ofFn fun i => (⟨x + (relative v i).1, y + (relative v i).2.1, (relative v i).2.2⟩ : Constituent ℝ)

theorem consList_meas {m : ℕ} (x y : ℝ) : Measurable fun v : Fin m → ℝ × ℝ × ℝ => consList x y v := by
  unfold consList
  have : ∀ (n : ℕ) (f : Fin n → (Fin m → ℝ × ℝ × ℝ) → Constituent ℝ), (∀ i, Measurable (f i)) → Measurable fun v => List.ofFn fun i => f i v := by
    intro n
    induction n with
    | zero => intro f _; simp only [List.ofFn_zero]; exact measurable_const
    | succ n ih =>
      intro f hf
      simp only [List.ofFn_succ]
      exact (hf 0).cons (ih (fun i => f i.succ) fun i => hf i.succ)
  refine this m (fun i v => ⟨x + (relative v i).1, y + (relative v i).2.1, (relative v i).2.2⟩) fun i => ?_
  have hr := relative_meas (m := m) i
  exact constituent_mk ((measurable_fst.comp hr).const_add x) ((measurable_fst.comp (measurable_snd.comp hr)).const_add y) (measurable_snd.comp (measurable_snd.comp hr))

theorem relative_turn {m : ℕ} (c s : ℝ) (v : Fin m → ℝ × ℝ × ℝ) (i : Fin m) : relative (fun j => turnC3 c s (v j)) i = turnC3 c s (relative v i) := by
  simp only [relative, turnC3, Finset.sum_sub_distrib, Finset.sum_add_distrib, ← Finset.mul_sum]
  refine Prod.ext ?_ (Prod.ext ?_ rfl)
  · ring
  · ring

theorem overlapSum_consList (v2 : ℝ) {m : ℕ} {c s : ℝ} (hcs : c^2 + s^2 = 1) (x y x' y' : ℝ) (v v' : Fin m → ℝ × ℝ × ℝ) :
    overlapSum v2 (consList (c * x - s * y) (s * x + c * y) fun j => turnC3 c s (v j)) (consList (c * x' - s * y') (s * x' + c * y') fun j => turnC3 c s (v' j)) =
      overlapSum v2 (consList x y v) (consList x' y' v') := by
  simp only [overlapSum_eq, consList, List.map_ofFn, Function.comp_def, relative_turn]
  simp only [turnC3]
  congr 2
  funext i
  congr 2
  funext j
  congr 3
  linear_combination ((x + (relative v i).1 - (x' + (relative v' j).1))^2 + (y + (relative v i).2.1 - (y' + (relative v' j).2.1))^2) * hcs

variable {w v : ℝ} {m : ℕ} {σ : ℝ} {k : ℝ}

theorem lib_constituents (hk : 0 < k) (x y : ℝ) (i : LibMix) {G : List (Constituent ℝ) → ℝ≥0∞} (hG : Measurable G) :
    ∫⁻ r, G ((NucleonCommon.make w v m σ true k).sampleConstituents (newNucleon x y) r).1.constituents ∂libMix i =
      ∫⁻ u, G (consList x y u) ∂(Measure.pi fun _ : Fin m => constituentLaw (calcSamplingWidth w v m) k) := by
  obtain ⟨l, hl⟩ := (make_vec w v m σ true hk).law i
  have hm := (make_vec w v m σ true hk).meas
  have hc := constituentLaw_prob (calcSamplingWidth w v m) hk
  have hGm : Measurable fun p : (Fin m → ℝ × ℝ × ℝ) × LibState => G (consList x y p.1) := hG.comp ((consList_meas x y).comp measurable_fst)
  have h1 := congrArg (fun μ => ∫⁻ p, G (consList x y p.1) ∂μ) hl
  rw [lintegral_map hGm hm, lintegral_prod _ hGm.aemeasurable] at h1
  simp only [lintegral_const, measure_univ, mul_one] at h1
  rw [← h1]
  refine lintegral_congr fun r => ?_
  rw [sampleConstituents_vec _ _ rfl r]
  rfl

/-- **C102, isotropy.** With the distributions of libstdc++ and any substructure, the probability that two nucleons collide depends on their distance only. -/
theorem C102_isotropic (hk : 0 < k) (i : LibMix) : Isotropic (pairProbability (libMix i) (NucleonCommon.make w v m σ true k)) := by
  intro c s hcs x y
  have h := C97_fresh.1
  set nc := NucleonCommon.make w v m σ true k with hnc
  have hc := constituentLaw_prob (calcSamplingWidth w v m) hk
  set π := Measure.pi fun _ : Fin m => constituentLaw (calcSamplingWidth w v m) k with hπ
  have hD := decideProb_meas h nc i
  have key : ∀ x y, pairProbability (libMix i) nc x y = if lt nc.maxImpactSq (sqr x + sqr y) then 0 else
      ∫⁻ u, (∫⁻ u', decideProb (libMix i) nc (consList x y u) (consList 0 0 u') ∂π) ∂π := by
    intro x y
    have h1 := hitProb_eq h nc rfl (newNucleon x y) (newNucleon 0 0) (newNucleon_fresh _ _) (newNucleon_fresh _ _) i
    simp only [newNucleon, sub_zero] at h1
    rw [← h1]
    unfold hitProb
    simp only [sub_zero]
    congr 1
    have e1 : ∀ as : List (Constituent ℝ), ∫⁻ r, decideProb (libMix i) nc as (nc.sampleConstituents (newNucleon 0 0) r).1.constituents ∂libMix i =
        ∫⁻ u', decideProb (libMix i) nc as (consList 0 0 u') ∂π := fun as => lib_constituents hk 0 0 i (hD.comp (measurable_const.prodMk measurable_id))
    have e2 : Measurable fun as : List (Constituent ℝ) => ∫⁻ u', decideProb (libMix i) nc as (consList 0 0 u') ∂π := by
      have hm : Measurable fun t : List (Constituent ℝ) × (Fin m → ℝ × ℝ × ℝ) => decideProb (libMix i) nc t.1 (consList 0 0 t.2) :=
        hD.comp (measurable_fst.prodMk ((consList_meas 0 0).comp measurable_snd))
      exact hm.lintegral_prod_right'
    refine Eq.trans (lintegral_congr fun r => e1 _) ?_
    exact lib_constituents hk x y i e2
  have hturn : MeasurePreserving (fun (u : Fin m → ℝ × ℝ × ℝ) j => turnC3 c s (u j)) π π :=
    measurePreserving_pi _ _ fun _ => ⟨turnC3_meas c s, constituentLaw_turn _ k hk hcs⟩
  rw [key, key]
  have hd : sqr (c * x - s * y) + sqr (s * x + c * y) = sqr x + sqr y := by
    simp only [sqr_real]
    linear_combination (x^2 + y^2) * hcs
  rw [hd]
  congr 1
  have hm2 : Measurable fun u : Fin m → ℝ × ℝ × ℝ => ∫⁻ u', decideProb (libMix i) nc (consList (c * x - s * y) (s * x + c * y) u) (consList 0 0 u') ∂π := by
    have hm : Measurable fun t : (Fin m → ℝ × ℝ × ℝ) × (Fin m → ℝ × ℝ × ℝ) => decideProb (libMix i) nc (consList (c * x - s * y) (s * x + c * y) t.1) (consList 0 0 t.2) :=
      hD.comp (((consList_meas _ _).comp measurable_fst).prodMk ((consList_meas 0 0).comp measurable_snd))
    exact hm.lintegral_prod_right'
  rw [← hturn.lintegral_comp hm2]
  refine lintegral_congr fun u => ?_
  have hm3 : ∀ as : List (Constituent ℝ), Measurable fun u' : Fin m → ℝ × ℝ × ℝ => decideProb (libMix i) nc as (consList 0 0 u') :=
    fun as => hD.comp (measurable_const.prodMk (consList_meas 0 0))
  rw [← hturn.lintegral_comp (hm3 _)]
  refine lintegral_congr fun u' => ?_
  have := overlapSum_consList nc.constituentWidthSq hcs x y 0 0 u u'
  simp only [mul_zero, sub_zero, add_zero] at this
  unfold decideProb
  rw [this]

/-- **C102, library.** `trento` with the distributions of libstdc++ and an ideal engine, any substructure, `--ncoll`, `--b-min 0` and a `b-max` beyond the reach of the nuclei: the mean number
of binary collisions per attempt times `π bmax²` is `A·B` times the cross section of `trento p p` with the same nucleons. -/
theorem C102_library (o : Options ℝ) (hA : NucleusHistory Tape (LibDist ℝ) o.projectileA) (hB : NucleusHistory Tape (LibDist ℝ) o.projectileB)
    (hn : o.ncoll = true) (hw : 0 < o.nucleonWidth) (hk : 0 < o.fluctuation) (σ : ℝ) (rA rB : ℝ)
    (rchA : Reach Tape (LibDist ℝ) o.projectileA.kind rA) (rchB : Reach Tape (LibDist ℝ) o.projectileB.kind rB)
    (h0 : o.bMin = 0) (hpos : 0 < o.bMax) (hb : rA + rB + 6 * o.nucleonWidth ≤ o.bMax) (bp : ℝ) (hbp : 6 * o.nucleonWidth ≤ bp) (rfuel : ℕ) (j : LibMix) :
    ENNReal.ofReal (Real.pi * o.bMax^2) * collisionMean (libMix j) rfuel (Collider.make o σ) o.projectileA o.projectileB 1 binaryCollisions =
      (o.projectileA.nucleons.length * sampled (libMix j) rfuel o.projectileA) * (o.projectileB.nucleons.length * sampled (libMix j) rfuel o.projectileB) *
        (ENNReal.ofReal (Real.pi * bp^2) *
          collisionMean (libMix j) rfuel (Collider.make { o with projectileA := mkProton, projectileB := mkProton, bMax := bp } σ) mkProton mkProton 1 (fun _ => 1)) := by
  have hp : NucleusHistory Tape (LibDist ℝ) (mkProton : Nucleus ℝ) := .create false (fun _ => .missing) "p" 0 mkProton rfl
  have hmax : ∀ o : Options ℝ, 0 < o.bMax → (Collider.make o σ).bmax = o.bMax := by
    intro o h
    simp only [Collider.make, determineBmax, lt_real, lit_real]
    simp [not_lt.mpr h.le]
  have hbp' : 0 < bp := by linarith
  have hnc : (Collider.make o σ).nc = NucleonCommon.make o.nucleonWidth o.constitWidth o.constitNumber σ true o.fluctuation := by simp only [Collider.make, hn]
  have key := C102_scaling C97_fresh.1 C97_ideal freshMix (Rng.freshDist ℝ Tape) C97_fresh.2 (Collider.make o σ)
    (Collider.make { o with projectileA := mkProton, projectileB := mkProton, bMax := bp } σ) hn hn o.nucleonWidth o.constitWidth hw o.constitNumber σ o.fluctuation hnc rfl
    o.projectileA o.projectileB mkProton mkProton hA hB hp hp rfl rfl (by rw [hnc]; exact C102_isotropic hk freshMix) rA rB rchA rchB h0
    (by rw [hmax o hpos]; exact hpos) (by rw [hmax o hpos]; exact hb) h0 (by rw [hmax _ hbp']; exact hbp) rfuel j
  rw [hmax o hpos, hmax _ hbp'] at key
  exact key

/-! ### The hypotheses can be met -/

/-- Copper on lead (spherical nuclei with 63 and 208 nucleons), nucleons of width 1/2 with three constituents of width 1/5, impact parameters up to 40: the mean number of binary
collisions per attempt times `π 40²` is `63·208` times the proton-proton cross section. -/
example (nCu nPb : Nucleus ℝ) (hCu : createNucleus false (fun _ => .missing) "Cu" 0 = .ok nCu) (hPb : createNucleus false (fun _ => .missing) "Pb" 0 = .ok nPb)
    (o : Options ℝ) (ho : o = { exampleOptions with projectileA := nCu, projectileB := nPb, bMax := 40, nucleonWidth := 1/2, constitWidth := 1/5, constitNumber := 3 }) :
    ENNReal.ofReal (Real.pi * 40^2) * collisionMean (libMix freshMix) 0 (Collider.make o 2) nCu nPb 1 binaryCollisions =
      63 * 208 * (ENNReal.ofReal (Real.pi * 3^2) *
        collisionMean (libMix freshMix) 0 (Collider.make { o with projectileA := mkProton, projectileB := mkProton, bMax := 3 } 2) mkProton mkProton 1 (fun _ => 1)) := by
  have hA : NucleusHistory Tape (LibDist ℝ) nCu := .create _ _ _ _ _ hCu
  have hB : NucleusHistory Tape (LibDist ℝ) nPb := .create _ _ _ _ _ hPb
  have eCu : nCu = mkWoodsSaxon 63 (lit 4.20) (lit 0.596) 0 := by injection hCu with h; exact h.symm
  have ePb : nPb = mkWoodsSaxon 208 (lit 6.62) (lit 0.546) 0 := by injection hPb with h; exact h.symm
  have kCu : nCu.kind = .woodsSaxon (lit 4.20) (lit 0.596) (0 * 0) := by rw [eCu]; rfl
  have kPb : nPb.kind = .woodsSaxon (lit 6.62) (lit 0.546) (0 * 0) := by rw [ePb]; rfl
  have lCu : nCu.nucleons.length = 63 := by rw [eCu]; exact List.length_replicate
  have lPb : nPb.nucleons.length = 208 := by rw [ePb]; exact List.length_replicate
  have sCu : sampled (libMix freshMix) 0 nCu = 1 :=
    (C102_sampled C97_fresh.1 nCu hA (by rw [kCu]; trivial) freshMix).2 (by rw [kCu]; simp) (by rw [kCu]; simp) 0
  have sPb : sampled (libMix freshMix) 0 nPb = 1 :=
    (C102_sampled C97_fresh.1 nPb hB (by rw [kPb]; trivial) freshMix).2 (by rw [kPb]; simp) (by rw [kPb]; simp) 0
  have rCu : Reach Tape (LibDist ℝ) nCu.kind (4.20 + 10 * 0.596) := by
    rw [kCu]; simp only [lit_real]; convert reach_woodsSaxon (E := Tape) (D := LibDist ℝ) 4.20 0.596 (0 * 0) (by norm_num) using 2 <;> norm_num
  have rPb : Reach Tape (LibDist ℝ) nPb.kind (6.62 + 10 * 0.546) := by
    rw [kPb]; simp only [lit_real]; convert reach_woodsSaxon (E := Tape) (D := LibDist ℝ) 6.62 0.546 (0 * 0) (by norm_num) using 2 <;> norm_num
  subst ho
  have key := C102_library { exampleOptions with projectileA := nCu, projectileB := nPb, bMax := 40, nucleonWidth := 1/2, constitWidth := 1/5, constitNumber := 3 } hA hB rfl
    (by norm_num) (by norm_num [exampleOptions]) 2 _ _ rCu rPb rfl (by norm_num) (by norm_num) 3 (by norm_num) 0 freshMix
  dsimp only at key
  rw [sCu, sPb, lCu, lPb] at key
  simpa using key

/-- Proton on copper, nucleons of width 1/2 without substructure: the mean number of binary collisions per attempt times `π 20²` is 63 times the fitted cross section. -/
example (nCu : Nucleus ℝ) (hCu : createNucleus false (fun _ => .missing) "Cu" 0 = .ok nCu)
    (o : Options ℝ) (ho : o = { exampleOptions with projectileA := mkProton, projectileB := nCu, bMax := 20, nucleonWidth := 1/2, constitWidth := 1/2, constitNumber := 1 }) :
    ENNReal.ofReal (Real.pi * 20^2) * collisionMean (freshTape ()) 0 (Collider.make o 2) mkProton nCu 1 binaryCollisions =
      63 * ENNReal.ofReal (inelasticCrossSection (1/2) 2) := by
  have hp : NucleusHistory Tape Unit (mkProton : Nucleus ℝ) := .create false (fun _ => .missing) "p" 0 mkProton rfl
  have hB : NucleusHistory Tape Unit nCu := .create _ _ _ _ _ hCu
  have eCu : nCu = mkWoodsSaxon 63 (lit 4.20) (lit 0.596) 0 := by injection hCu with h; exact h.symm
  have kCu : nCu.kind = .woodsSaxon (lit 4.20) (lit 0.596) (0 * 0) := by rw [eCu]; rfl
  have lCu : nCu.nucleons.length = 63 := by rw [eCu]; exact List.length_replicate
  have sCu : sampled (freshTape ()) 0 nCu = 1 :=
    (C102_sampled freshTape_fresh nCu hB (by rw [kCu]; trivial) ()).2 (by rw [kCu]; simp) (by rw [kCu]; simp) 0
  have sp : sampled (freshTape ()) 0 (mkProton : Nucleus ℝ) = 1 :=
    (C102_sampled freshTape_fresh mkProton hp trivial ()).2 (fun _ _ h => by cases h) (fun _ _ _ _ _ _ h => by cases h) 0
  have lp : (mkProton : Nucleus ℝ).nucleons.length = 1 := rfl
  have rCu : Reach Tape Unit nCu.kind (4.20 + 10 * 0.596) := by
    rw [kCu]; simp only [lit_real]; convert reach_woodsSaxon (E := Tape) (D := Unit) 4.20 0.596 (0 * 0) (by norm_num) using 2 <;> norm_num
  subst ho
  have key := C102_options freshTape_fresh idealTape_ideal () () rfl
    { exampleOptions with projectileA := mkProton, projectileB := nCu, bMax := 20, nucleonWidth := 1/2, constitWidth := 1/2, constitNumber := 1 } hp hB rfl
    (by norm_num) rfl rfl 2 (by norm_num) _ rfl 0 _ reach_proton rCu rfl (by norm_num) (by norm_num) 0 ()
  dsimp only at key
  rw [sCu, sp, lCu, lp] at key
  simpa using key

end Trento
