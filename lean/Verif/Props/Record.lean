import Verif.Lemmas.RunInvariant
import Verif.Props.Observables
import Verif.Props.GenMean
import Verif.Props.Termination
import Verif.Props.WoodsSaxon
import Verif.Props.RunOutput

/-!
# C84: every record of a run is the documented event; C42: its line can be read back

The theorems about single calls (C03, C21, C23, C25, C27, C28, C29) hold for nucleons with non-negative weights; here the hypothesis is
discharged for every event of every run.
-/

namespace Trento
open Spec
set_option linter.unusedSectionVars false

/-- The thickness of a nucleus at a point: the sum over its participants of their Gaussian constituents (width `v`, `m` per nucleon, cut off
at `5v`). -/
noncomputable def Spec.nuclearThickness (v : ℝ) (m : ℕ) (A : List (NucleonData ℝ)) (x y : ℝ) : ℝ :=
  ((A.filter (·.isParticipant)).map fun a => idealThickness v m a.constituents x y).sum

/-- The documented event of two lists of nucleons: cell centres `(i + 1/2 - n/2) step`; thickness grids (to the accuracy of the tabulated
exponential, 2e-5); reduced thickness; multiplicity; eccentricities. -/
structure Spec.DocumentedEvent (norm step p v : ℝ) (m : ℕ) {n : ℕ} (A B : List (NucleonData ℝ)) (ev : Event ℝ n) : Prop where
  npart : ev.npart = (A.filter (·.isParticipant)).length + (B.filter (·.isParticipant)).length
  thicknessA : ∀ iy ix : Fin n, let T := nuclearThickness v m A ((ix + 1/2 - n/2) * step) ((iy + 1/2 - n/2) * step)
    T * (1 - 2e-5) ≤ ev.TA iy ix ∧ ev.TA iy ix ≤ T
  thicknessB : ∀ iy ix : Fin n, let T := nuclearThickness v m B ((ix + 1/2 - n/2) * step) ((iy + 1/2 - n/2) * step)
    T * (1 - 2e-5) ≤ ev.TB iy ix ∧ ev.TB iy ix ≤ T
  nonneg : ∀ iy ix : Fin n, 0 ≤ ev.TA iy ix ∧ 0 ≤ ev.TB iy ix
  reduced : ∀ iy ix : Fin n, ev.TR iy ix = norm * trentoMean p (ev.TA iy ix) (ev.TB iy ix)
  multiplicity : ev.multiplicity = step^2 * gridSum ev.TR
  centre : ev.ixcm = comX ev.TR ∧ ev.iycm = comY ev.TR
  eccentricities : ev.ecc.e2 = eccentricity ev.TR 2 ∧ ev.ecc.e3 = eccentricity ev.TR 3 ∧ ev.ecc.e4 = eccentricity ev.TR 4 ∧
    ev.ecc.e5 = eccentricity ev.TR 5
  range : ∀ e ∈ [ev.ecc.e2, ev.ecc.e3, ev.ecc.e4, ev.ecc.e5], 0 ≤ e ∧ e ≤ 1
  mult_nonneg : 0 ≤ norm → 0 ≤ ev.multiplicity

variable {E D : Type} [Rng ℝ E D]

/-- A participant has constituents; there are `m` of them with non-negative weights. -/
def WeightsReal (m : ℕ) (n : NucleonData ℝ) : Prop :=
  (n.isParticipant = true → n.constituentsExist = true) ∧
  (n.constituentsExist = true → n.constituents.length = m ∧ ∀ q ∈ n.constituents, 0 ≤ q.fluctuation)

theorem drawConstituents_real [LawfulRng E D] (nc : NucleonCommon ℝ) (k : ℕ) (xc yc : ℝ) (w : Rand E D) :
    (drawConstituents nc k xc yc w).1.1.length = k ∧ ∀ q ∈ (drawConstituents nc k xc yc w).1.1, 0 ≤ q.fluctuation := by
  induction k generalizing xc yc w with
  | zero => simp [drawConstituents]
  | succ k ih =>
    unfold drawConstituents
    refine ⟨?_, ?_⟩
    · rw [List.length_cons, (ih _ _ _).1]
    · intro q hq
      simp only [List.mem_cons] at hq
      rcases hq with rfl | hq
      · exact LawfulRng.gamma_nonneg _ _ _ _
      · exact (ih _ _ _).2 q hq

theorem weightsReal_invariant [LawfulRng E D] (nc : NucleonCommon ℝ) : NucleonInvariant E D nc (WeightsReal nc.constituentNumber) where
  sampled n w hn := by
    unfold NucleonCommon.sampleConstituents
    split
    · exact hn
    · refine ⟨fun _ => rfl, fun _ => ?_⟩
      have := drawConstituents_real (E := E) (D := D) nc
      constructor
      · rw [List.length_map]; exact (this _ _ _ _).1
      · intro q hq
        simp only [List.mem_map] at hq
        obtain ⟨c, hc, rfl⟩ := hq
        exact (this _ _ _ _).2 c hc
  participant n he hn := ⟨fun _ => he, hn.2⟩

/-- The direct sum of the computed thicknesses is the ideal one to the accuracy of the table. -/
theorem directThickness_ideal (w v : ℝ) (m : ℕ) (σ : ℝ) (ncoll : Bool) (k : ℝ) (hv : 0 < v) (debug : Bool) (A : List (NucleonData ℝ))
    (hA : ∀ a ∈ A, a.isParticipant = true → ∀ q ∈ a.constituents, 0 ≤ q.fluctuation) (x y : ℝ) :
    nuclearThickness v m A x y * (1 - 2e-5) ≤ directThickness (NucleonCommon.make w v m σ ncoll k) debug A x y ∧
    directThickness (NucleonCommon.make w v m σ ncoll k) debug A x y ≤ nuclearThickness v m A x y := by
  have key : ∀ l : List (NucleonData ℝ), (∀ a ∈ l, ∀ q ∈ a.constituents, 0 ≤ q.fluctuation) →
      (l.map fun a => idealThickness v m a.constituents x y).sum * (1 - 2e-5) ≤
        (l.map fun a => thicknessAt (NucleonCommon.make w v m σ ncoll k) debug a x y).sum ∧
      (l.map fun a => thicknessAt (NucleonCommon.make w v m σ ncoll k) debug a x y).sum ≤
        (l.map fun a => idealThickness v m a.constituents x y).sum := by
    intro l
    induction l with
    | nil => intro _; simp
    | cons a l ih =>
      intro h
      obtain ⟨i1, i2⟩ := ih (fun b hb => h b (by simp [hb]))
      obtain ⟨t, ht, h0, h1, h2, -⟩ := C03_thickness w v m σ ncoll k hv debug a (h a (by simp)) x y
      have he : thicknessAt (NucleonCommon.make w v m σ ncoll k) debug a x y = t := by unfold thicknessAt; rw [ht]
      have hs := C03_error_small
      have hi : 0 ≤ idealThickness v m a.constituents x y := h0.trans h1
      have h3 : idealThickness v m a.constituents x y * (1 - 2e-5) ≤
          idealThickness v m a.constituents x y * (1 - (12.5/999)^2/8 * Real.exp (12.5/999/2)) :=
        mul_le_mul_of_nonneg_left (by linarith) hi
      simp only [List.map_cons, List.sum_cons, he]
      constructor
      · rw [add_mul]; linarith
      · linarith
  exact key _ (fun a ha => hA a (List.mem_filter.1 ha).1 (List.mem_filter.1 ha).2)

/-- The cell centres of a grid made by the constructor. -/
theorem cellCentre_real {norm dxy gmax p : ℝ} (hd : 0 < dxy) (hg : 0 ≤ gmax) {c : EventCfg ℝ} (h : EventCfg.make norm dxy gmax p = .ok c) {n : ℕ}
    (hn : c.nsteps = n) (i : ℕ) : c.center i = (i + 1/2 - n/2) * dxy := by
  obtain ⟨g1, g2, g3, -⟩ := C20_grid_geometry norm dxy gmax p hd hg c h
  rw [hn] at g3
  push_cast at g3
  unfold EventCfg.center
  simp only [ofInt_real, lit_real, g2]
  push_cast
  linarith

theorem eventCfg_params {norm dxy gm p : ℝ} {ec : EventCfg ℝ} (h : EventCfg.make norm dxy gm p = .ok ec) :
    ec.norm = norm ∧ ec.dxy = dxy ∧ ec.p = p := by
  unfold EventCfg.make at h
  split at h
  · cases h
  · split at h
    · cases h
    · cases h; exact ⟨rfl, rfl, rfl⟩

/-- **C84.** In a run with any projectiles, positive constituent width and grid step (exact arithmetic): the grid has `⌈2 max/step⌉` cells per side,
and every record is the documented event of the nucleons of a collision: at least one nucleon of each nucleus participates, every participant has
`m` constituents and a participating partner of the other nucleus within six nucleon widths. -/
theorem C84_every_record [LawfulRng E D] (o : Options ℝ) (sigma : ℝ) (hA : NucleusHistory E D o.projectileA)
    (hB : NucleusHistory E D o.projectileB) (hw : 0 ≤ o.nucleonWidth) (hv : 0 < o.constitWidth) (hstep : 0 < o.gridStep) (hmax : 0 ≤ o.gridMax) (debug : Bool)
    (rfuel fuel : Nat) (ev0 : (n : Nat) → Event ℝ n) (w : Rand E D) (n : ℕ) (rs : List (EventRecord ℝ n))
    (h : runAll rfuel fuel o sigma debug ev0 w = .ok ⟨n, rs⟩) :
    (n : ℤ) = ⌈2 * o.gridMax / o.gridStep⌉ ∧
    ∀ rec ∈ rs, ∃ A B : Nucleus ℝ, CollisionOf E D (Collider.make o sigma) rec.b rec.ncoll A B ∧
      A.nucleons.length = o.projectileA.nucleons.length ∧ B.nucleons.length = o.projectileB.nucleons.length ∧
      (∃ a ∈ A.nucleons, a.isParticipant = true) ∧ (∃ b ∈ B.nucleons, b.isParticipant = true) ∧
      (∀ a ∈ A.nucleons ++ B.nucleons, a.isParticipant = true → a.constituents.length = o.constitNumber) ∧
      (∀ a ∈ A.nucleons, a.isParticipant = true → ∃ b ∈ B.nucleons, b.isParticipant = true ∧
        Real.sqrt ((a.x - b.x)^2 + (a.y - b.y)^2) ≤ 6 * o.nucleonWidth) ∧
      (∀ b ∈ B.nucleons, b.isParticipant = true → ∃ a ∈ A.nucleons, a.isParticipant = true ∧
        Real.sqrt ((a.x - b.x)^2 + (a.y - b.y)^2) ≤ 6 * o.nucleonWidth) ∧
      DocumentedEvent o.normalization o.gridStep o.reducedThickness o.constitWidth o.constitNumber A.nucleons B.nucleons rec.event := by
  obtain ⟨ec, hec, hns, key⟩ := runAll_records_inv o sigma debug (weightsReal_invariant (E := E) (D := D) (Collider.make o sigma).nc)
    (by intro n h1 h2; exact ⟨fun h => absurd h (by rw [h1]; simp), fun h => absurd h (by rw [h2]; simp)⟩) hA hB rfuel fuel ev0 w n rs h
  obtain ⟨g1, g2, g3⟩ := eventCfg_params hec
  refine ⟨by rw [← hns]; exact (C20_grid_geometry _ _ _ _ hstep hmax ec hec).1, ?_⟩
  intro rec hrec
  obtain ⟨A, B, hcol, nA, nB, pA, pB, hcomp⟩ := key rec hrec
  have hcomp := hcomp (ev0 n)
  obtain ⟨q1, q2, q3, q4⟩ := hcol.participants
  have wA : ∀ a ∈ A.nucleons, a.isParticipant = true → ∀ q ∈ a.constituents, 0 ≤ q.fluctuation :=
    fun a ha hp => ((pA a ha).2 ((pA a ha).1 hp)).2
  have wB : ∀ a ∈ B.nucleons, a.isParticipant = true → ∀ q ∈ a.constituents, 0 ≤ q.fluctuation :=
    fun a ha hp => ((pB a ha).2 ((pB a ha).1 hp)).2
  have hdxy : ec.dxy = o.gridStep := g2
  have hd : 0 < ec.dxy := by rw [hdxy]; exact hstep
  have hcomp' : Event.compute ec (NucleonCommon.make o.nucleonWidth o.constitWidth o.constitNumber sigma o.ncoll o.fluctuation) debug (ev0 n)
    A.nucleons B.nucleons = .ok rec.event := hcomp
  have ht := C21_thickness_is_direct_sum _ _ _ _ _ _ hv ec hd debug n hns _ _ wA wB _ _ hcomp'
  have hnn := C21_thickness_nonneg _ _ _ _ _ _ hv ec hd debug n hns _ _ wA wB _ _ hcomp'
  obtain ⟨c1, c2, c3⟩ := C28_eccentricities _ _ _ _ _ _ _ _ hcomp'
  refine ⟨A, B, hcol, nA, nB, q1, q2, ?_, ?_, ?_, ?_⟩
  · intro a ha hp
    rcases List.mem_append.1 ha with ha | ha
    · exact ((pA a ha).2 ((pA a ha).1 hp)).1
    · exact ((pB a ha).2 ((pB a ha).1 hp)).1
  · intro a ha hp
    obtain ⟨b, hb, h1, h2⟩ := q3 a ha hp
    exact ⟨b, hb, h1, (C36_inRange_iff _ _ _ _ _ _ hw a b).mp h2⟩
  · intro b hb hp
    obtain ⟨a, ha, h1, h2⟩ := q4 b hb hp
    exact ⟨a, ha, h1, (C36_inRange_iff _ _ _ _ _ _ hw a b).mp h2⟩
  · have hcen := fun i => cellCentre_real hstep hmax hec hns i
    constructor
    · exact (C23_npart _ _ _ _ _ _ _ _ hcomp').1
    · intro iy ix
      dsimp only
      rw [(ht iy ix).1, hcen, hcen]
      exact directThickness_ideal _ _ _ _ _ _ hv debug _ wA _ _
    · intro iy ix
      dsimp only
      rw [(ht iy ix).2, hcen, hcen]
      exact directThickness_ideal _ _ _ _ _ _ hv debug _ wB _ _
    · exact hnn
    · intro iy ix
      have := C25_reduced_thickness _ _ _ _ _ _ _ _ hcomp' iy ix
      rw [this, g1, g3]
    · rw [C27_multiplicity _ _ _ _ _ _ _ _ hcomp', hdxy]
    · exact ⟨c1, c2⟩
    · exact c3
    · exact C29_eccentricity_range _ _ _ _ _ _ _ _ hcomp'
    · intro hN
      exact (C27_nonneg _ _ _ _ _ _ hv ec hd (by rw [g1]; exact hN) debug n hns _ _ wA wB _ _ hcomp').2

/-! ## C62: the extents of the documented nuclei -/

/-- **C62, extents.** The nucleons of the documented Woods–Saxon nuclei lie within `R (1 + 0.63 |β₂| + 0.85 |β₄|) + 10 a` of the centre, those of a
nucleus read from a file within any bound on the distances stored in the file, and the proton's within 0. -/
theorem C62_extents [LawfulRng E D] (hdf5 : Bool) (disk : String → H5View ℝ) (dmin : ℝ) (nuc : Nucleus ℝ) (s : String)
    (hc : createNucleus hdf5 disk s dmin = .ok nuc) :
    (∀ (A : Nat) (R a b2 b4 : ℚ), (s, A, R, a, b2, b4) ∈ woodsSaxonParameters → Reach E D nuc.kind (cutoff R a b2 b4)) ∧
    (s = "p" → Reach E D nuc.kind 0) ∧
    (∀ (configs : List (List (ℝ × ℝ × ℝ))) (rmax r : ℝ), nuc.kind = .manual configs rmax →
      (∀ c ∈ configs, ∀ p ∈ c, Real.sqrt (p.1^2 + p.2.1^2 + p.2.2^2) ≤ r) → Reach E D nuc.kind r) := by
  refine ⟨?_, ?_, ?_⟩
  · intro A R a b2 b4 hs
    by_cases hb : b2 = 0
    · have hk : ∃ d, nuc.kind = .woodsSaxon (R:ℝ) (a:ℝ) d ∧ 0 ≤ (R:ℝ) + 10 * (a:ℝ) ∧ b4 = 0 := by
        unfold woodsSaxonParameters at hs
        simp only [List.mem_cons, Prod.mk.injEq, List.not_mem_nil, or_false] at hs
        rcases hs with ⟨rfl, rfl, rfl, rfl, h1, h2⟩ | ⟨rfl, rfl, rfl, rfl, h1, h2⟩ | ⟨rfl, rfl, rfl, rfl, h1, h2⟩ |
          ⟨rfl, rfl, rfl, rfl, h1, h2⟩ | ⟨rfl, rfl, rfl, rfl, h1, h2⟩ | ⟨rfl, rfl, rfl, rfl, h1, h2⟩ | ⟨rfl, rfl, rfl, rfl, h1, h2⟩ |
          ⟨rfl, rfl, rfl, rfl, h1, h2⟩ | ⟨rfl, rfl, rfl, rfl, h1, h2⟩ | ⟨rfl, rfl, rfl, rfl, h1, h2⟩
        all_goals first
          | (exfalso; rw [hb] at h1; revert h1; norm_num; done)
          | (injection hc with hc
             subst hc
             exact ⟨_, rfl, by norm_num, h2⟩)
      obtain ⟨d, hk, hp, rfl⟩ := hk
      subst hb
      rw [hk]
      have : cutoff R a ((0:ℚ):ℝ) ((0:ℚ):ℝ) = R + 10 * a := by unfold cutoff; norm_num
      rw [this]
      exact reach_woodsSaxon _ _ _ hp
    · obtain ⟨-, hk, hR, ha⟩ := deformed_kind s A R a b2 b4 hs hb hdf5 disk dmin nuc hc
      rw [hk]
      refine reach_deformed _ _ _ _ _ _ ?_
      unfold cutoff
      positivity
  · rintro rfl
    injection hc with hc
    subst hc
    exact reach_proton
  · intro configs rmax r hk hr
    rw [hk]
    exact reach_manual configs rmax r hr

/-! ## C42: the lines of a run with documented nuclei -/

/-- The radii of the documented nuclei (deuteron included) are far below the width of the impact parameter column. -/
theorem documented_radius (hdf5 : Bool) (disk : String → H5View ℝ) (dmin : ℝ) (nuc : Nucleus ℝ) (s : String)
    (hs : s ∈ speciesTable.map Prod.fst) (hc : createNucleus hdf5 disk s dmin = .ok nuc) :
    nuc.radius ≤ 110 ∧ nuc.nucleons.length ≤ 238 := by
  unfold speciesTable at hs
  simp only [List.map_cons, List.map_nil, List.mem_cons, List.not_mem_nil, or_false] at hs
  have hl : ∀ (n : ℕ) (x : NucleonData ℝ), n ≤ 238 → (List.replicate n x).length ≤ 238 := fun n x h => by rw [List.length_replicate]; exact h
  rcases hs with rfl | rfl | rfl | rfl | rfl | rfl | rfl | rfl | rfl | rfl | rfl | rfl <;>
    (injection hc with hc; subst hc; refine ⟨?_, hl _ _ (by norm_num)⟩)
  · unfold Nucleus.radius
    simp [mkProton, Nucleus.ofKind, Kind.radius]
  · unfold Nucleus.radius mkDeuteron
    have h1 : Real.log (0.01:ℝ) ≥ -99 := by
      have := Real.log_le_sub_one_of_pos (x := 100) (by norm_num)
      have h2 : Real.log (0.01:ℝ) = -Real.log 100 := by rw [← Real.log_inv]; norm_num
      rw [h2]; linarith
    simp only [Nucleus.ofKind, Kind.radius, lit_real, log_real, fmin_real, fmax_real]
    norm_num at h1 ⊢
    rw [div_le_iff₀ (by norm_num)]
    linarith
  all_goals
    unfold Nucleus.radius
    simp only [mkWoodsSaxon, mkDeformed, Nucleus.ofKind, Kind.radius, lit_real, fabs_real]
    norm_num [abs_of_pos, abs_of_neg]

/-- **C42, documented nuclei.** In a run with documented nuclei, nucleon width at most 100 fm and impact parameters limited below 999 fm (or the
default limit), every event whose multiplicity is zero or has a decimal exponent of at most three digits is within the ranges in which
the columns of its line stay apart. -/
theorem C42_documented_run [LawfulRng E D] (o : Options ℝ) (sigma : ℝ) (hdf5 : Bool) (disk : String → H5View ℝ) (dmin : ℝ) (sA sB : String)
    (mA : sA ∈ speciesTable.map Prod.fst) (cA : createNucleus hdf5 disk sA dmin = .ok o.projectileA)
    (mB : sB ∈ speciesTable.map Prod.fst) (cB : createNucleus hdf5 disk sB dmin = .ok o.projectileB)
    (hw : 0 ≤ o.nucleonWidth) (hw2 : o.nucleonWidth ≤ 100) (hv : 0 < o.constitWidth) (hstep : 0 < o.gridStep) (hmax : 0 ≤ o.gridMax)
    (hnorm : 0 ≤ o.normalization) (h0 : 0 ≤ o.bMin) (hmin : o.bMin ≤ (Collider.make o sigma).bmax) (hb : o.bMax < 999) (debug : Bool)
    (rfuel fuel : Nat) (ev0 : (n : Nat) → Event ℝ n) (w : Rand E D) (n : ℕ) (rs : List (EventRecord ℝ n))
    (h : runAll rfuel fuel o sigma debug ev0 w = .ok ⟨n, rs⟩) :
    ∀ rec ∈ rs, (rec.event.multiplicity = 0 ∨ ((10:ℝ) ^ (-999 : ℤ) ≤ rec.event.multiplicity ∧ rec.event.multiplicity < 10 ^ (999 : ℤ))) →
      Printable rec.b rec.event.npart rec.ncoll rec.event.multiplicity rec.event.ecc := by
  have hA : NucleusHistory E D o.projectileA := .create _ _ _ _ _ cA
  have hB : NucleusHistory E D o.projectileB := .create _ _ _ _ _ cB
  obtain ⟨-, key⟩ := C84_every_record o sigma hA hB hw hv hstep hmax debug rfuel fuel ev0 w n rs h
  intro rec hrec hmult
  obtain ⟨A, B, hcol, lA, lB, -, -, -, -, -, hev⟩ := key rec hrec
  obtain ⟨rA, nA⟩ := documented_radius hdf5 disk dmin _ sA mA cA
  obtain ⟨rB, nB⟩ := documented_radius hdf5 disk dmin _ sB mB cB
  have hbm : (Collider.make o sigma).bmax < 999.9999 := by
    obtain ⟨b1, b2⟩ := C35_bmax o hw sigma
    rcases lt_or_ge o.bMax 0 with hneg | hpos
    · rw [b2 hneg]; norm_num; linarith
    · rw [b1 hpos]; norm_num; linarith
  have hbr : (Collider.make o sigma).bmin ≤ rec.b ∧ rec.b ≤ (Collider.make o sigma).bmax := by
    obtain ⟨⟨w, hbw⟩, -⟩ := hcol
    have hu := canonical_mem w
    have := C33_impact_range (bmin := (Collider.make o sigma).bmin) (bmax := (Collider.make o sigma).bmax) h0 hmin hu.1 hu.2
    rw [hbw]
    exact ⟨this.1, this.2.1⟩
  have hnc : rec.ncoll ≤ A.nucleons.length * B.nucleons.length := by
    obtain ⟨-, rf, A0, B0, A1, B1, w0, w1, w2, M, hA0, hB0, hA1, hB1, hA', hB', hM, hret, hn⟩ := hcol
    have e1 : A1.nucleons.length = A.nucleons.length := by
      have := congrArg List.length hM.placeA; simp at this; omega
    have e2 : B1.nucleons.length = B.nucleons.length := by
      have := congrArg List.length hM.placeB; simp at this; omega
    have := hM.returned_le
    rw [e1, e2] at this
    rw [hn]
    split
    · exact this
    · exact Nat.zero_le _
  have hAl : A.nucleons.length ≤ 238 := by rw [lA]; exact nA
  have hBl : B.nucleons.length ≤ 238 := by rw [lB]; exact nB
  constructor
  · exact h0.trans hbr.1
  · have := hbr.2; norm_num at hbm ⊢; linarith
  · rw [hev.npart]
    have h1 := List.length_filter_le (·.isParticipant) A.nucleons
    have h2 := List.length_filter_le (·.isParticipant) B.nucleons
    omega
  · have : A.nucleons.length * B.nucleons.length ≤ 238 * 238 := Nat.mul_le_mul hAl hBl
    omega
  · exact hev.mult_nonneg hnorm
  · exact hmult
  · intro x hx
    have := hev.range x hx
    exact ⟨this.1, by linarith [this.2]⟩

end Trento
