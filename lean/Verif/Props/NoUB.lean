import Verif.Props.Termination

/-!
# C61: valid configurations execute no undefined behaviour and throw nothing (exact real arithmetic)
-/

set_option linter.unusedSectionVars false

namespace Trento
open Spec

section
variable {E D : Type} [Rng ℝ E D]

/-- Constituent position draws are bounded: a centred normal variate of width `s` has magnitude at most `K s`.  (True of every
implementation that transforms finitely many bits; for libstdc++'s polar method on 53-bit numbers `K = 13` suffices.) -/
def Spec.NormalBounded (E D : Type) [Rng ℝ E D] (K : ℝ) : Prop :=
  ∀ (s : ℝ) (d : D) (e : E), 0 ≤ s → |(Rng.normal (0:ℝ) s d e).1| ≤ K * s

/-- What `compute` needs to know about a nucleon: a participant has constituents, they have non-negative weights and lie within
`S` of the nucleon in each coordinate. -/
def Spec.Depositable (S : ℝ) (n : NucleonData ℝ) : Prop :=
  (n.isParticipant = true → n.constituentsExist = true) ∧
  (n.constituentsExist = true → n.constituents ≠ [] ∧
    ∀ q ∈ n.constituents, 0 ≤ q.fluctuation ∧ |q.x - n.x| ≤ S ∧ |q.y - n.y| ≤ S)

theorem drawConstituents_bounded {K : ℝ} (hK : NormalBounded E D K) (nc : NucleonCommon ℝ) (hs : 0 ≤ nc.samplingWidth) (k : ℕ)
    (xc yc : ℝ) (w : Rand E D) :
    ∀ c ∈ (drawConstituents nc k xc yc w).1.1, |c.x| ≤ K * nc.samplingWidth ∧ |c.y| ≤ K * nc.samplingWidth := by
  induction k generalizing xc yc w with
  | zero => simp [drawConstituents]
  | succ k ih =>
    intro c hc
    unfold drawConstituents at hc
    simp only [List.mem_cons] at hc
    rcases hc with rfl | hc
    · have e : (lit 0 : ℝ) = 0 := by simp
      unfold drawNormal
      rw [e]
      exact ⟨hK _ _ _ hs, hK _ _ _ hs⟩
    · exact ih _ _ _ c hc

theorem abs_sum_le_bound {α : Type} (f : α → ℝ) (l : List α) (M : ℝ) (h : ∀ a ∈ l, |f a| ≤ M) :
    |(l.map f).sum| ≤ l.length * M := by
  induction l with
  | nil => simp
  | cons a l ih =>
    simp only [List.map_cons, List.sum_cons, List.length_cons]
    have h1 := h a (by simp)
    have h2 := ih fun x hx => h x (by simp [hx])
    have h3 := abs_add_le (f a) (l.map f).sum
    push_cast
    linarith

theorem sampleConstituents_depositable [LawfulRng E D] {K : ℝ} (hK : NormalBounded E D K) (nc : NucleonCommon ℝ)
    (hs : 0 ≤ nc.samplingWidth) (hm : 0 < nc.constituentNumber) (n : NucleonData ℝ)
    (hn : Depositable (2 * (K * nc.samplingWidth)) n) (w : Rand E D) :
    Depositable (2 * (K * nc.samplingWidth)) (nc.sampleConstituents n w).1 := by
  unfold NucleonCommon.sampleConstituents
  split
  · exact hn
  · refine ⟨fun _ => rfl, fun _ => ?_⟩
    have hz : (lit 0 : ℝ) = 0 := by simp
    rw [hz]
    obtain ⟨h1, h2, h3⟩ := drawConstituents_spec nc nc.constituentNumber 0 0 w
    have hb := drawConstituents_bounded hK nc hs nc.constituentNumber 0 0 w
    have hfl := drawConstituents_fluct nc nc.constituentNumber 0 0 w
    have hm' : (0:ℝ) < nc.constituentNumber := by exact_mod_cast hm
    have cx : |(drawConstituents nc nc.constituentNumber 0 0 w).1.2.1 / ofInt (nc.constituentNumber : ℤ)| ≤ K * nc.samplingWidth := by
      have := abs_sum_le_bound (fun c : Constituent ℝ => c.x) _ _ fun c hc => (hb c hc).1
      rw [h1] at this
      rw [ofInt_real, h2, zero_add, abs_div, Int.cast_natCast, abs_of_pos hm', div_le_iff₀ hm']
      linarith
    have cy : |(drawConstituents nc nc.constituentNumber 0 0 w).1.2.2 / ofInt (nc.constituentNumber : ℤ)| ≤ K * nc.samplingWidth := by
      have := abs_sum_le_bound (fun c : Constituent ℝ => c.y) _ _ fun c hc => (hb c hc).2
      rw [h1] at this
      rw [ofInt_real, h3, zero_add, abs_div, Int.cast_natCast, abs_of_pos hm', div_le_iff₀ hm']
      linarith
    generalize hd : drawConstituents nc nc.constituentNumber 0 0 w = d at *
    dsimp only
    constructor
    · intro hnil
      have := congrArg List.length hnil
      simp at this
      rw [this] at h1
      simp at h1
      omega
    · intro q hq
      simp only [List.mem_map] at hq
      obtain ⟨c, hc, rfl⟩ := hq
      refine ⟨hfl c hc, ?_, ?_⟩
      · have e : c.x + (n.x - d.1.2.1 / ofInt (nc.constituentNumber : ℤ)) - n.x = c.x - d.1.2.1 / ofInt (nc.constituentNumber : ℤ) := by ring
        show |c.x + (n.x - d.1.2.1 / ofInt (nc.constituentNumber : ℤ)) - n.x| ≤ _
        rw [e]
        have := abs_sub (c.x) (d.1.2.1 / ofInt (nc.constituentNumber : ℤ))
        have := (hb c hc).1
        linarith
      · have e : c.y + (n.y - d.1.2.2 / ofInt (nc.constituentNumber : ℤ)) - n.y = c.y - d.1.2.2 / ofInt (nc.constituentNumber : ℤ) := by ring
        show |c.y + (n.y - d.1.2.2 / ofInt (nc.constituentNumber : ℤ)) - n.y| ≤ _
        rw [e]
        have := abs_sub (c.y) (d.1.2.2 / ofInt (nc.constituentNumber : ℤ))
        have := (hb c hc).2
        linarith

theorem participate_depositable [LawfulRng E D] {K : ℝ} (hK : NormalBounded E D K) (nc : NucleonCommon ℝ)
    (hs : 0 ≤ nc.samplingWidth) (hm : 0 < nc.constituentNumber) (A B : NucleonData ℝ)
    (hA : Depositable (2 * (K * nc.samplingWidth)) A) (hB : Depositable (2 * (K * nc.samplingWidth)) B) (w : Rand E D) :
    Depositable (2 * (K * nc.samplingWidth)) (nc.participate A B w).1.2.1 ∧
    Depositable (2 * (K * nc.samplingWidth)) (nc.participate A B w).1.2.2 := by
  rcases participate_cases nc A B w with ⟨h, _⟩ | h | ⟨w1, p, _, h2, h3⟩
  · rw [h]; exact ⟨hA, hB⟩
  · rw [h]; exact ⟨hA, hB⟩
  · rw [h2, h3]
    have sA := sampleConstituents_depositable hK nc hs hm A hA w
    have sB := sampleConstituents_depositable hK nc hs hm B hB w1
    have eA := (sampleConstituents_frame nc A w).2.2.2.2.1
    have eB := (sampleConstituents_frame nc B w1).2.2.2.2.1
    exact ⟨⟨fun _ => eA, sA.2⟩, ⟨fun _ => eB, sB.2⟩⟩

theorem pairRow_depositable [LawfulRng E D] {K : ℝ} (hK : NormalBounded E D K) (nc : NucleonCommon ℝ)
    (hs : 0 ≤ nc.samplingWidth) (hm : 0 < nc.constituentNumber) (cn : Bool) (A : NucleonData ℝ) (Bs : List (NucleonData ℝ))
    (n : Nat) (coll : Bool) (w : Rand E D)
    (hA : Depositable (2 * (K * nc.samplingWidth)) A) (hB : ∀ b ∈ Bs, Depositable (2 * (K * nc.samplingWidth)) b) :
    Depositable (2 * (K * nc.samplingWidth)) (pairRow nc cn A Bs n coll w).1.1 ∧
    ∀ b ∈ (pairRow nc cn A Bs n coll w).1.2.1, Depositable (2 * (K * nc.samplingWidth)) b := by
  induction Bs generalizing A n coll w with
  | nil => exact ⟨hA, by simp [pairRow]⟩
  | cons B Bs ih =>
    rw [pairRow]
    dsimp only
    obtain ⟨p1, p2⟩ := participate_depositable hK nc hs hm A B hA (hB B (by simp)) w
    obtain ⟨q1, q2⟩ := ih (nc.participate A B w).1.2.1 (if (nc.participate A B w).1.1 && cn then n + 1 else n)
      ((nc.participate A B w).1.1 || coll) (nc.participate A B w).2 p1 (fun b hb => hB b (by simp [hb]))
    refine ⟨q1, ?_⟩
    intro b hb
    rcases List.mem_cons.mp hb with rfl | hb
    · exact p2
    · exact q2 b hb

theorem pairLoop_depositable [LawfulRng E D] {K : ℝ} (hK : NormalBounded E D K) (nc : NucleonCommon ℝ)
    (hs : 0 ≤ nc.samplingWidth) (hm : 0 < nc.constituentNumber) (cn : Bool) (As Bs : List (NucleonData ℝ))
    (n : Nat) (coll : Bool) (w : Rand E D)
    (hA : ∀ a ∈ As, Depositable (2 * (K * nc.samplingWidth)) a) (hB : ∀ b ∈ Bs, Depositable (2 * (K * nc.samplingWidth)) b) :
    (∀ a ∈ (pairLoop nc cn As Bs n coll w).1.1, Depositable (2 * (K * nc.samplingWidth)) a) ∧
    ∀ b ∈ (pairLoop nc cn As Bs n coll w).1.2.1, Depositable (2 * (K * nc.samplingWidth)) b := by
  induction As generalizing Bs n coll w with
  | nil => exact ⟨by simp [pairLoop], hB⟩
  | cons A As ih =>
    rw [pairLoop]
    dsimp only
    obtain ⟨p1, p2⟩ := pairRow_depositable hK nc hs hm cn A Bs n coll w (hA A (by simp)) hB
    obtain ⟨q1, q2⟩ := ih (pairRow nc cn A Bs n coll w).1.2.1 (pairRow nc cn A Bs n coll w).1.2.2.1
      (pairRow nc cn A Bs n coll w).1.2.2.2 (pairRow nc cn A Bs n coll w).2 (fun a ha => hA a (by simp [ha])) p2
    refine ⟨?_, q2⟩
    intro a ha
    rcases List.mem_cons.mp ha with rfl | ha
    · exact p1
    · exact q1 a ha

/-- The nucleus can be sampled from the file: a manual nucleus has at least one configuration. -/
def Spec.HasConfigs (kind : Kind ℝ) : Prop :=
  match kind with
  | .manual configs _ => configs ≠ []
  | _ => True

theorem deuteronLoop_only_fuel (a b : ℝ) (fuel : Nat) (w : Rand E D) (e : Err) (h : deuteronLoop a b fuel w = .error e) :
    e = .fuel := by
  induction fuel generalizing w with
  | zero => cases h; rfl
  | succ fuel ih =>
    rw [deuteronLoop] at h
    dsimp only at h
    split at h
    · exact ih _ h
    · cases h

theorem deformedReject_only_fuel (R a b2 b4 rmax : ℝ) (fuel : Nat) (w : Rand E D) (e : Err)
    (h : deformedReject R a b2 b4 rmax fuel w = .error e) : e = .fuel := by
  induction fuel generalizing w with
  | zero => cases h; rfl
  | succ fuel ih =>
    rw [deformedReject] at h
    dsimp only at h
    split at h
    · exact ih _ h
    · cases h

theorem drawDeformed_only_fuel (R a b2 b4 rmax : ℝ) (fuel k : Nat) (w : Rand E D) (e : Err)
    (h : drawDeformed fuel R a b2 b4 rmax k w = .error e) : e = .fuel := by
  induction k generalizing w with
  | zero => cases h
  | succ k ih =>
    rw [drawDeformed] at h
    cases hd : deformedReject R a b2 b4 rmax fuel w with
    | error e' => simp only [hd] at h; cases h; exact deformedReject_only_fuel _ _ _ _ _ _ _ _ hd
    | ok r =>
      simp only [hd] at h
      cases hr : drawDeformed fuel R a b2 b4 rmax k r.2 with
      | error e' => simp only [hr] at h; cases h; exact ih _ hr
      | ok r => simp only [hr] at h; cases h

/-- Sampling a nucleus never executes undefined behaviour or throws: it ends with a result or does not end. -/
theorem C61_sampling_no_ub [LawfulRng E D] (nuc : Nucleus ℝ) (hh : NucleusHistory E D nuc) (hc : HasConfigs nuc.kind)
    (fuel : Nat) (b : ℝ) (w : Rand E D) (e : Err) (h : nuc.sampleNucleons fuel b w = .error e) : e = .fuel := by
  have hw := hh.wf
  cases hk : nuc.kind with
  | manual configs rmax =>
    unfold HasConfigs at hc
    rw [hk] at hc
    obtain ⟨r, hr⟩ := C16_manual_total configs hc rmax nuc hh hk fuel b w
    rw [hr] at h; cases h
  | proton => unfold Nucleus.sampleNucleons at h; simp only [hk] at h; cases h
  | woodsSaxon R a d => unfold Nucleus.sampleNucleons at h; simp only [hk] at h; cases h
  | deuteron α β =>
    unfold Nucleus.sampleNucleons at h
    unfold Nucleus.WF at hw
    rw [hk] at hw
    obtain ⟨m1, m2, hm⟩ := List.length_eq_two.mp hw
    simp only [hk, sampleDeuteron, hm] at h
    cases hd : deuteronLoop α β fuel w with
    | error e' => simp only [hd] at h; cases h; exact deuteronLoop_only_fuel _ _ _ _ _ hd
    | ok r => simp only [hd] at h; cases h
  | deformed R a b2 b4 rmax d =>
    unfold Nucleus.sampleNucleons at h
    simp only [hk, sampleDeformed] at h
    cases hd : drawDeformed fuel R a b2 b4 rmax nuc.nucleons.length (drawTiltSpin (F := ℝ) w).2 with
    | error e' => simp only [hd] at h; cases h; exact drawDeformed_only_fuel _ _ _ _ _ _ _ _ _ hd
    | ok r => simp only [hd] at h; cases h

/-- The state of the two nuclei between attempts. -/
structure Spec.Usable (E D : Type) [Rng ℝ E D] (A : Nucleus ℝ) (r : ℝ) : Prop where
  hist : NucleusHistory E D A
  configs : HasConfigs A.kind
  reach : Reach E D A.kind r

theorem abs_y_le_radiusFrom (b : ℝ) (n : NucleonData ℝ) : |n.y| ≤ radiusFrom b n := by
  unfold radiusFrom
  exact Real.abs_le_sqrt (by nlinarith [sq_nonneg (n.x - b), sq_nonneg n.z])

/-- One call of `sample_collision`: no undefined behaviour and no exception, and the nucleons it leaves can be deposited. -/
theorem collisionLoop_safe [LawfulRng E D] {K : ℝ} (hK : NormalBounded E D K) {o : Options ℝ} {sigma : ℝ}
    (hs : 0 ≤ calcSamplingWidth o.nucleonWidth o.constitWidth o.constitNumber) (hm : 0 < o.constitNumber)
    (h0 : 0 ≤ o.bMin) (hmin : o.bMin ≤ (Collider.make o sigma).bmax) {rA rB : ℝ}
    (hasym : 0 ≤ (Collider.make o sigma).asymmetry ∧ (Collider.make o sigma).asymmetry ≤ 1)
    (rfuel fuel : Nat) (A B : Nucleus ℝ) (hA : Usable E D A rA) (hB : Usable E D B rB) (n : Nat) (coll : Bool) (w : Rand E D) :
    collisionLoop rfuel (Collider.make o sigma) fuel A B n coll w = .error .fuel ∨
    ∃ b ncoll A' B' w', collisionLoop rfuel (Collider.make o sigma) fuel A B n coll w = .ok ((b, ncoll, A', B'), w') ∧
      Usable E D A' rA ∧ Usable E D B' rB ∧
      (∀ a ∈ A'.nucleons, Depositable (2 * (K * (Collider.make o sigma).nc.samplingWidth)) a ∧
        |a.x| ≤ rA + (Collider.make o sigma).bmax ∧ |a.y| ≤ rA) ∧
      (∀ a ∈ B'.nucleons, Depositable (2 * (K * (Collider.make o sigma).nc.samplingWidth)) a ∧
        |a.x| ≤ rB + (Collider.make o sigma).bmax ∧ |a.y| ≤ rB) := by
  induction fuel generalizing A B n coll w with
  | zero => exact .inl rfl
  | succ fuel ih =>
    rw [collisionLoop]
    dsimp only
    have hu := canonical_mem w
    have hbr := C33_impact_range (bmin := o.bMin) h0 hmin hu.1 hu.2
    generalize hb : impactFormula (Collider.make o sigma).bmin (Collider.make o sigma).bmax (canonical (F := ℝ) w).1 = b
    have hb' : impactFormula o.bMin (Collider.make o sigma).bmax (canonical (F := ℝ) w).1 = b := hb
    rw [hb'] at hbr
    generalize (canonical (F := ℝ) w).2 = w0
    cases hA1 : A.sampleNucleons rfuel ((Collider.make o sigma).asymmetry * b) w0 with
    | error e => rw [C61_sampling_no_ub A hA.hist hA.configs _ _ _ _ hA1]; exact .inl rfl
    | ok r1 =>
      obtain ⟨A1, w1⟩ := r1
      simp only
      cases hB1 : B.sampleNucleons rfuel (((Collider.make o sigma).asymmetry - lit 1) * b) w1 with
      | error e => rw [C61_sampling_no_ub B hB.hist hB.configs _ _ _ _ hB1]; exact .inl rfl
      | ok r2 =>
        obtain ⟨B1, w2⟩ := r2
        simp only
        have fA := (C12_sampling_resets A A1 hA.hist _ _ _ _ hA1).2
        have fB := (C12_sampling_resets B B1 hB.hist _ _ _ _ hB1).2
        have dA : ∀ a ∈ A1.nucleons, Depositable (2 * (K * (Collider.make o sigma).nc.samplingWidth)) a := by
          intro a ha
          exact ⟨fun h => absurd h (by rw [(fA a ha).1]; simp), fun h => absurd h (by rw [(fA a ha).2]; simp)⟩
        have dB : ∀ a ∈ B1.nucleons, Depositable (2 * (K * (Collider.make o sigma).nc.samplingWidth)) a := by
          intro a ha
          exact ⟨fun h => absurd h (by rw [(fB a ha).1]; simp), fun h => absurd h (by rw [(fB a ha).2]; simp)⟩
        have hdep := pairLoop_depositable hK (Collider.make o sigma).nc hs hm (Collider.make o sigma).calcNcoll A1.nucleons
          B1.nucleons n coll w2 dA dB
        obtain ⟨M, hM, -, -⟩ := pairLoop_spec (E := E) (D := D) (Collider.make o sigma).nc (Collider.make o sigma).calcNcoll
          A1.nucleons B1.nucleons n coll w2
        have hrA := hA.reach A A1 _ _ _ _ hA.hist rfl hA1
        have hrB := hB.reach B B1 _ _ _ _ hB.hist rfl hB1
        have kA := (sampleNucleons_reset hA.hist.wf hA1).1
        have kB := (sampleNucleons_reset hB.hist.wf hB1).1
        have posA : ∀ a ∈ A1.nucleons, |a.x| ≤ rA + (Collider.make o sigma).bmax ∧ |a.y| ≤ rA := by
          intro a ha
          have h1 := (transverse_le_radiusFrom _ a).trans (hrA a ha)
          refine ⟨?_, (abs_y_le_radiusFrom _ a).trans (hrA a ha)⟩
          have hoff : |(Collider.make o sigma).asymmetry * b| ≤ (Collider.make o sigma).bmax := by
            rw [abs_of_nonneg (mul_nonneg hasym.1 (by linarith))]
            nlinarith [hasym.1, hasym.2]
          have h3 : |a.x| ≤ |a.x - (Collider.make o sigma).asymmetry * b| + |(Collider.make o sigma).asymmetry * b| := by
            have := abs_add_le (a.x - (Collider.make o sigma).asymmetry * b) ((Collider.make o sigma).asymmetry * b)
            simpa using this
          linarith
        have posB : ∀ a ∈ B1.nucleons, |a.x| ≤ rB + (Collider.make o sigma).bmax ∧ |a.y| ≤ rB := by
          intro a ha
          have h1 := (transverse_le_radiusFrom _ a).trans (hrB a ha)
          refine ⟨?_, (abs_y_le_radiusFrom _ a).trans (hrB a ha)⟩
          have hoff : |((Collider.make o sigma).asymmetry - lit 1) * b| ≤ (Collider.make o sigma).bmax := by
            simp only [lit_real]
            push_cast
            rw [abs_of_nonpos (mul_nonpos_of_nonpos_of_nonneg (by linarith [hasym.2]) (by linarith))]
            nlinarith [hasym.1, hasym.2]
          have h3 : |a.x| ≤ |a.x - ((Collider.make o sigma).asymmetry - lit 1) * b| + |((Collider.make o sigma).asymmetry - lit 1) * b| := by
            have := abs_add_le (a.x - ((Collider.make o sigma).asymmetry - lit 1) * b) (((Collider.make o sigma).asymmetry - lit 1) * b)
            simpa using this
          linarith
        have transfer : ∀ (l l' : List (NucleonData ℝ)) (R1 R2 : ℝ), l'.map place = l.map place →
            (∀ a ∈ l, |a.x| ≤ R1 ∧ |a.y| ≤ R2) → ∀ a ∈ l', |a.x| ≤ R1 ∧ |a.y| ≤ R2 := by
          intro l l' R1 R2 he hl a ha
          have : place a ∈ l.map place := by rw [← he]; exact List.mem_map_of_mem ha
          obtain ⟨a0, ha0, he0⟩ := List.mem_map.mp this
          unfold place at he0
          simp only [Prod.mk.injEq] at he0
          rw [← he0.1, ← he0.2.1]
          exact hl a0 ha0
        have tA := transfer _ _ _ _ hM.placeA posA
        have tB := transfer _ _ _ _ hM.placeB posB
        have lA : (pairLoop (Collider.make o sigma).nc (Collider.make o sigma).calcNcoll A1.nucleons B1.nucleons n coll w2).1.1.length = A1.nucleons.length := by
          have := congrArg List.length hM.placeA; simpa using this
        have lB : (pairLoop (Collider.make o sigma).nc (Collider.make o sigma).calcNcoll A1.nucleons B1.nucleons n coll w2).1.2.1.length = B1.nucleons.length := by
          have := congrArg List.length hM.placeB; simpa using this
        generalize hres : pairLoop (Collider.make o sigma).nc (Collider.make o sigma).calcNcoll A1.nucleons B1.nucleons n coll w2 = res at *
        have uA : Usable E D { A1 with nucleons := res.1.1 } rA :=
          ⟨.collide _ _ (.sample _ _ _ _ _ _ hA.hist hA1) lA, by show HasConfigs A1.kind; rw [kA]; exact hA.configs,
            by show Reach E D A1.kind rA; rw [kA]; exact hA.reach⟩
        have uB : Usable E D { B1 with nucleons := res.1.2.1 } rB :=
          ⟨.collide _ _ (.sample _ _ _ _ _ _ hB.hist hB1) lB, by show HasConfigs B1.kind; rw [kB]; exact hB.configs,
            by show Reach E D B1.kind rB; rw [kB]; exact hB.reach⟩
        split
        · exact .inr ⟨b, _, _, _, _, rfl, uA, uB, fun a ha => ⟨hdep.1 a ha, tA a ha⟩, fun a ha => ⟨hdep.2 a ha, tB a ha⟩⟩
        · exact ih _ _ uA uB _ _ _

theorem calcSamplingWidth_nonneg (w v : ℝ) (m : Int) : 0 ≤ calcSamplingWidth w v m := by
  unfold calcSamplingWidth
  dsimp only
  split
  · simp
  · exact Real.sqrt_nonneg _

/-- The events of a run, from any state of the random source. -/
theorem runEvents_safe [LawfulRng E D] {K : ℝ} (hK : NormalBounded E D K) (o : Options ℝ) (sigma : ℝ) {rA rB : ℝ}
    (hA : Usable E D o.projectileA rA) (hB : Usable E D o.projectileB rB)
    (hv : 0 < o.constitWidth) (hm : 1 ≤ o.constitNumber)
    (h0 : 0 ≤ o.bMin) (hmin : o.bMin ≤ (Collider.make o sigma).bmax)
    (hstep : 0 < o.gridStep) (hmax : 0 < o.gridMax)
    (hmod : (max rA rB + (Collider.make o sigma).bmax +
      2 * (K * calcSamplingWidth o.nucleonWidth o.constitWidth o.constitNumber) +
      5 * o.constitWidth + (o.gridMax + o.gridStep)) / o.gridStep < 2147483648)
    (debug : Bool) (rfuel fuel : Nat) (ec : EventCfg ℝ) (hec : EventCfg.make o.normalization o.gridStep o.gridMax o.reducedThickness = .ok ec)
    (ev : Event ℝ ec.nsteps.toNat) (w : Rand E D) :
    (∃ rs, (Collider.make o sigma).runEvents rfuel fuel ec debug ev w = .ok rs) ∨
      (Collider.make o sigma).runEvents rfuel fuel ec debug ev w = .error .fuel := by
  obtain ⟨g1, g2, g3, g4, g5, -⟩ := C20_grid_geometry o.normalization o.gridStep o.gridMax o.reducedThickness hstep hmax.le ec hec
  have hasym := C34_offsets o.projectileA o.projectileB (C34_radius_nonneg hA.hist) (C34_radius_nonneg hB.hist) 1 (by norm_num)
  have hasym' : 0 ≤ (Collider.make o sigma).asymmetry ∧ (Collider.make o sigma).asymmetry ≤ 1 := by
    obtain ⟨-, h1, -, h3, -⟩ := hasym
    have e : (Collider.make o sigma).asymmetry = determineAsym o.projectileA o.projectileB := rfl
    rw [e]
    rw [mul_one] at h1 h3
    exact ⟨h3, (le_abs_self _).trans h1⟩
  have hcell : 1 ≤ ec.nsteps.toNat := by
    have : 0 < ec.nsteps := by rw [g1]; exact Int.ceil_pos.mpr (by positivity)
    omega
  have hnn : ec.nsteps = (ec.nsteps.toNat : ℤ) := by
    have : 0 < ec.nsteps := by rw [g1]; exact Int.ceil_pos.mpr (by positivity)
    omega
  have hsw := calcSamplingWidth_nonneg o.nucleonWidth o.constitWidth o.constitNumber
  unfold Collider.runEvents
  have main : ∀ (k num : Nat) (s : RunState ℝ E D ec.nsteps.toNat), Usable E D s.A rA → Usable E D s.B rB →
      (∃ r, runLoop rfuel fuel (Collider.make o sigma) ec debug k num s = .ok r) ∨
      runLoop rfuel fuel (Collider.make o sigma) ec debug k num s = .error .fuel := by
    intro k
    induction k with
    | zero => intro num s _ _; exact .inl ⟨_, rfl⟩
    | succ k ih =>
      intro num s uA uB
      rw [runLoop]
      rcases collisionLoop_safe hK hsw hm h0 hmin hasym' rfuel fuel s.A s.B uA uB 0 false s.rand with
        h | ⟨b, ncoll, A', B', w', h, uA', uB', pA, pB⟩
      · have h' : (Collider.make o sigma).sampleCollision rfuel fuel s.A s.B s.rand = .error .fuel := h
        rw [h']; exact .inr rfl
      · have h' : (Collider.make o sigma).sampleCollision rfuel fuel s.A s.B s.rand = .ok ((b, ncoll, A', B'), w') := h
        simp only [h']
        have hnc : (Collider.make o sigma).nc = NucleonCommon.make o.nucleonWidth o.constitWidth o.constitNumber sigma o.ncoll o.fluctuation := rfl
        have hbm : 0 ≤ (Collider.make o sigma).bmax := h0.trans hmin
        obtain ⟨ev', hev⟩ := C22_deposition_in_bounds o.nucleonWidth o.constitWidth o.constitNumber sigma o.ncoll o.fluctuation hv
          ec (by rw [g2]; exact hstep) debug ec.nsteps.toNat hnn hcell A'.nucleons B'.nucleons
          (max rA rB + (Collider.make o sigma).bmax + 2 * (K * calcSamplingWidth o.nucleonWidth o.constitWidth o.constitNumber))
          (by
            intro a ha hp
            have key : ∀ r, r ≤ max rA rB → Depositable (2 * (K * (Collider.make o sigma).nc.samplingWidth)) a →
                |a.x| ≤ r + (Collider.make o sigma).bmax → |a.y| ≤ r → a.constituents ≠ [] ∧ ∀ q ∈ a.constituents,
                0 ≤ q.fluctuation ∧ |q.x| ≤ max rA rB + (Collider.make o sigma).bmax +
                  2 * (K * calcSamplingWidth o.nucleonWidth o.constitWidth o.constitNumber) ∧
                |q.y| ≤ max rA rB + (Collider.make o sigma).bmax +
                  2 * (K * calcSamplingWidth o.nucleonWidth o.constitWidth o.constitNumber) := by
              intro r hr hd hx hy
              have hc := hd.2 (hd.1 hp)
              have esw : (Collider.make o sigma).nc.samplingWidth = calcSamplingWidth o.nucleonWidth o.constitWidth o.constitNumber := rfl
              rw [esw] at hc
              refine ⟨hc.1, ?_⟩
              intro q hq
              obtain ⟨q1, q2, q3⟩ := hc.2 q hq
              refine ⟨q1, ?_, ?_⟩
              · have := abs_add_le (q.x - a.x) a.x
                rw [sub_add_cancel] at this
                linarith
              · have := abs_add_le (q.y - a.y) a.y
                rw [sub_add_cancel] at this
                linarith
            rcases List.mem_append.mp ha with ha | ha
            · exact key rA (le_max_left _ _) (pA a ha).1 (pA a ha).2.1 (pA a ha).2.2
            · exact key rB (le_max_right _ _) (pB a ha).1 (pB a ha).2.1 (pB a ha).2.2)
          (by
            rw [g2]
            refine lt_of_le_of_lt ?_ hmod
            apply div_le_div_of_nonneg_right _ hstep.le
            have hx : |ec.xymax| ≤ o.gridMax + o.gridStep := by
              rw [abs_of_nonneg (by linarith)]
              linarith
            linarith) s.event
        rw [← hnc] at hev
        simp only [hev]
        rcases ih (num+1) ⟨A', B', ev', w'⟩ uA' uB' with ⟨r, hr⟩ | hr
        · simp only [hr]; exact .inl ⟨_, rfl⟩
        · simp only [hr]; exact .inr trivial
  rcases main (Collider.make o sigma).nevents.toNat 0
    ⟨(Collider.make o sigma).nucleusA, (Collider.make o sigma).nucleusB, ev, w⟩ hA hB with ⟨r, hr⟩ | hr
  · simp only [hr]; exact .inl ⟨_, rfl⟩
  · simp only [hr]; exact .inr trivial

/-- **C61.** Exact real arithmetic.  Take any projectiles made by `Nucleus::create` (manual files with at least one
configuration) whose nucleons stay within `rA`, `rB` of the centres, a positive constituent width, at least one constituent,
`0 ≤ b-min ≤ b-max` (the default maximum included), a grid with positive step and size whose number of cells fits an `int`,
and coordinates moderate compared with the step.  Then a run never executes undefined behaviour (index out of bounds,
conversion out of range, missing constituents …) and never throws: it delivers its records or keeps running. -/
theorem C61_no_undefined_behaviour [LawfulRng E D] {K : ℝ} (hK : NormalBounded E D K) (o : Options ℝ) (sigma : ℝ) {rA rB : ℝ}
    (hA : Usable E D o.projectileA rA) (hB : Usable E D o.projectileB rB)
    (hv : 0 < o.constitWidth) (hm : 1 ≤ o.constitNumber)
    (h0 : 0 ≤ o.bMin) (hmin : o.bMin ≤ (Collider.make o sigma).bmax)
    (hstep : 0 < o.gridStep) (hmax : 0 < o.gridMax) (hfit : 2 * o.gridMax / o.gridStep ≤ 2147483647)
    (hmod : (max rA rB + (Collider.make o sigma).bmax +
      2 * (K * calcSamplingWidth o.nucleonWidth o.constitWidth o.constitNumber) +
      5 * o.constitWidth + (o.gridMax + o.gridStep)) / o.gridStep < 2147483648)
    (debug : Bool) (rfuel fuel : Nat) (ev0 : (n : Nat) → Event ℝ n) (w : Rand E D) :
    (∃ res, runAll rfuel fuel o sigma debug ev0 w = .ok res) ∨ runAll rfuel fuel o sigma debug ev0 w = .error .fuel := by
  obtain ⟨ec, hec⟩ := C20_grid_exists o.normalization o.gridStep o.gridMax o.reducedThickness hstep hmax.le hfit
  unfold runAll
  simp only [hec]
  rcases runEvents_safe hK o sigma hA hB hv hm h0 hmin hstep hmax hmod debug rfuel fuel ec hec (ev0 ec.nsteps.toNat) (seedRand ℝ o.randomSeed w) with ⟨r, hr⟩ | hr
  · simp only [hr]; exact .inl ⟨_, rfl⟩
  · simp only [hr]; exact .inr trivial

/-- Reach of the deuteron when no uniform number below `ε > 0` is drawn. -/
theorem reach_deuteron [LawfulRng E D] {a b ε : ℝ} (ha : 0 < a) (hε : 0 < ε)
    (hcan : ∀ e : E, ε ≤ (Rng.canonical (F := ℝ) (D := D) e).1) : Reach E D (.deuteron a b) (-Real.log ε / (2*a)) := by
  intro nuc nuc' fuel off w w' hh hk hs n hn
  obtain ⟨n1, n2, x, y, z, r, w1, hns, hp1, hp2, hl, hr⟩ := C17_antipodal a b nuc nuc' hk hh fuel off w w' hs
  obtain ⟨k, hk, -, -, hrad, -⟩ := (C17_rejection_loop a b r fuel w w1).mp hl
  have hu : ∀ (k : Nat) (w : Rand E D), ε ≤ (uniformPair w k).1.1 ∧ (uniformPair w k).1.1 < 1 := by
    intro k
    induction k with
    | zero => intro w; exact ⟨hcan _, (canonical_mem w).2⟩
    | succ k ih => intro w; exact ih _
  have hu := hu k w
  have hr0 : 0 ≤ r := by
    rw [hrad]
    have := Real.log_nonpos (by linarith : 0 ≤ (uniformPair w k).1.1) hu.2.le
    exact div_nonneg (by linarith) (by linarith)
  have hr1 : r ≤ -Real.log ε / (2*a) := by
    rw [hrad]
    apply div_le_div_of_nonneg_right _ (by linarith)
    have := Real.log_le_log hε hu.1
    linarith
  have hrf : radiusFrom off n = r := by
    rw [hns] at hn
    unfold pos at hp1 hp2
    simp only [Prod.mk.injEq] at hp1 hp2
    unfold radiusFrom
    simp only [List.mem_cons, List.not_mem_nil, or_false] at hn
    have e : ∀ x' y' z' : ℝ, (x' - off)^2 + y'^2 + z'^2 = r^2 → Real.sqrt ((x' - off)^2 + y'^2 + z'^2) = r := by
      intro x' y' z' h; rw [h, Real.sqrt_sq hr0]
    rcases hn with rfl | rfl
    · rw [hp1.1, hp1.2.1, hp1.2.2]; apply e; rw [← hr]; ring
    · rw [hp2.1, hp2.2.1, hp2.2.2]; apply e; rw [← hr]; ring
  rw [hrf]; exact hr1

end
end Trento
