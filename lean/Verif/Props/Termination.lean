import Verif.Props.Collider

/-!
# Termination: fuel, unreachable impact parameters (C39, C62, C63)

The rejection loops of the code are unbounded; the model runs them with fuel and reports `Err.fuel` when it is used up.  The
first part shows that fuel is only a device: a run that ends (with a result, an exception or undefined behaviour) ends in the
same way with any larger amount of fuel.  The second part uses "for no amount of fuel" as "never".
-/

namespace Trento
open Spec

section fuel
variable {F E D : Type} [Arith F] [Rng F E D]

/-- A computation that depends on fuel has ended at `f` and gives the same outcome for more fuel. -/
def Spec.Settles {α : Type} (run : Nat → Res α) : Prop :=
  ∀ f f', f ≤ f' → run f ≠ .error .fuel → run f' = run f

theorem settles_of_step {α : Type} {run : Nat → Res α} (h : ∀ f, run f ≠ .error .fuel → run (f+1) = run f) : Settles run := by
  intro f f' hle hne
  induction hle with
  | refl => rfl
  | @step m hm ih => rw [h m (by rw [ih]; exact hne), ih]

theorem deuteronLoop_settles (a b : F) (w : Rand E D) : Settles fun f => deuteronLoop a b f w := by
  apply settles_of_step
  intro f
  induction f generalizing w with
  | zero => intro h; exact absurd rfl h
  | succ f ih =>
    intro h
    rw [deuteronLoop] at h
    rw [deuteronLoop, deuteronLoop]
    dsimp only at h ⊢
    split
    · rename_i hc
      simp only [hc, if_true] at h
      exact ih _ h
    · rfl

theorem deformedReject_settles (R a b2 b4 rmax : F) (w : Rand E D) : Settles fun f => deformedReject R a b2 b4 rmax f w := by
  apply settles_of_step
  intro f
  induction f generalizing w with
  | zero => intro h; exact absurd rfl h
  | succ f ih =>
    intro h
    rw [deformedReject] at h
    rw [deformedReject, deformedReject]
    dsimp only at h ⊢
    split
    · rename_i hc
      simp only [hc, if_true] at h
      exact ih _ h
    · rfl

theorem drawDeformed_settles (R a b2 b4 rmax : F) (k : Nat) (w : Rand E D) :
    Settles fun f => drawDeformed f R a b2 b4 rmax k w := by
  induction k generalizing w with
  | zero => intro f f' _ _; rfl
  | succ k ih =>
    intro f f' hle h
    dsimp only at h ⊢
    rw [drawDeformed] at h
    rw [drawDeformed, drawDeformed]
    have h1 : deformedReject R a b2 b4 rmax f w ≠ .error .fuel := by
      intro hc; rw [hc] at h; exact h rfl
    have e1 := deformedReject_settles R a b2 b4 rmax w f f' hle h1
    dsimp only at e1
    rw [e1]
    cases hd : deformedReject R a b2 b4 rmax f w with
    | error e => rfl
    | ok r =>
      rw [hd] at h
      dsimp only at h ⊢
      have h2 : drawDeformed f R a b2 b4 rmax k r.2 ≠ .error .fuel := by
        intro hc; rw [hc] at h; exact h rfl
      have := ih r.2 f f' hle h2
      dsimp only at this
      rw [this]

theorem sampleNucleons_settles (nuc : Nucleus F) (offset : F) (w : Rand E D) :
    Settles fun f => nuc.sampleNucleons f offset w := by
  intro f f' hle h
  dsimp only at h ⊢
  unfold Nucleus.sampleNucleons at h ⊢
  cases hk : nuc.kind with
  | proton => rfl
  | woodsSaxon R a d => rfl
  | manual c r => rfl
  | deuteron a b =>
    simp only [hk] at h ⊢
    unfold sampleDeuteron at h ⊢
    have h1 : deuteronLoop a b f w ≠ .error .fuel := by
      intro hc; rw [hc] at h; exact h rfl
    have := deuteronLoop_settles a b w f f' hle h1
    dsimp only at this
    rw [this]
  | deformed R a b2 b4 rmax d =>
    simp only [hk] at h ⊢
    unfold sampleDeformed at h ⊢
    dsimp only at h ⊢
    have h1 : drawDeformed f R a b2 b4 rmax nuc.nucleons.length (drawTiltSpin (F := F) w).2 ≠ .error .fuel := by
      intro hc; rw [hc] at h; exact h rfl
    have := drawDeformed_settles R a b2 b4 rmax nuc.nucleons.length (drawTiltSpin (F := F) w).2 f f' hle h1
    dsimp only at this
    rw [this]

theorem collisionLoop_settles (c : Collider F) (r r' : Nat) (hr : r ≤ r') (f f' : Nat) (hf : f ≤ f') (A B : Nucleus F) (n : Nat)
    (coll : Bool) (w : Rand E D) (h : collisionLoop r c f A B n coll w ≠ .error .fuel) :
    collisionLoop r' c f' A B n coll w = collisionLoop r c f A B n coll w := by
  induction f generalizing f' A B n coll w with
  | zero => exact absurd rfl h
  | succ f ih =>
    obtain ⟨g, rfl⟩ : ∃ g, f' = g + 1 := ⟨f' - 1, by omega⟩
    rw [collisionLoop] at h
    rw [collisionLoop, collisionLoop]
    dsimp only at h ⊢
    have h1 : A.sampleNucleons r (c.asymmetry * impactFormula c.bmin c.bmax (canonical w).1) (canonical (F := F) w).2 ≠ .error .fuel := by
      intro hc; rw [hc] at h; exact h rfl
    have e1 := sampleNucleons_settles A _ _ r r' hr h1
    dsimp only at e1
    rw [e1]
    cases hA : A.sampleNucleons r (c.asymmetry * impactFormula c.bmin c.bmax (canonical w).1) (canonical (F := F) w).2 with
    | error e => rfl
    | ok A1 =>
      obtain ⟨A1, w1⟩ := A1
      simp only [hA] at h ⊢
      have h2 : B.sampleNucleons r ((c.asymmetry - lit 1) * impactFormula c.bmin c.bmax (canonical w).1) w1 ≠ .error .fuel := by
        intro hc; rw [hc] at h; exact h rfl
      have e2 := sampleNucleons_settles B _ _ r r' hr h2
      dsimp only at e2
      rw [e2]
      cases hB : B.sampleNucleons r ((c.asymmetry - lit 1) * impactFormula c.bmin c.bmax (canonical w).1) w1 with
      | error e => rfl
      | ok B1 =>
        obtain ⟨B1, w2⟩ := B1
        simp only [hB] at h ⊢
        split
        · rfl
        · rename_i hc
          rw [if_neg hc] at h
          exact ih g (by omega) _ _ _ _ _ h

theorem runLoop_settles (c : Collider F) (ec : EventCfg F) (debug : Bool) {n : Nat} (r r' : Nat) (hr : r ≤ r') (f f' : Nat)
    (hf : f ≤ f') (k num : Nat) (s : RunState F E D n) (h : runLoop r f c ec debug k num s ≠ .error .fuel) :
    runLoop r' f' c ec debug k num s = runLoop r f c ec debug k num s := by
  induction k generalizing num s with
  | zero => rfl
  | succ k ih =>
    rw [runLoop] at h
    rw [runLoop, runLoop]
    have h1 : c.sampleCollision r f s.A s.B s.rand ≠ .error .fuel := by
      intro hc; rw [hc] at h; exact h rfl
    have e1 : c.sampleCollision r' f' s.A s.B s.rand = c.sampleCollision r f s.A s.B s.rand :=
      collisionLoop_settles c r r' hr f f' hf _ _ _ _ _ h1
    rw [e1]
    cases hc : c.sampleCollision r f s.A s.B s.rand with
    | error e => rfl
    | ok x =>
      obtain ⟨⟨b, ncoll, A, B⟩, w⟩ := x
      simp only [hc] at h ⊢
      cases hev : s.event.compute ec c.nc debug A.nucleons B.nucleons with
      | error e => rfl
      | ok ev =>
        simp only [hev] at h ⊢
        rw [ih (num+1) ⟨A, B, ev, w⟩ (by intro hc; rw [hc] at h; exact h rfl)]

/-- **C63.** For every arithmetic and random source: a run that ends does so independently of the fuel — with more fuel it gives
the same outcome (the same records, the same exception or the same undefined behaviour).  So a run has at most one outcome
other than "not finished". -/
theorem C63_outcome_unique (o : Options F) (sigma : F) (debug : Bool) (ev0 : (n : Nat) → Event F n) (w : Rand E D)
    (r f r' f' : Nat) (h : runAll r f o sigma debug ev0 w ≠ .error .fuel) (h' : runAll r' f' o sigma debug ev0 w ≠ .error .fuel) :
    runAll r f o sigma debug ev0 w = runAll r' f' o sigma debug ev0 w := by
  have key : ∀ r f r' f', r ≤ r' → f ≤ f' → runAll r f o sigma debug ev0 w ≠ .error .fuel →
      runAll r' f' o sigma debug ev0 w = runAll r f o sigma debug ev0 w := by
    intro r f r' f' hr hf h
    unfold runAll Collider.runEvents at h ⊢
    split
    · rfl
    · rename_i ec hec
      simp only [hec] at h
      rw [runLoop_settles (Collider.make o sigma) ec debug r r' hr f f' hf]
      intro hc
      rw [hc] at h
      exact h rfl
  rw [← key r f (max r r') (max f f') (le_max_left _ _) (le_max_left _ _) h,
    ← key r' f' (max r r') (max f f') (le_max_right _ _) (le_max_right _ _) h']

end fuel

/-! ## Unreachable impact parameters -/

section real
variable {E D : Type} [Rng ℝ E D]

/-- No nucleon of a nucleus of this kind is ever placed farther than `r` from the centre (the nucleus, having gone through any
history of sampling and collisions, is sampled with any offset and random state). -/
def Spec.Reach (E D : Type) [Rng ℝ E D] (kind : Kind ℝ) (r : ℝ) : Prop :=
  ∀ (nuc nuc' : Nucleus ℝ) (fuel : Nat) (b : ℝ) (w w' : Rand E D), NucleusHistory E D nuc → nuc.kind = kind →
    nuc.sampleNucleons fuel b w = .ok (nuc', w') → ∀ n ∈ nuc'.nucleons, radiusFrom b n ≤ r

theorem reach_proton : Reach E D .proton 0 := by
  intro nuc nuc' fuel b w w' hh hk h n hn
  have hw := hh.wf
  unfold Nucleus.WF at hw
  rw [hk] at hw
  unfold Nucleus.sampleNucleons at h
  rw [hk] at h
  simp only [Except.ok.injEq, Prod.mk.injEq] at h
  rw [← h.1] at hn
  simp only at hn hw
  match hns : nuc.nucleons, hw with
  | [m], _ =>
    rw [hns] at hn
    simp only [sampleProton, List.mem_cons, List.not_mem_nil, or_false] at hn
    subst hn
    unfold radiusFrom setNucleonPosition NucleonData.setPosition
    simp

theorem reach_woodsSaxon [LawfulRng E D] (R a d : ℝ) (h : 0 ≤ R + 10 * a) : Reach E D (.woodsSaxon R a d) (R + 10 * a) :=
  fun nuc nuc' fuel b w w' _ hk hs => (C14_woods_saxon_radii R a d h nuc nuc' hk fuel b w w' hs).2.2

theorem reach_deformed [LawfulRng E D] (R a b2 b4 rmax d : ℝ) (hr : 0 ≤ rmax) : Reach E D (.deformed R a b2 b4 rmax d) rmax := by
  intro nuc nuc' fuel b w w' _ hk hs n hn
  obtain ⟨drawn, sorted, w2, h1, h2, -, h4, -⟩ := C14_C16_deformed R a b2 b4 rmax d hr nuc nuc' hk fuel b w w' hs
  have : radiusFrom b n ∈ nuc'.nucleons.map (radiusFrom b) := List.mem_map_of_mem hn
  rw [h4] at this
  obtain ⟨s, hs, he⟩ := List.mem_map.mp this
  rw [← he]
  exact (drawDeformed_mem hr h1 s (h2.mem_iff.mp hs)).2.1

theorem reach_manual [LawfulRng E D] (configs : List (List (ℝ × ℝ × ℝ))) (rmax r : ℝ)
    (hr : ∀ c ∈ configs, ∀ p ∈ c, Real.sqrt (p.1^2 + p.2.1^2 + p.2.2^2) ≤ r) : Reach E D (.manual configs rmax) r := by
  intro nuc nuc' fuel b w w' hh hk hs n hn
  obtain ⟨M, hM, config, hc, he⟩ := C16_manual_rigid configs rmax nuc nuc' hh hk fuel b w w' hs
  have : relPos b n ∈ nuc'.nucleons.map (relPos b) := List.mem_map_of_mem hn
  rw [he] at this
  obtain ⟨p, hp, he⟩ := List.mem_map.mp this
  have h1 : radiusFrom b n = Real.sqrt (∑ i, (relPos b n i)^2) := by
    simp [radiusFrom, relPos, Fin.sum_univ_three]
  have h5 := rotation_preserves_distance hM (vec p) 0
  rw [Matrix.mulVec_zero] at h5
  simp only [Pi.zero_apply, sub_zero] at h5
  rw [h1, ← he, h5]
  have h6 : ∑ i, (vec p i)^2 = p.1^2 + p.2.1^2 + p.2.2^2 := by simp [vec, Fin.sum_univ_three]
  rw [h6]
  exact hr config hc p hp

theorem transverse_le_radiusFrom (b : ℝ) (n : NucleonData ℝ) : |n.x - b| ≤ radiusFrom b n := by
  unfold radiusFrom
  exact Real.abs_le_sqrt (by nlinarith [sq_nonneg n.y, sq_nonneg n.z])

/-- A collision at impact parameter `b` needs `b ≤ reachA + reachB + 6w`. -/
theorem collision_reach {o : Options ℝ} {sigma : ℝ} (hw : 0 ≤ o.nucleonWidth) {b : ℝ} {ncoll : Nat} {A B : Nucleus ℝ} {rA rB : ℝ}
    (hA : Reach E D A.kind rA) (hB : Reach E D B.kind rB) (h : CollisionOf E D (Collider.make o sigma) b ncoll A B) :
    b ≤ rA + rB + 6 * o.nucleonWidth := by
  obtain ⟨-, rfuel, A0, B0, A1, B1, w0, w1, w2, M, hA0, hB0, hA1, hB1, eA, eB, hM, hret, -⟩ := h
  have hfA := (C12_sampling_resets A0 A1 hA0 _ _ _ _ hA1).2
  obtain ⟨i, j, row, hi, hj⟩ := hM.exists_hit (fun a ha => (hfA a ha).1) hret
  obtain ⟨a, b', a', b'', h1, h2, -, -, -, -, -, -, h9⟩ := hM.hit_participants hi hj
  have kA : A.kind = A0.kind := by rw [eA]; exact (sampleNucleons_reset hA0.wf hA1).1
  have kB : B.kind = B0.kind := by rw [eB]; exact (sampleNucleons_reset hB0.wf hB1).1
  have qA := hA A0 A1 _ _ _ _ hA0 kA.symm hA1 a (List.mem_of_getElem? h1)
  have qB := hB B0 B1 _ _ _ _ hB0 kB.symm hB1 b' (List.mem_of_getElem? h2)
  have tA := (transverse_le_radiusFrom _ a).trans qA
  have tB := (transverse_le_radiusFrom _ b').trans qB
  have h9 := (C36_inRange_iff _ _ _ _ _ _ hw a b').mp h9
  have h10 : |a.x - b'.x| ≤ 6 * o.nucleonWidth := (Real.abs_le_sqrt (by nlinarith [sq_nonneg (a.y - b'.y)])).trans h9
  rw [abs_le] at tA tB h10
  simp only [lit_real] at tB
  push_cast at tB
  linarith [tA.1, tB.2, h10.1, h10.2, tA.2, tB.1]

/-- **C62.** For nuclei of bounded extent `rA`, `rB` (all types but the deuteron) and `b-min > rA + rB + 6w`, no run with at least
one event ever produces its output: no amount of fuel gives a list of records. -/
theorem C62_out_of_reach_never_returns [LawfulRng E D] {o : Options ℝ} {sigma : ℝ} (hA : NucleusHistory E D o.projectileA)
    (hB : NucleusHistory E D o.projectileB) (hw : 0 ≤ o.nucleonWidth) {rA rB : ℝ}
    (rchA : Reach E D o.projectileA.kind rA) (rchB : Reach E D o.projectileB.kind rB)
    (h0 : 0 ≤ o.bMin) (hmin : rA + rB + 6 * o.nucleonWidth < o.bMin) (hmax : o.bMin ≤ o.bMax) (hN : 0 < o.numberEvents)
    (rfuel fuel : Nat) (ec : EventCfg ℝ) (debug : Bool) {n : Nat} (ev : Event ℝ n) (w : Rand E D)
    (rs : List (EventRecord ℝ n)) : (Collider.make o sigma).runEvents rfuel fuel ec debug ev w ≠ .ok rs := by
  intro h
  have hc : (Collider.make o sigma).Valid E D := ⟨hA, hB, rfl⟩
  have hlen := (C40_records_in_order hc h).2
  have hne : rs ≠ [] := by
    rintro rfl
    have : (0:ℕ) = o.numberEvents.toNat := hlen
    omega
  obtain ⟨rec, hrec⟩ := List.exists_mem_of_ne_nil rs hne
  obtain ⟨A, B, hcol, -, -, kA, kB, -⟩ := (runEvents_records hc h).2 rec hrec
  have hb : (Collider.make o sigma).bmax = o.bMax := (C35_bmax o hw sigma).1 (by linarith)
  have hr := C33_events_in_range hc h0 (by rw [hb]; exact hmax) h rec hrec
  have := collision_reach hw (by rw [kA]; exact rchA) (by rw [kB]; exact rchB) hcol
  have hbm : o.bMin ≤ rec.b := hr.1
  linarith

theorem list_bounded {α : Type} (f : α → ℝ) (l : List α) : ∃ r, ∀ x ∈ l, f x ≤ r := by
  induction l with
  | nil => exact ⟨0, by simp⟩
  | cons a l ih =>
    obtain ⟨r, hr⟩ := ih
    refine ⟨max (f a) r, ?_⟩
    intro x hx
    rcases List.mem_cons.mp hx with rfl | hx
    · exact le_max_left _ _
    · exact (hr x hx).trans (le_max_right _ _)

/-- What `Nucleus::create` can return. -/
theorem createNucleus_cases {hdf5 : Bool} {disk : String → H5View ℝ} {species : String} {dmin : ℝ}
    {nuc : Nucleus ℝ} (h : createNucleus hdf5 disk species dmin = .ok nuc) :
    nuc = mkProton ∨ (species = "d" ∧ nuc = mkDeuteron (lit 0.457) (lit 2.35)) ∨
    (∃ A R a, 0 < R ∧ 0 < a ∧ nuc = mkWoodsSaxon A R a dmin) ∨
    (∃ A R a b2 b4, 0 < R ∧ 0 < a ∧ nuc = mkDeformed A R a b2 b4 dmin) ∨
    ∃ configs rmax A, 0 ≤ rmax ∧ nuc = Nucleus.ofKind (.manual configs rmax) A := by
  by_cases hs : species ∈ Spec.speciesTable.map Prod.fst
  · unfold Spec.speciesTable at hs
    simp only [List.map_cons, List.map_nil, List.mem_cons, List.not_mem_nil, or_false] at hs
    rcases hs with rfl | rfl | rfl | rfl | rfl | rfl | rfl | rfl | rfl | rfl | rfl | rfl <;>
    (injection h with h; subst h)
    · exact .inl rfl
    · exact .inr (.inl ⟨rfl, rfl⟩)
    all_goals first
      | (refine .inr (.inr (.inl ⟨_, _, _, ?_, ?_, rfl⟩)) <;> (rw [lit_real]; norm_num))
      | (refine .inr (.inr (.inr (.inl ⟨_, _, _, _, _, ?_, ?_, rfl⟩))) <;> (rw [lit_real]; norm_num))
  · obtain ⟨h1, h2⟩ := C11_other_strings hdf5 disk dmin species hs
    by_cases hf : filenameIsHdf5 species = true ∧ hdf5 = true
    · rw [h1 hf.1 hf.2] at h
      unfold manualCreate at h
      split at h
      · cases h
      · cases h
      · split at h
        · cases h
        · split at h
          · cases h
          · split at h
            · cases h
            · split at h
              · cases h
              · dsimp only at h
                split at h
                · cases h
                · injection h with h
                  exact .inr (.inr (.inr (.inr ⟨_, _, _, Real.sqrt_nonneg _, h.symm⟩)))
        · cases h
    · obtain ⟨msg, h2⟩ := h2 hf
      rw [h2] at h; cases h

/-- **C62, applicability.** Every nucleus `Nucleus::create` makes, except the deuteron, has a finite extent. -/
theorem C62_reach_of_species [LawfulRng E D] {hdf5 : Bool} {disk : String → H5View ℝ} {species : String} {dmin : ℝ}
    {nuc : Nucleus ℝ} (h : createNucleus hdf5 disk species dmin = .ok nuc) (hd : species ≠ "d") :
    ∃ r, Reach E D nuc.kind r := by
  rcases createNucleus_cases h with rfl | ⟨hs, -⟩ | ⟨A, R, a, hR, ha, rfl⟩ | ⟨A, R, a, b2, b4, hR, ha, rfl⟩ | ⟨c, rmax, A, -, rfl⟩
  · exact ⟨0, reach_proton⟩
  · exact absurd hs hd
  · exact ⟨_, reach_woodsSaxon R a _ (by positivity)⟩
  · refine ⟨_, reach_deformed R a b2 b4 _ _ ?_⟩
    simp only [lit_real, fabs_real]
    push_cast
    positivity
  · obtain ⟨r, hr⟩ := list_bounded (fun p : ℝ × ℝ × ℝ => Real.sqrt (p.1^2 + p.2.1^2 + p.2.2^2)) c.flatten
    exact ⟨r, reach_manual c rmax r fun cfg hc p hp => hr p (List.mem_flatten.mpr ⟨cfg, hc, hp⟩)⟩

/-! ## C39 -/

/-- The state of the two protons between attempts: one nucleon each. -/
theorem sampleProton_ok (nuc : Nucleus ℝ) (hk : nuc.kind = .proton) (fuel : Nat) (b : ℝ) (w : Rand E D) :
    nuc.sampleNucleons fuel b w = .ok ({ nuc with nucleons := sampleProton b nuc.nucleons, offset := b }, w) := by
  unfold Nucleus.sampleNucleons; rw [hk]

theorem C39_attempt_fails [LawfulRng E D] (o : Options ℝ) (sigma : ℝ) (hw : 0 ≤ o.nucleonWidth)
    (hmin : 6 * o.nucleonWidth < o.bMin) (hmax : o.bMin ≤ o.bMax) (rfuel fuel : Nat) (A B : Nucleus ℝ)
    (hA : NucleusHistory E D A) (hB : NucleusHistory E D B) (kA : A.kind = .proton) (kB : B.kind = .proton) (w : Rand E D) :
    (Collider.make o sigma).sampleCollision rfuel fuel A B w = .error .fuel := by
  cases hres : (Collider.make o sigma).sampleCollision rfuel fuel A B w with
  | error e =>
    -- the only error is exhausted fuel
    unfold Collider.sampleCollision at hres
    have : ∀ (fuel : Nat) (A B : Nucleus ℝ) (n : Nat) (coll : Bool) (w : Rand E D), A.kind = .proton → B.kind = .proton →
        collisionLoop rfuel (Collider.make o sigma) fuel A B n coll w = .error e → e = .fuel := by
      intro fuel
      induction fuel with
      | zero => intro A B n coll w _ _ h; cases h; rfl
      | succ fuel ih =>
        intro A B n coll w kA kB h
        rw [collisionLoop] at h
        dsimp only at h
        rw [sampleProton_ok A kA] at h
        dsimp only at h
        rw [sampleProton_ok B kB] at h
        dsimp only at h
        split at h
        · cases h
        · exact ih _ _ _ _ _ (by exact kA) (by exact kB) h
    rw [this fuel A B 0 false w kA kB hres]
  | ok r =>
    exfalso
    obtain ⟨⟨b, ncoll, A', B'⟩, w'⟩ := r
    obtain ⟨hcol, -, -, -, -, k1, k2⟩ := collisionLoop_spec rfuel _ fuel A B A' B' hA hB w w' b ncoll hres
    have h1 := collision_reach hw (rA := 0) (rB := 0) (by rw [k1, kA]; exact reach_proton)
      (by rw [k2, kB]; exact reach_proton) hcol
    obtain ⟨⟨w0, hb⟩, -⟩ := hcol
    have hu := canonical_mem w0
    have hbm : (Collider.make o sigma).bmax = o.bMax := (C35_bmax o hw sigma).1 (by linarith)
    have h2 := (C33_impact_range (bmin := o.bMin) (bmax := o.bMax) (by linarith) hmax hu.1 hu.2).1
    rw [hbm] at hb
    have hb' : b = impactFormula o.bMin o.bMax (canonical (F := ℝ) w0).1 := hb
    rw [← hb'] at h2
    linarith

/-- **C39.** Proton–proton with `b-min > 6w` (and `b-max ≥ b-min`): for every random sequence and every number of attempts the
loop is still running, so with at least one event requested the run never ends. -/
theorem C39_pp_never_returns [LawfulRng E D] (o : Options ℝ) (sigma : ℝ) (hA : o.projectileA = mkProton)
    (hB : o.projectileB = mkProton) (hw : 0 ≤ o.nucleonWidth)
    (hmin : 6 * o.nucleonWidth < o.bMin) (hmax : o.bMin ≤ o.bMax) (hN : 0 < o.numberEvents) (rfuel fuel : Nat) (debug : Bool)
    (ec : EventCfg ℝ) (hec : EventCfg.make o.normalization o.gridStep o.gridMax o.reducedThickness = .ok ec)
    (ev0 : (n : Nat) → Event ℝ n) (w : Rand E D) :
    runAll rfuel fuel o sigma debug ev0 w = .error .fuel := by
  have hh : NucleusHistory E D (mkProton : Nucleus ℝ) := .create false (fun _ => .missing) "p" 0 _ rfl
  have h1 : (Collider.make o sigma).sampleCollision rfuel fuel mkProton mkProton (seedRand ℝ o.randomSeed w) = .error .fuel :=
    C39_attempt_fails o sigma hw hmin hmax rfuel fuel mkProton mkProton hh hh rfl rfl _
  unfold runAll Collider.runEvents
  simp only [hec]
  obtain ⟨k, hk⟩ : ∃ k, (Collider.make o sigma).nevents.toNat = k + 1 := by
    refine ⟨o.numberEvents.toNat - 1, ?_⟩
    show o.numberEvents.toNat = _
    omega
  rw [hk, runLoop]
  have hA' : (Collider.make o sigma).nucleusA = mkProton := hA
  have hB' : (Collider.make o sigma).nucleusB = mkProton := hB
  simp only [hA', hB', h1]

end real
end Trento
