import Verif.Props.Collider

/-!
# Invariants of a run, for any arithmetic

What one needs to know about sampling, constituents and deposition to conclude something about every record of a run.
-/

namespace Trento
variable {F E D : Type} [Arith F] [Rng F E D]

/-- Kept by everything that happens to a nucleon after it was placed. -/
structure NucleonInvariant (E D : Type) [Rng F E D] (nc : NucleonCommon F) (P : NucleonData F → Prop) : Prop where
  sampled : ∀ (n : NucleonData F) (w : Rand E D), P n → P (nc.sampleConstituents n w).1
  participant : ∀ n : NucleonData F, n.constituentsExist = true → P n → P { n with isParticipant := true }

theorem participate_inv {nc : NucleonCommon F} {P : NucleonData F → Prop} (h : NucleonInvariant E D nc P) (A B : NucleonData F) (hA : P A) (hB : P B)
    (w : Rand E D) : P (nc.participate A B w).1.2.1 ∧ P (nc.participate A B w).1.2.2 := by
  rcases participate_cases nc A B w with ⟨h1, _⟩ | h1 | ⟨w1, p, _, h2, h3⟩
  · rw [h1]; exact ⟨hA, hB⟩
  · rw [h1]; exact ⟨hA, hB⟩
  · rw [h2, h3]
    have eA := (sampleConstituents_frame nc A w).2.2.2.2.1
    have eB := (sampleConstituents_frame nc B w1).2.2.2.2.1
    have key : ∀ n : NucleonData F, n.constituentsExist = true → P n → P { n with isParticipant := n.isParticipant || p } := by
      intro n he hn
      cases p with
      | false => rw [Bool.or_false]; exact hn
      | true => rw [Bool.or_true]; exact h.participant n he hn
    have iA := (sampleConstituents_frame nc A w).2.2.2.1
    have iB := (sampleConstituents_frame nc B w1).2.2.2.1
    rw [← iA, ← iB]
    exact ⟨key _ eA (h.sampled A w hA), key _ eB (h.sampled B w1 hB)⟩

theorem pairRow_inv {nc : NucleonCommon F} {P : NucleonData F → Prop} (h : NucleonInvariant E D nc P) (cn : Bool) (A : NucleonData F)
    (Bs : List (NucleonData F)) (n : Nat) (coll : Bool) (w : Rand E D) (hA : P A) (hB : ∀ b ∈ Bs, P b) :
    P (pairRow nc cn A Bs n coll w).1.1 ∧ (∀ b ∈ (pairRow nc cn A Bs n coll w).1.2.1, P b) ∧
      (pairRow nc cn A Bs n coll w).1.2.1.length = Bs.length := by
  induction Bs generalizing A n coll w with
  | nil => exact ⟨hA, by simp [pairRow], rfl⟩
  | cons B Bs ih =>
    rw [pairRow]
    dsimp only
    obtain ⟨p1, p2⟩ := participate_inv h A B hA (hB B (by simp)) w
    obtain ⟨q1, q2, q3⟩ := ih (nc.participate A B w).1.2.1 (if (nc.participate A B w).1.1 && cn then n + 1 else n)
      ((nc.participate A B w).1.1 || coll) (nc.participate A B w).2 p1 (fun b hb => hB b (by simp [hb]))
    refine ⟨q1, ?_, by rw [List.length_cons, List.length_cons, q3]⟩
    intro b hb
    rcases List.mem_cons.mp hb with rfl | hb
    · exact p2
    · exact q2 b hb

theorem pairLoop_inv {nc : NucleonCommon F} {P : NucleonData F → Prop} (h : NucleonInvariant E D nc P) (cn : Bool) (As Bs : List (NucleonData F))
    (n : Nat) (coll : Bool) (w : Rand E D) (hA : ∀ a ∈ As, P a) (hB : ∀ b ∈ Bs, P b) :
    (∀ a ∈ (pairLoop nc cn As Bs n coll w).1.1, P a) ∧ (∀ b ∈ (pairLoop nc cn As Bs n coll w).1.2.1, P b) ∧
      (pairLoop nc cn As Bs n coll w).1.1.length = As.length ∧ (pairLoop nc cn As Bs n coll w).1.2.1.length = Bs.length := by
  induction As generalizing Bs n coll w with
  | nil => exact ⟨by simp [pairLoop], hB, rfl, rfl⟩
  | cons A As ih =>
    rw [pairLoop]
    dsimp only
    obtain ⟨p1, p2, p3⟩ := pairRow_inv h cn A Bs n coll w (hA A (by simp)) hB
    obtain ⟨q1, q2, q3, q4⟩ := ih (pairRow nc cn A Bs n coll w).1.2.1 (pairRow nc cn A Bs n coll w).1.2.2.1
      (pairRow nc cn A Bs n coll w).1.2.2.2 (pairRow nc cn A Bs n coll w).2 (fun a ha => hA a (by simp [ha])) p2
    refine ⟨?_, q2, by rw [List.length_cons, List.length_cons, q3], by rw [q4, p3]⟩
    intro a ha
    rcases List.mem_cons.mp ha with rfl | ha
    · exact p1
    · exact q1 a ha

/-- What sampling a nucleus with offsets from a set must satisfy: errors are in `Q`, and the nucleons placed satisfy `P`. -/
def SamplingInvariant (E D : Type) [Rng F E D] (kind : Kind F) (off : F → Prop) (P : NucleonData F → Prop) (Q : Err → Prop) : Prop :=
  ∀ (nuc : Nucleus F) (rfuel : Nat) (x : F) (w : Rand E D), NucleusHistory E D nuc → nuc.kind = kind → off x →
    (∀ e, nuc.sampleNucleons rfuel x w = .error e → Q e) ∧ ∀ nuc' w', nuc.sampleNucleons rfuel x w = .ok (nuc', w') → ∀ n ∈ nuc'.nucleons, P n

theorem collisionLoop_inv {c : Collider F} {P : NucleonData F → Prop} {Q : Err → Prop} (hQ : Q .fuel) (h : NucleonInvariant E D c.nc P)
    {kA kB : Kind F}
    (hA : SamplingInvariant E D kA (fun x => ∃ w : Rand E D, x = c.asymmetry * impactFormula c.bmin c.bmax (canonical w).1) P Q)
    (hB : SamplingInvariant E D kB (fun x => ∃ w : Rand E D, x = (c.asymmetry - lit 1) * impactFormula c.bmin c.bmax (canonical w).1) P Q)
    (rfuel fuel : Nat) (A B : Nucleus F) (sA : NucleusHistory E D A) (sB : NucleusHistory E D B) (eA : A.kind = kA) (eB : B.kind = kB)
    (n : Nat) (coll : Bool) (w : Rand E D) :
    (∀ e, collisionLoop rfuel c fuel A B n coll w = .error e → Q e) ∧
    ∀ b ncoll A' B' w', collisionLoop rfuel c fuel A B n coll w = .ok ((b, ncoll, A', B'), w') →
      NucleusHistory E D A' ∧ NucleusHistory E D B' ∧ A'.kind = kA ∧ B'.kind = kB ∧ (∀ a ∈ A'.nucleons, P a) ∧ (∀ a ∈ B'.nucleons, P a) ∧
      ∃ w : Rand E D, b = impactFormula c.bmin c.bmax (canonical w).1 := by
  induction fuel generalizing A B n coll w with
  | zero => exact ⟨fun e he => by cases he; exact hQ, fun b ncoll A' B' w' he => by cases he⟩
  | succ fuel ih =>
    rw [collisionLoop]
    dsimp only
    cases hA1 : A.sampleNucleons rfuel (c.asymmetry * impactFormula c.bmin c.bmax (canonical (F := F) w).1) (canonical (F := F) w).2 with
    | error e =>
      have := (hA A rfuel _ _ sA eA ⟨w, rfl⟩).1 e hA1
      exact ⟨fun e' he => by cases he; exact this, fun b ncoll A' B' w' he => by cases he⟩
    | ok r1 =>
      obtain ⟨A1, w1⟩ := r1
      simp only
      cases hB1 : B.sampleNucleons rfuel ((c.asymmetry - lit 1) * impactFormula c.bmin c.bmax (canonical (F := F) w).1) w1 with
      | error e =>
        have := (hB B rfuel _ _ sB eB ⟨w, rfl⟩).1 e hB1
        exact ⟨fun e' he => by cases he; exact this, fun b ncoll A' B' w' he => by cases he⟩
      | ok r2 =>
        obtain ⟨B1, w2⟩ := r2
        simp only
        have pA := (hA A rfuel _ _ sA eA ⟨w, rfl⟩).2 _ _ hA1
        have pB := (hB B rfuel _ _ sB eB ⟨w, rfl⟩).2 _ _ hB1
        have kA1 := (sampleNucleons_reset sA.wf hA1).1
        have kB1 := (sampleNucleons_reset sB.wf hB1).1
        obtain ⟨q1, q2, q3, q4⟩ := pairLoop_inv h c.calcNcoll A1.nucleons B1.nucleons n coll w2 pA pB
        generalize hres : pairLoop c.nc c.calcNcoll A1.nucleons B1.nucleons n coll w2 = res at *
        have hhA : NucleusHistory E D { A1 with nucleons := res.1.1 } := .collide _ _ (.sample _ _ _ _ _ _ sA hA1) q3
        have hhB : NucleusHistory E D { B1 with nucleons := res.1.2.1 } := .collide _ _ (.sample _ _ _ _ _ _ sB hB1) q4
        split
        · refine ⟨fun e he => (by cases he), fun b ncoll A' B' w' he => ?_⟩
          simp only [Except.ok.injEq, Prod.mk.injEq] at he
          obtain ⟨⟨rfl, rfl, rfl, rfl⟩, rfl⟩ := he
          exact ⟨hhA, hhB, kA1.trans eA, kB1.trans eB, q1, q2, w, rfl⟩
        · exact ih _ _ hhA hhB (kA1.trans eA) (kB1.trans eB) _ _ _

/-- Every record of a run, and every way it can fail. -/
theorem runLoop_inv {c : Collider F} {ec : EventCfg F} {debug : Bool} {n : Nat} {P : NucleonData F → Prop} {Q : Err → Prop} {R : Event F n → Prop}
    (hQ : Q .fuel) (h : NucleonInvariant E D c.nc P) {kA kB : Kind F}
    (hA : SamplingInvariant E D kA (fun x => ∃ w : Rand E D, x = c.asymmetry * impactFormula c.bmin c.bmax (canonical w).1) P Q)
    (hB : SamplingInvariant E D kB (fun x => ∃ w : Rand E D, x = (c.asymmetry - lit 1) * impactFormula c.bmin c.bmax (canonical w).1) P Q)
    (hC : ∀ (ev : Event F n) (A B : List (NucleonData F)), (∀ a ∈ A, P a) → (∀ a ∈ B, P a) →
      (∀ e, ev.compute ec c.nc debug A B = .error e → Q e) ∧ ∀ ev', ev.compute ec c.nc debug A B = .ok ev' → R ev')
    (rfuel fuel k num : Nat) (s : RunState F E D n) (sA : NucleusHistory E D s.A) (sB : NucleusHistory E D s.B) (eA : s.A.kind = kA) (eB : s.B.kind = kB) :
    (∀ e, runLoop rfuel fuel c ec debug k num s = .error e → Q e) ∧
    ∀ rs s', runLoop rfuel fuel c ec debug k num s = .ok (rs, s') →
      ∀ rec ∈ rs, R rec.event ∧ ∃ w : Rand E D, rec.b = impactFormula c.bmin c.bmax (canonical w).1 := by
  induction k generalizing num s with
  | zero =>
    refine ⟨fun e he => (by cases he), fun rs s' he => ?_⟩
    simp only [runLoop, Except.ok.injEq, Prod.mk.injEq] at he
    rw [← he.1]; simp
  | succ k ih =>
    rw [runLoop]
    obtain ⟨c1, c2⟩ := collisionLoop_inv hQ h hA hB rfuel fuel s.A s.B sA sB eA eB 0 false s.rand
    cases hs : c.sampleCollision rfuel fuel s.A s.B s.rand with
    | error e =>
      have := c1 e hs
      exact ⟨fun e' he => by cases he; exact this, fun rs s' he => by cases he⟩
    | ok r =>
      obtain ⟨⟨b, ncoll, A', B'⟩, w'⟩ := r
      obtain ⟨hA', hB', eA', eB', pA, pB, hb⟩ := c2 b ncoll A' B' w' hs
      simp only
      obtain ⟨d1, d2⟩ := hC s.event A'.nucleons B'.nucleons pA pB
      cases hev : s.event.compute ec c.nc debug A'.nucleons B'.nucleons with
      | error e =>
        have := d1 e hev
        exact ⟨fun e' he => by cases he; exact this, fun rs s' he => by cases he⟩
      | ok ev' =>
        simp only
        obtain ⟨i1, i2⟩ := ih (num+1) ⟨A', B', ev', w'⟩ hA' hB' eA' eB'
        cases hr : runLoop rfuel fuel c ec debug k (num+1) ⟨A', B', ev', w'⟩ with
        | error e =>
          have := i1 e hr
          exact ⟨fun e' he => by cases he; exact this, fun rs s' he => by cases he⟩
        | ok r =>
          simp only
          refine ⟨fun e' he => (by cases he), fun rs s' he => ?_⟩
          simp only [Except.ok.injEq, Prod.mk.injEq] at he
          rw [← he.1]
          intro rec hrec
          rcases List.mem_cons.mp hrec with rfl | hrec
          · exact ⟨d2 _ hev, hb⟩
          · exact i2 _ _ hr rec hrec

/-- Every record of a run comes from a collision whose nucleons satisfy the invariant. -/
theorem runLoop_records_inv {c : Collider F} {ec : EventCfg F} {debug : Bool} {n : Nat} {P : NucleonData F → Prop}
    (h : NucleonInvariant E D c.nc P) {kA kB : Kind F}
    (hA : SamplingInvariant E D kA (fun x => ∃ w : Rand E D, x = c.asymmetry * impactFormula c.bmin c.bmax (canonical w).1) P (fun _ => True))
    (hB : SamplingInvariant E D kB (fun x => ∃ w : Rand E D, x = (c.asymmetry - lit 1) * impactFormula c.bmin c.bmax (canonical w).1) P (fun _ => True))
    (rfuel fuel k num : Nat) (s s' : RunState F E D n) (rs : List (EventRecord F n)) (sA : NucleusHistory E D s.A) (sB : NucleusHistory E D s.B)
    (eA : s.A.kind = kA) (eB : s.B.kind = kB) (hr : runLoop rfuel fuel c ec debug k num s = .ok (rs, s')) :
    ∀ rec ∈ rs, ∃ A B : Nucleus F, CollisionOf E D c rec.b rec.ncoll A B ∧ A.nucleons.length = s.A.nucleons.length ∧
      B.nucleons.length = s.B.nucleons.length ∧ (∀ a ∈ A.nucleons, P a) ∧ (∀ b ∈ B.nucleons, P b) ∧
      ∀ ev : Event F n, ev.compute ec c.nc debug A.nucleons B.nucleons = .ok rec.event := by
  induction k generalizing num s s' rs with
  | zero =>
    simp only [runLoop, Except.ok.injEq, Prod.mk.injEq] at hr
    rw [← hr.1]; simp
  | succ k ih =>
    rw [runLoop] at hr
    split at hr
    · cases hr
    · rename_i b ncoll A B w hsc
      split at hr
      · cases hr
      · rename_i ev hev
        split at hr
        · cases hr
        · rename_i rs' s2 hrl
          simp only [Except.ok.injEq, Prod.mk.injEq] at hr
          obtain ⟨hcol, hhA, hhB, hlA, hlB, hkA, hkB⟩ := collisionLoop_spec rfuel c fuel s.A s.B A B sA sB s.rand w b ncoll hsc
          obtain ⟨-, c2⟩ := collisionLoop_inv (Q := fun _ => True) trivial h hA hB rfuel fuel s.A s.B sA sB eA eB 0 false s.rand
          obtain ⟨-, -, -, -, pA, pB, -⟩ := c2 b ncoll A B w hsc
          have ih1 := ih (num+1) ⟨A, B, ev, w⟩ s2 rs' hhA hhB (hkA.trans eA) (hkB.trans eB) hrl
          rw [← hr.1]
          intro rec hrec
          rcases List.mem_cons.mp hrec with rfl | hrec
          · exact ⟨A, B, hcol, hlA, hlB, pA, pB, fun ev2 => (C24_history_independent _ _ _ _ ev2 s.event _ _).trans hev⟩
          · obtain ⟨A', B', h1, h2, h3, h4, h5, h6⟩ := ih1 rec hrec
            exact ⟨A', B', h1, h2.trans hlA, h3.trans hlB, h4, h5, h6⟩

/-- The same for a whole run. -/
theorem runAll_records_inv (o : Options F) (sigma : F) (debug : Bool) {P : NucleonData F → Prop} (h : NucleonInvariant E D (Collider.make o sigma).nc P)
    (hP : ∀ n : NucleonData F, n.isParticipant = false → n.constituentsExist = false → P n)
    (sA : NucleusHistory E D o.projectileA) (sB : NucleusHistory E D o.projectileB) (rfuel fuel : Nat) (ev0 : (n : Nat) → Event F n) (w : Rand E D) (n : ℕ)
    (rs : List (EventRecord F n)) (hr : runAll rfuel fuel o sigma debug ev0 w = .ok ⟨n, rs⟩) :
    ∃ ec, EventCfg.make o.normalization o.gridStep o.gridMax o.reducedThickness = .ok ec ∧ ec.nsteps = (n:ℤ) ∧
    ∀ rec ∈ rs, ∃ A B : Nucleus F, CollisionOf E D (Collider.make o sigma) rec.b rec.ncoll A B ∧ A.nucleons.length = o.projectileA.nucleons.length ∧
      B.nucleons.length = o.projectileB.nucleons.length ∧ (∀ a ∈ A.nucleons, P a) ∧ (∀ b ∈ B.nucleons, P b) ∧
      ∀ ev : Event F n, ev.compute ec (Collider.make o sigma).nc debug A.nucleons B.nucleons = .ok rec.event := by
  unfold runAll at hr
  cases hec : EventCfg.make o.normalization o.gridStep o.gridMax o.reducedThickness with
  | error e => simp only [hec] at hr; cases hr
  | ok ec =>
    have g3 : ec.nsteps = (ec.nsteps.toNat : ℤ) := by
      unfold EventCfg.make at hec
      split at hec
      · cases hec
      · split at hec
        · cases hec
        · cases hec; dsimp only; omega
    simp only [hec] at hr
    unfold Collider.runEvents at hr
    have hS : ∀ (kind : Kind F) (off : F → Prop), SamplingInvariant E D kind off P (fun _ => True) := by
      intro kind off nuc rfuel x w hh hk hx
      refine ⟨fun _ _ => trivial, ?_⟩
      intro nuc' w' hs n hn
      have := (C12_sampling_resets nuc nuc' hh _ _ _ _ hs).2 n hn
      exact hP n this.1 this.2
    cases hrl : runLoop rfuel fuel (Collider.make o sigma) ec debug (Collider.make o sigma).nevents.toNat 0
        ⟨(Collider.make o sigma).nucleusA, (Collider.make o sigma).nucleusB, ev0 ec.nsteps.toNat, seedRand F o.randomSeed w⟩ with
    | error e => simp only [hrl] at hr; cases hr
    | ok r =>
      obtain ⟨rs', s'⟩ := r
      simp only [hrl, Except.ok.injEq, Sigma.mk.injEq] at hr
      obtain ⟨rfl, hr⟩ := hr
      rw [heq_eq_eq] at hr
      subst hr
      refine ⟨ec, rfl, g3, ?_⟩
      exact runLoop_records_inv h (hS o.projectileA.kind _) (hS o.projectileB.kind _) rfuel fuel _ 0 _ s' _ sA sB rfl rfl hrl

end Trento
