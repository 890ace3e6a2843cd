import Verif.Props.RealOptions
import Verif.Props.FinitePositions

/-! # Options that are not a number (C110)

`nan` is accepted as the value of every real option, and passes every check of `main`, since all comparisons with it are false. -/

namespace Trento
open Spec XReal

/-! ## What holds of every nucleon that has been placed -/
section placed
variable {F E D : Type} [Arith F] [Rng F E D]

theorem placeWS_all {P : NucleonData F → Prop} {offset : F} (hset : ∀ n x y z, P (setNucleonPosition offset n x y z)) (dminsq r : F) (placed : List (NucleonData F)) (left : Nat) (n : NucleonData F) (w : Rand E D) :
    P (placeWS offset dminsq r placed (left+1) n w).1 := by
  induction left generalizing n w with
  | zero => simp only [placeWS]; exact hset _ _ _ _
  | succ left ih =>
    rw [placeWS]
    dsimp only
    split
    · exact ih _ _
    · exact hset _ _ _ _

theorem placeDef_all {P : NucleonData F → Prop} {offset : F} (hset : ∀ n x y z, P (setNucleonPosition offset n x y z)) (dminsq : F) (t : TiltSpin F) (rSin : F) (placed : List (NucleonData F)) (left : Nat) (z : F)
    (n : NucleonData F) (w : Rand E D) : P (placeDef offset dminsq t rSin placed (left+1) z n w).1 := by
  induction left generalizing z n w with
  | zero => simp only [placeDef]; exact hset _ _ _ _
  | succ left ih =>
    rw [placeDef]
    dsimp only
    split
    · exact ih _ _ _
    · exact hset _ _ _ _

theorem placeAllWS_all {P : NucleonData F → Prop} {offset : F} (hset : ∀ n x y z, P (setNucleonPosition offset n x y z)) (dminsq : F) (placed : List (NucleonData F)) (rs : List F) (ns : List (NucleonData F))
    (w : Rand E D) (hl : rs.length = ns.length) (hp : ∀ n ∈ placed, P n) :
    (placeAllWS offset dminsq placed rs ns w).1.length = placed.length + ns.length ∧
    ∀ n ∈ (placeAllWS offset dminsq placed rs ns w).1, P n := by
  induction ns generalizing placed rs w with
  | nil =>
    cases rs with
    | nil => simpa [placeAllWS] using hp
    | cons r rs => simp at hl
  | cons n ns ih =>
    cases rs with
    | nil => simp at hl
    | cons r rs =>
      rw [placeAllWS]
      dsimp only
      have := ih (placed ++ [(placeWS offset dminsq r placed 1000 n w).1]) rs (placeWS offset dminsq r placed 1000 n w).2
        (by simpa using hl) (by
          intro m hm
          rcases List.mem_append.mp hm with hm | hm
          · exact hp m hm
          · rw [List.mem_singleton.mp hm]; exact placeWS_all hset _ _ _ 999 _ _)
      refine ⟨?_, this.2⟩
      rw [this.1]; simp; omega

theorem placeAllDef_all {P : NucleonData F → Prop} {offset : F} (hset : ∀ n x y z, P (setNucleonPosition offset n x y z)) (dminsq : F) (t : TiltSpin F) (placed : List (NucleonData F)) (rs : List (F × F))
    (ns : List (NucleonData F)) (w : Rand E D) (hl : rs.length = ns.length) (hp : ∀ n ∈ placed, P n) :
    (placeAllDef offset dminsq t placed rs ns w).1.length = placed.length + ns.length ∧
    ∀ n ∈ (placeAllDef offset dminsq t placed rs ns w).1, P n := by
  induction ns generalizing placed rs w with
  | nil =>
    cases rs with
    | nil => simpa [placeAllDef] using hp
    | cons r rs => simp at hl
  | cons n ns ih =>
    cases rs with
    | nil => simp at hl
    | cons r rs =>
      rw [placeAllDef]
      dsimp only
      have := ih (placed ++ [(placeDef offset dminsq t (r.1 * sqrt (lit 1 - r.2 * r.2)) placed 1000 (r.1 * r.2) n w).1]) rs
        (placeDef offset dminsq t (r.1 * sqrt (lit 1 - r.2 * r.2)) placed 1000 (r.1 * r.2) n w).2
        (by simpa using hl) (by
          intro m hm
          rcases List.mem_append.mp hm with hm | hm
          · exact hp m hm
          · rw [List.mem_singleton.mp hm]; exact placeDef_all hset _ _ _ _ 999 _ _ _)
      refine ⟨?_, this.2⟩
      rw [this.1]; simp; omega

theorem placeManual_all {offset : F} {e : Euler F} {ps : List (F × F × F)} {ns ns' : List (NucleonData F)}
    {P : NucleonData F → Prop} (hset : ∀ n x y z, P (setNucleonPosition offset n x y z)) (h : placeManual offset e ps ns = .ok ns') : ns'.length = ns.length ∧ ∀ n ∈ ns', P n := by
  induction ns generalizing ps ns' with
  | nil => cases ps <;> simp [placeManual] at h <;> subst h <;> simp
  | cons n ns ih =>
    cases ps with
    | nil => simp [placeManual] at h
    | cons p ps =>
      obtain ⟨x, y, z⟩ := p
      rw [placeManual] at h
      split at h
      · cases h
      · rename_i ns1 h1
        cases h
        obtain ⟨h2, h3⟩ := ih h1
        refine ⟨by simp [h2], ?_⟩
        intro m hm
        rcases List.mem_cons.mp hm with rfl | hm
        · exact hset _ _ _ _
        · exact h3 m hm

theorem sampleNucleons_all {fuel : Nat} {nuc nuc' : Nucleus F} {offset : F} {w w' : Rand E D} {P : NucleonData F → Prop} (hset : ∀ n x y z, P (setNucleonPosition offset n x y z)) (hw : nuc.WF)
    (h : nuc.sampleNucleons fuel offset w = .ok (nuc', w')) :
    nuc'.kind = nuc.kind ∧ nuc'.offset = offset ∧ nuc'.nucleons.length = nuc.nucleons.length ∧
    ∀ n ∈ nuc'.nucleons, P n := by
  unfold Nucleus.sampleNucleons at h
  dsimp only at h
  split at h
  · cases h
  · rename_i ns w1 hr
    simp only [Except.ok.injEq, Prod.mk.injEq] at h
    obtain ⟨rfl, rfl⟩ := h
    refine ⟨rfl, rfl, ?_⟩
    show ns.length = nuc.nucleons.length ∧ ∀ n ∈ ns, P n
    unfold Nucleus.WF at hw
    revert hr hw
    cases nuc.kind with
    | proton =>
      intro hw hr
      simp only [Except.ok.injEq, Prod.mk.injEq] at hr
      obtain ⟨n, hn⟩ := List.length_eq_one_iff.mp hw
      rw [hn] at hr ⊢
      rw [← hr.1]
      simp only [sampleProton, List.length_cons, List.length_nil, List.mem_singleton, forall_eq, true_and]
      exact hset _ _ _ _
    | deuteron a b =>
      intro hw hr
      simp only [sampleDeuteron] at hr
      split at hr
      · cases hr
      · obtain ⟨n1, n2, hn⟩ := List.length_eq_two.mp hw
        rw [hn] at hr ⊢
        simp only [Except.ok.injEq, Prod.mk.injEq] at hr
        rw [← hr.1]
        simp only [List.length_cons, List.length_nil, List.mem_cons, List.not_mem_nil, or_false, true_and]
        rintro n (rfl | rfl) <;> exact hset _ _ _ _
    | woodsSaxon R a dminsq =>
      intro hw hr
      simp only [Except.ok.injEq] at hr
      have := placeAllWS_all hset dminsq [] (sortBy id (drawRadii R a nuc.nucleons.length w).1) nuc.nucleons
        (drawRadii R a nuc.nucleons.length w).2 (by rw [sortBy_length, drawRadii_length]) (by simp)
      have hns : ns = (placeAllWS offset dminsq [] (sortBy id (drawRadii R a nuc.nucleons.length w).1) nuc.nucleons
        (drawRadii R a nuc.nucleons.length w).2).1 := (congrArg Prod.fst hr).symm
      rw [hns]
      simpa using this
    | deformed R a b2 b4 rmax dminsq =>
      intro hw hr
      simp only [sampleDeformed] at hr
      split at hr
      · cases hr
      · rename_i samples w2 hs
        simp only [Except.ok.injEq] at hr
        have := placeAllDef_all hset dminsq (drawTiltSpin (F := F) w).1 [] (sortBy Prod.fst samples) nuc.nucleons w2
          (by rw [sortBy_length, drawDeformed_length hs]) (by simp)
        have hns : ns = (placeAllDef offset dminsq (drawTiltSpin (F := F) w).1 [] (sortBy Prod.fst samples) nuc.nucleons w2).1 :=
          (congrArg Prod.fst hr).symm
        rw [hns]
        simpa using this
    | manual configs rmax =>
      intro hw hr
      simp only [sampleManual] at hr
      split at hr
      · cases hr
      · split at hr
        · cases hr
        · rename_i h1
          simp only [Except.ok.injEq, Prod.mk.injEq] at hr
          rw [← hr.1]
          exact placeManual_all hset h1

end placed

/-! ## Arithmetic with NaN -/

theorem add_nan (x : XReal) : x + nan = nan := by cases x <;> rfl
theorem nan_add (x : XReal) : nan + x = nan := by cases x <;> rfl
theorem sub_nan (x : XReal) : x - nan = nan := by cases x <;> rfl
theorem nan_sub (x : XReal) : nan - x = nan := by cases x <;> rfl
theorem mul_nan (x : XReal) : x * nan = nan := by cases x <;> rfl
theorem nan_mul (x : XReal) : nan * x = nan := by cases x <;> rfl
theorem nan_div (x : XReal) : nan / x = nan := by cases x <;> rfl
theorem div_nan (x : XReal) : x / nan = nan := by cases x <;> rfl
theorem neg_nan : (-nan : XReal) = nan := rfl
theorem exp_nan : exp (nan : XReal) = nan := rfl
theorem sqrt_nan : sqrt (nan : XReal) = nan := rfl
theorem nan_lt (x : XReal) : lt nan x = false := by cases x <;> rfl
theorem lt_nan (x : XReal) : lt x nan = false := by cases x <;> rfl
theorem sqr_nan : sqr (nan : XReal) = nan := rfl

theorem impact_nan (bmin bmax u : XReal) (h : bmin = nan ∨ bmax = nan) : impactFormula bmin bmax u = nan := by
  unfold impactFormula
  rcases h with rfl | rfl
  · rw [nan_mul, nan_add, sqrt_nan]
  · rw [nan_mul, nan_sub, nan_mul, add_nan, sqrt_nan]

variable {E D : Type} [Rng ℝ E D]

/-! ## Nucleons that never participate -/

theorem pairRow_dud (nc : NucleonCommon XReal) (P : NucleonData XReal → Prop)
    (hp : ∀ (A B : NucleonData XReal) (w : Rand E D), P A → P B → (nc.participate A B w).1.1 = false ∧ P (nc.participate A B w).1.2.1 ∧ P (nc.participate A B w).1.2.2)
    (cn : Bool) (A : NucleonData XReal) (Bs : List (NucleonData XReal)) (k : ℕ) (w : Rand E D) (hA : P A) (hB : ∀ b ∈ Bs, P b) :
    (pairRow nc cn A Bs k false w).1.2.2.2 = false ∧ P (pairRow nc cn A Bs k false w).1.1 ∧ ∀ b ∈ (pairRow nc cn A Bs k false w).1.2.1, P b := by
  induction Bs generalizing A k w with
  | nil => exact ⟨rfl, hA, hB⟩
  | cons B Bs ih =>
    simp only [pairRow]
    obtain ⟨h1, h2, h3⟩ := hp A B w hA (hB B (by simp))
    simp only [h1, Bool.false_and, Bool.false_eq_true, if_false, Bool.or_self]
    obtain ⟨i1, i2, i3⟩ := ih _ k (nc.participate A B w).2 h2 (fun b hb => hB b (by simp [hb]))
    refine ⟨i1, i2, ?_⟩
    intro b hb
    rcases List.mem_cons.mp hb with rfl | hb
    · exact h3
    · exact i3 b hb

theorem pairLoop_dud (nc : NucleonCommon XReal) (P : NucleonData XReal → Prop)
    (hp : ∀ (A B : NucleonData XReal) (w : Rand E D), P A → P B → (nc.participate A B w).1.1 = false ∧ P (nc.participate A B w).1.2.1 ∧ P (nc.participate A B w).1.2.2)
    (cn : Bool) (As Bs : List (NucleonData XReal)) (k : ℕ) (w : Rand E D) (hA : ∀ a ∈ As, P a) (hB : ∀ b ∈ Bs, P b) : (pairLoop nc cn As Bs k false w).1.2.2.2 = false := by
  induction As generalizing Bs k w with
  | nil => rfl
  | cons A As ih =>
    simp only [pairLoop]
    obtain ⟨h1, h2, h3⟩ := pairRow_dud nc P hp cn A Bs k w (hA A (by simp)) hB
    rw [h1]
    exact ih _ _ _ (fun a ha => hA a (by simp [ha])) h3

theorem runAll_dud (rfuel fuel : ℕ) (o : Options XReal) (sigma : XReal) (debug : Bool) (P : NucleonData XReal → Prop)
    (hset : ∀ u n x y z, P (setNucleonPosition ((Collider.make o sigma).asymmetry * impactFormula (Collider.make o sigma).bmin (Collider.make o sigma).bmax u) n x y z))
    (hset' : ∀ u n x y z, P (setNucleonPosition (((Collider.make o sigma).asymmetry - lit 1) * impactFormula (Collider.make o sigma).bmin (Collider.make o sigma).bmax u) n x y z))
    (hp : ∀ (A B : NucleonData XReal) (w : Rand E D), P A → P B → ((Collider.make o sigma).nc.participate A B w).1.1 = false ∧
      P ((Collider.make o sigma).nc.participate A B w).1.2.1 ∧ P ((Collider.make o sigma).nc.participate A B w).1.2.2)
    (hN : 0 < o.numberEvents) (hA : NucleusHistory E D o.projectileA) (hB : NucleusHistory E D o.projectileB)
    (ev0 : (n : ℕ) → Event XReal n) (w : Rand E D) (r : (n : ℕ) × List (EventRecord XReal n)) : runAll rfuel fuel o sigma debug ev0 w ≠ .ok r := by
  have hc : ∀ (fuel : ℕ) (A B : Nucleus XReal) (hA : NucleusHistory E D A) (hB : NucleusHistory E D B) (n : ℕ) (w : Rand E D) (r),
      collisionLoop rfuel (Collider.make o sigma) fuel A B n false w ≠ .ok r := by
    intro fuel
    induction fuel with
    | zero => intro A B _ _ n w r h; cases h
    | succ fuel ih =>
      intro A B hA hB n w r h
      rw [collisionLoop] at h
      dsimp only at h
      split at h
      · cases h
      · rename_i A1 w1 hA1
        split at h
        · cases h
        · rename_i B1 w2 hB1
          have fA := sampleNucleons_all (hset _) hA.wf hA1
          have fB := sampleNucleons_all (hset' _) hB.wf hB1
          have hno := pairLoop_dud (Collider.make o sigma).nc P hp (Collider.make o sigma).calcNcoll A1.nucleons B1.nucleons n w2 fA.2.2.2 fB.2.2.2
          obtain ⟨M, hM, -, -⟩ := pairLoop_spec (E := E) (D := D) (Collider.make o sigma).nc (Collider.make o sigma).calcNcoll
            A1.nucleons B1.nucleons n false w2
          have lA : (pairLoop (Collider.make o sigma).nc (Collider.make o sigma).calcNcoll A1.nucleons B1.nucleons n false w2).1.1.length = A1.nucleons.length := by
            have := congrArg List.length hM.placeA; simpa using this
          have lB : (pairLoop (Collider.make o sigma).nc (Collider.make o sigma).calcNcoll A1.nucleons B1.nucleons n false w2).1.2.1.length = B1.nucleons.length := by
            have := congrArg List.length hM.placeB; simpa using this
          rw [hno] at h
          simp only [Bool.false_eq_true, if_false] at h
          exact ih _ _ (.collide _ _ (.sample _ _ _ _ _ _ hA hA1) lA) (.collide _ _ (.sample _ _ _ _ _ _ hB hB1) lB) _ _ r h
  intro h
  unfold runAll at h
  split at h
  · cases h
  · rename_i ec hec
    split at h
    · cases h
    · rename_i rs hrs
      unfold Collider.runEvents at hrs
      obtain ⟨N, hN'⟩ : ∃ N, (Collider.make o sigma).nevents.toNat = N + 1 := by
        have : (Collider.make o sigma).nevents = o.numberEvents := rfl
        exact ⟨(Collider.make o sigma).nevents.toNat - 1, by omega⟩
      rw [hN', runLoop] at hrs
      cases hcl : (Collider.make o sigma).sampleCollision rfuel fuel (Collider.make o sigma).nucleusA (Collider.make o sigma).nucleusB
          (seedRand XReal o.randomSeed w) with
      | error e => simp only [hcl] at hrs; cases hrs
      | ok r => exact hc fuel _ _ hA hB 0 _ r hcl

/-! ## Nucleons nowhere -/

/-- A nucleon that has not participated, at no definite place. -/
structure Nowhere (n : NucleonData XReal) : Prop where
  idle : n.isParticipant = false
  x : n.x = nan
  constituents : n.constituentsExist = true → n.constituents ≠ [] ∧ ∀ c ∈ n.constituents, c.x = nan

theorem drawConstituents_ne (nc : NucleonCommon XReal) (k : ℕ) (x y : XReal) (w : Rand E D) : (drawConstituents nc (k+1) x y w).1.1 ≠ [] := by
  rw [drawConstituents]
  simp

theorem sampleConstituents_nowhere (nc : NucleonCommon XReal) (hm : 0 < nc.constituentNumber) (n : NucleonData XReal) (w : Rand E D) (h : Nowhere n) :
    Nowhere (nc.sampleConstituents n w).1 ∧ (nc.sampleConstituents n w).1.constituents ≠ [] ∧ ∀ c ∈ (nc.sampleConstituents n w).1.constituents, c.x = nan := by
  unfold NucleonCommon.sampleConstituents
  by_cases he : n.constituentsExist = true
  · simp only [he, if_true]; exact ⟨h, h.constituents he⟩
  · simp only [he, Bool.false_eq_true, if_false]
    obtain ⟨k, hk⟩ : ∃ k, nc.constituentNumber = k + 1 := ⟨nc.constituentNumber - 1, by omega⟩
    have key : ∀ cs : List (Constituent XReal), cs ≠ [] → ∀ a b c : XReal, (cs.map fun q => { q with x := q.x + (n.x - a), y := q.y + (b - c) }) ≠ [] ∧
        ∀ q ∈ (cs.map fun q => { q with x := q.x + (n.x - a), y := q.y + (b - c) }), q.x = nan := by
      intro cs hcs a b c
      refine ⟨by simpa using hcs, ?_⟩
      intro q hq
      obtain ⟨q', -, rfl⟩ := List.mem_map.mp hq
      show q'.x + (n.x - a) = nan
      rw [h.x, nan_sub, add_nan]
    have hne := drawConstituents_ne nc k (lit 0) (lit 0) w
    rw [← hk] at hne
    refine ⟨⟨h.idle, h.x, fun _ => key _ hne _ _ _⟩, key _ hne _ _ _⟩

theorem foldl_nan {α : Type} (f : XReal → α → XReal) (hf : ∀ x a, f x a = nan) (l : List α) (hl : l ≠ []) (x : XReal) : l.foldl f x = nan := by
  induction l generalizing x with
  | nil => exact absurd rfl hl
  | cons a l ih =>
    rw [List.foldl_cons]
    by_cases h : l = []
    · subst h; exact hf x a
    · exact ih h _

theorem foldl_nan_mem {α : Type} (f : XReal → α → XReal) (l : List α) (hf : ∀ x, ∀ a ∈ l, f x a = nan) (hl : l ≠ []) (x : XReal) : l.foldl f x = nan := by
  induction l generalizing x with
  | nil => exact absurd rfl hl
  | cons a l ih =>
    rw [List.foldl_cons]
    by_cases h : l = []
    · subst h; exact hf x a (by simp)
    · exact ih (fun x b hb => hf x b (by simp [hb])) h _

theorem overlapSum_nan (wsq : XReal) (as bs : List (Constituent XReal)) (ha : as ≠ []) (hb : bs ≠ []) (hax : ∀ c ∈ as, c.x = nan) : overlapSum wsq as bs = nan := by
  unfold overlapSum
  refine foldl_nan_mem _ as (fun x a hma => ?_) ha _
  refine foldl_nan_mem _ bs (fun y b _ => ?_) hb _
  dsimp only
  rw [hax a hma, nan_sub, sqr_nan, nan_add, mul_nan, nan_div, exp_nan, add_nan]

theorem participate_nowhere (nc : NucleonCommon XReal) (hm : 0 < nc.constituentNumber) (A B : NucleonData XReal) (w : Rand E D) (hA : Nowhere A) (hB : Nowhere B) :
    (nc.participate A B w).1.1 = false ∧ Nowhere (nc.participate A B w).1.2.1 ∧ Nowhere (nc.participate A B w).1.2.2 := by
  unfold NucleonCommon.participate
  simp only [hA.idle, Bool.false_and, Bool.false_eq_true, if_false]
  split
  · exact ⟨rfl, hA, hB⟩
  · obtain ⟨a1, a2, a3⟩ := sampleConstituents_nowhere nc hm A w hA
    obtain ⟨b1, b2, b3⟩ := sampleConstituents_nowhere nc hm B (nc.sampleConstituents A w).2 hB
    have ho := overlapSum_nan nc.constituentWidthSq _ _ a2 b2 a3
    have hp : nc.oneMinusProb nan = nan := by
      unfold NucleonCommon.oneMinusProb
      rw [mul_nan, exp_nan]
    simp only [ho, hp, nan_lt, Bool.false_eq_true, if_false]
    exact ⟨trivial, a1, b1⟩

/-- **C110, checks.** The checks of `main` on the widths let `nan` pass: a nucleon width that is not a number is never refused, and a constituent width that is not a number is not refused unless the
nucleon width is negative. -/
theorem C110_nan_passes (x : XReal) (m : ℤ) : (checkWidths (nan : XReal) x m = .ok () ↔ lt x (lit 0) = false) ∧ (checkWidths x (nan : XReal) m = .ok () ↔ lt x (lit 0) = false) := by
  unfold checkWidths
  simp only [nan_lt, lt_nan, Bool.false_or, Bool.or_false, Bool.false_and, Bool.false_eq_true, if_false]
  cases lt x (lit 0) <;> simp

/-- **C110, not a number.** `nan` for the impact parameter range or the constituent width (also the value `--constit-width` takes from `--nucleon-width nan`), or for the cross section parameter,
passes all checks of the program, but then no pair of nucleons ever collides: whatever the other options and the random sequence, a run of at least one event never delivers a result. -/
theorem C110_nan_never_ends (rfuel fuel : ℕ) (o : Options XReal) (sigma : XReal) (debug : Bool)
    (h : o.bMin = nan ∨ o.bMax = nan ∨ o.constitWidth = nan ∨ sigma = nan) (hN : 0 < o.numberEvents)
    (hA : NucleusHistory E D o.projectileA) (hB : NucleusHistory E D o.projectileB)
    (ev0 : (n : ℕ) → Event XReal n) (w : Rand E D) (r : (n : ℕ) × List (EventRecord XReal n)) : runAll rfuel fuel o sigma debug ev0 w ≠ .ok r := by
  by_cases hz : o.constitNumber = 0
  · exact C72_zero_constituents rfuel fuel o sigma debug hz hN hA hB ev0 w r
  have hb : (o.bMin = nan ∨ o.bMax = nan) ∨ (o.constitWidth = nan ∨ sigma = nan) := by tauto
  rcases hb with hb | hb
  · have hi : ∀ u, impactFormula (Collider.make o sigma).bmin (Collider.make o sigma).bmax u = nan := by
      intro u
      apply impact_nan
      rcases hb with hb | hb
      · exact .inl hb
      · refine .inr ?_
        show determineBmax o.bMax _ _ _ = nan
        unfold determineBmax
        rw [hb, nan_lt]; rfl
    refine runAll_dud rfuel fuel o sigma debug Nowhere ?_ ?_ (fun A B w => participate_nowhere _ (Nat.pos_of_ne_zero hz) A B w) hN hA hB ev0 w r
    · intro u n x y z
      rw [hi, mul_nan]
      exact ⟨rfl, add_nan x, fun h => by cases h⟩
    · intro u n x y z
      rw [hi, mul_nan]
      exact ⟨rfl, add_nan x, fun h => by cases h⟩
  · refine runAll_dud rfuel fuel o sigma debug (fun n => n.isParticipant = false) (fun _ _ _ _ _ => rfl) (fun _ _ _ _ _ => rfl) ?_ hN hA hB ev0 w r
    intro A B w hA hB
    set nc := (Collider.make o sigma).nc with hnc
    have hp : ∀ x, nc.oneMinusProb x = nan := by
      intro x
      unfold NucleonCommon.oneMinusProb
      rcases hb with hb | hb
      · have : nc.prefactor = oneDivTwoPi / sqr o.constitWidth / ofInt (o.constitNumber : ℤ) := rfl
        rw [this, hb, sqr_nan, div_nan, nan_div, mul_nan, nan_div, nan_mul, exp_nan]
      · have : nc.sigmaPartonic = sigma := rfl
        rw [this, hb, neg_nan, nan_mul, nan_div, nan_mul, exp_nan]
    have hs : ∀ (n : NucleonData XReal) (w : Rand E D), (nc.sampleConstituents n w).1.isParticipant = n.isParticipant := by
      intro n w
      unfold NucleonCommon.sampleConstituents
      split <;> rfl
    unfold NucleonCommon.participate
    simp only [hA, Bool.false_and, Bool.false_eq_true, if_false]
    split
    · exact ⟨rfl, hA, hB⟩
    · simp only [hp, nan_lt, Bool.false_eq_true, if_false]
      exact ⟨trivial, by rw [hs]; exact hA, by rw [hs]; exact hB⟩

/-- **C110, grid.** A grid size that is not a number or infinite, or a grid step that is not a number or zero, is not refused: the number of cells is then not finite, and its conversion to an integer is
undefined behaviour, before any event is generated. -/
theorem C110_grid (rfuel fuel : ℕ) (o : Options XReal) (sigma : XReal) (debug : Bool)
    (h : o.gridMax = nan ∨ o.gridMax = pinf ∨ o.gridMax = ninf ∨ o.gridStep = nan ∨ o.gridStep = fin 0)
    (ev0 : (n : ℕ) → Event XReal n) (w : Rand E D) : ∃ msg, runAll rfuel fuel o sigma debug ev0 w = .error (.ub msg) := by
  have key : trunc (ceil (lit 2 * o.gridMax / o.gridStep)) = none := by
    have hl : (lit 2 : XReal) = fin 2 := by simp
    have hp : (fin 2 * pinf : XReal) = pinf := by show infMul 2 = pinf; simp [infMul]
    have hn : (fin 2 * ninf : XReal) = ninf := by show infMul (-2) = ninf; simp [infMul]
    have inf_div : ∀ x y : XReal, (x = pinf ∨ x = ninf) → trunc (ceil (x / y)) = none := by
      rintro x y (rfl | rfl) <;> cases y with
      | fin r =>
        by_cases hr : 0 ≤ r
        · first
          | (have : (pinf / fin r : XReal) = pinf := by show (if 0 ≤ r then pinf else ninf) = pinf; rw [if_pos hr]
             rw [this]; rfl)
          | (have : (ninf / fin r : XReal) = ninf := by show (if 0 ≤ r then ninf else pinf) = ninf; rw [if_pos hr]
             rw [this]; rfl)
        · first
          | (have : (pinf / fin r : XReal) = ninf := by show (if 0 ≤ r then pinf else ninf) = ninf; rw [if_neg hr]
             rw [this]; rfl)
          | (have : (ninf / fin r : XReal) = pinf := by show (if 0 ≤ r then ninf else pinf) = pinf; rw [if_neg hr]
             rw [this]; rfl)
      | pinf => rfl
      | ninf => rfl
      | nan => rfl
    rw [hl]
    rcases h with h | h | h | h | h
    · rw [h, mul_nan, nan_div]; rfl
    · rw [h, hp]; exact inf_div _ _ (.inl rfl)
    · rw [h, hn]; exact inf_div _ _ (.inr rfl)
    · rw [h, div_nan]; rfl
    · rw [h]
      cases hg : o.gridMax with
      | fin r =>
        have : (fin 2 * fin r / fin 0 : XReal) = infMul (2 * r) := by
          show (if (0:ℝ) = 0 then infMul (2 * r) else fin (2 * r / 0)) = _
          rw [if_pos rfl]
        rw [this]
        unfold infMul
        split
        · rfl
        · split <;> rfl
      | pinf => rw [hp]; exact inf_div _ _ (.inl rfl)
      | ninf => rw [hn]; exact inf_div _ _ (.inr rfl)
      | nan => rw [mul_nan, nan_div]; rfl
  refine ⟨"double to int: not finite", ?_⟩
  unfold runAll EventCfg.make castInt
  rw [key]

/-- A concrete case: `--grid-step 0`. -/
example (rfuel fuel : ℕ) (debug : Bool) (ev0 : (n : ℕ) → Event XReal n) (w : Rand Tape Unit) :
    ∃ msg, runAll rfuel fuel { exampleOptions.map fin with gridStep := fin 0 } (fin 1) debug ev0 w = .error (.ub msg) :=
  C110_grid rfuel fuel _ _ debug (.inr (.inr (.inr (.inr rfl)))) ev0 w

/-- A concrete case: two protons, ten events, `--b-max nan`. -/
example (rfuel fuel : ℕ) (debug : Bool) (ev0 : (n : ℕ) → Event XReal n) (w : Rand Tape Unit) (r : (n : ℕ) × List (EventRecord XReal n)) :
    runAll rfuel fuel { exampleOptions.map fin with bMax := nan } (fin 1) debug ev0 w ≠ .ok r :=
  C110_nan_never_ends rfuel fuel _ _ debug (.inr (.inl rfl)) (by simp [Options.map, exampleOptions])
    (.create false (fun _ => .missing) "p" (fin 0) _ rfl) (.create false (fun _ => .missing) "p" (fin 0) _ rfl) ev0 w r

/-- The run of the example with a negative width is refused, with `nan` it is not. -/
example : checkWidths (nan : XReal) (fin 1) 1 = .ok () ∧ checkWidths (fin (-1) : XReal) nan 1 ≠ .ok () := by
  constructor
  · exact (C110_nan_passes (fin 1) 1).1.mpr (by show lt (1:ℝ) (lit 0) = false; simp)
  · intro h
    have := (C110_nan_passes (fin (-1)) 1).2.mp h
    have h' : lt (-1:ℝ) (lit 0) = false := this
    simp at h'

end Trento
