import Verif.Props.ExampleRun

/-!
# C60: the ncoll switch does not change the participants
-/

namespace Trento
open Spec

section
variable {F E D : Type} [Arith F] [Rng F E D]

/-- The test of one pair with uniform number `u`: in range, and `u` exceeds the probability of not colliding. -/
def Spec.pairHits (nc : NucleonCommon F) (a b : NucleonData F) (u : F) : Bool :=
  !lt nc.maxImpactSq (sqr (a.x - b.x) + sqr (a.y - b.y)) &&
  lt (nc.oneMinusProb (overlapSum nc.constituentWidthSq a.constituents b.constituents)) u

/-- The uniform number `participate` draws for a pair whose constituents exist, if it draws one. -/
def Spec.drawOf (nc : NucleonCommon F) (A B : NucleonData F) (w : Rand E D) : Option F :=
  if A.isParticipant && B.isParticipant && !nc.calcNcoll then none
  else if lt nc.maxImpactSq (sqr (A.x - B.x) + sqr (A.y - B.y)) then none
  else some (canonical w).1

/-- The numbers drawn in one row of the pair loop, following the state of the run. -/
def Spec.rowDraws (nc : NucleonCommon F) : NucleonData F → List (NucleonData F) → Rand E D → List (Option F)
  | _, [], _ => []
  | A, B :: Bs, w => drawOf nc A B w :: rowDraws nc (nc.participate A B w).1.2.1 Bs (nc.participate A B w).2

/-- The numbers drawn in the pair loop, following the state of the run. -/
def Spec.loopDraws (nc : NucleonCommon F) (cn : Bool) : List (NucleonData F) → List (NucleonData F) → Rand E D → List (List (Option F))
  | [], _, _ => []
  | A :: As, Bs, w => rowDraws nc A Bs w :: loopDraws nc cn As (pairRow nc cn A Bs 0 false w).1.2.1 (pairRow nc cn A Bs 0 false w).2

/-- `us` assigns a number to every pair and gives the drawn ones to the pairs for which one was drawn. -/
def Spec.Extends (ds : List (Option F)) (us : List F) : Prop := List.Forall₂ (fun d u => ∀ x, d = some x → u = x) ds us

/-- `participate` for nucleons whose constituents exist, with the number attached to the pair. -/
theorem participate_attached (nc : NucleonCommon F) (A B : NucleonData F) (hA : A.constituentsExist = true)
    (hB : B.constituentsExist = true) (w : Rand E D) (u : F) (hu : ∀ x, drawOf nc A B w = some x → u = x) :
    (nc.participate A B w).1.2 = ({ A with isParticipant := A.isParticipant || pairHits nc A B u },
      { B with isParticipant := B.isParticipant || pairHits nc A B u }) := by
  unfold NucleonCommon.participate drawOf at *
  by_cases hs : (A.isParticipant && B.isParticipant && !nc.calcNcoll) = true
  · simp only [hs, if_true]
    simp only [Bool.and_eq_true] at hs
    obtain ⟨⟨h1, h2⟩, -⟩ := hs
    have e1 : { A with isParticipant := true } = A := by cases A; simp_all
    have e2 : { B with isParticipant := true } = B := by cases B; simp_all
    rw [h1, h2]
    simp only [Bool.true_or]
    rw [e1, e2]
  · simp only [hs, Bool.false_eq_true, if_false] at hu ⊢
    unfold pairHits
    by_cases hr : lt nc.maxImpactSq (sqr (A.x - B.x) + sqr (A.y - B.y)) = true
    · simp only [hr, if_true, Bool.not_true, Bool.false_and, Bool.or_false]
    · simp only [hr, Bool.false_eq_true, if_false] at hu ⊢
      rw [Bool.not_eq_true] at hr
      have sA : ∀ w : Rand E D, nc.sampleConstituents A w = (A, w) := fun w => (sampleConstituents_frame nc A w).2.2.2.2.2 hA
      have sB : ∀ w : Rand E D, nc.sampleConstituents B w = (B, w) := fun w => (sampleConstituents_frame nc B w).2.2.2.2.2 hB
      simp only [sA, sB, Bool.not_false, Bool.true_and]
      rw [hu _ rfl]
      by_cases hl : lt (nc.oneMinusProb (overlapSum nc.constituentWidthSq A.constituents B.constituents)) (canonical w).1 = true
      · simp only [hl, if_true, setParticipant_eq, Bool.or_true]
      · rw [Bool.not_eq_true] at hl
        simp only [hl, Bool.false_eq_true, if_false, Bool.or_false]

theorem pairRow_attached (nc : NucleonCommon F) (cn : Bool) (A : NucleonData F) (Bs : List (NucleonData F))
    (hA : A.constituentsExist = true) (hB : ∀ b ∈ Bs, b.constituentsExist = true) (n : Nat) (c : Bool) (w : Rand E D)
    (us : List F) (hu : Extends (rowDraws nc A Bs w) us) :
    (pairRow nc cn A Bs n c w).1.1 = { A with isParticipant := A.isParticipant || (List.zipWith (pairHits nc A) Bs us).any id } ∧
    (pairRow nc cn A Bs n c w).1.2.1 =
      List.zipWith (fun b u => { b with isParticipant := b.isParticipant || pairHits nc A b u }) Bs us ∧
    us.length = Bs.length := by
  induction Bs generalizing A n c w us with
  | nil =>
    cases hu
    simp [pairRow]
  | cons B Bs ih =>
    rw [rowDraws] at hu
    cases hu with
    | @cons d u ds us h1 h2 =>
    have hp := participate_attached nc A B hA (hB B (by simp)) w u h1
    rw [pairRow]
    dsimp only
    have e1 : (nc.participate A B w).1.2.1 = { A with isParticipant := A.isParticipant || pairHits nc A B u } := by rw [hp]
    have e2 : (nc.participate A B w).1.2.2 = { B with isParticipant := B.isParticipant || pairHits nc A B u } := by rw [hp]
    obtain ⟨q1, q2, q3⟩ := ih (nc.participate A B w).1.2.1 (by rw [e1]; exact hA) (fun b hb => hB b (by simp [hb]))
      (if (nc.participate A B w).1.1 && cn then n + 1 else n) ((nc.participate A B w).1.1 || c) (nc.participate A B w).2 us h2
    have hcongr : pairHits nc (nc.participate A B w).1.2.1 = pairHits nc A := by
      rw [e1]; rfl
    rw [hcongr] at q1 q2
    refine ⟨?_, ?_, by simp [q3]⟩
    · rw [q1, e1]
      simp [Bool.or_assoc]
    · rw [q2, e2]; simp

theorem pairRow_counters (nc : NucleonCommon F) (cn : Bool) (A : NucleonData F) (Bs : List (NucleonData F)) (n n' : Nat)
    (c c' : Bool) (w : Rand E D) :
    (pairRow nc cn A Bs n c w).1.1 = (pairRow nc cn A Bs n' c' w).1.1 ∧
    (pairRow nc cn A Bs n c w).1.2.1 = (pairRow nc cn A Bs n' c' w).1.2.1 ∧
    (pairRow nc cn A Bs n c w).2 = (pairRow nc cn A Bs n' c' w).2 := by
  induction Bs generalizing A n n' c c' w with
  | nil => exact ⟨rfl, rfl, rfl⟩
  | cons B Bs ih =>
    rw [pairRow, pairRow]
    dsimp only
    obtain ⟨h1, h2, h3⟩ := ih (nc.participate A B w).1.2.1 (if (nc.participate A B w).1.1 && cn then n + 1 else n)
      (if (nc.participate A B w).1.1 && cn then n' + 1 else n') ((nc.participate A B w).1.1 || c)
      ((nc.participate A B w).1.1 || c') (nc.participate A B w).2
    exact ⟨h1, by rw [h2], h3⟩

theorem pairLoop_attached (nc : NucleonCommon F) (cn : Bool) (As Bs : List (NucleonData F))
    (hA : ∀ a ∈ As, a.constituentsExist = true) (hB : ∀ b ∈ Bs, b.constituentsExist = true) (n : Nat) (c : Bool) (w : Rand E D)
    (U : List (List F)) (hU : List.Forall₂ Extends (loopDraws nc cn As Bs w) U) :
    (pairLoop nc cn As Bs n c w).1.1 = List.zipWith (fun A us =>
      { A with isParticipant := A.isParticipant || (List.zipWith (pairHits nc A) Bs us).any id }) As U ∧
    ∀ j : Nat, (pairLoop nc cn As Bs n c w).1.2.1[j]? = Bs[j]?.map fun b =>
      { b with isParticipant := b.isParticipant || (As.zip U).any fun x => (x.2[j]?).any fun u => pairHits nc x.1 b u } := by
  induction As generalizing Bs n c w U with
  | nil =>
    cases hU
    refine ⟨rfl, fun j => ?_⟩
    have : (pairLoop nc cn [] Bs n c w).1.2.1 = Bs := rfl
    rw [this]
    cases hb : Bs[j]? with
    | none => rfl
    | some b => simp
  | cons A As ih =>
    rw [loopDraws] at hU
    cases hU with
    | @cons ds us dss U h1 h2 =>
    obtain ⟨p1, p2, p3⟩ := pairRow_attached nc cn A Bs (hA A (by simp)) hB n c w us h1
    obtain ⟨k1, k2, k3⟩ := pairRow_counters nc cn A Bs 0 n false c w
    rw [k2, k3] at h2
    rw [pairLoop]
    dsimp only
    generalize hr : pairRow nc cn A Bs n c w = r at *
    have hB' : ∀ b ∈ r.1.2.1, b.constituentsExist = true := by
      intro b hb
      rw [p2] at hb
      obtain ⟨i, hi⟩ := List.mem_iff_getElem?.mp hb
      rw [List.getElem?_zipWith] at hi
      cases h3 : Bs[i]? with
      | none => rw [h3] at hi; simp at hi
      | some b0 =>
        cases h4 : us[i]? with
        | none => rw [h3, h4] at hi; simp at hi
        | some u0 =>
          rw [h3, h4] at hi
          simp only [Option.some.injEq] at hi
          rw [← hi]
          exact hB b0 (List.mem_of_getElem? h3)
    obtain ⟨q1, q2⟩ := ih r.1.2.1 (fun a ha => hA a (by simp [ha])) hB' r.1.2.2.1 r.1.2.2.2 r.2 U h2
    -- the tests do not depend on the flags of the partners
    have hflag : ∀ (a : NucleonData F) (vs : List F), List.zipWith (pairHits nc a) r.1.2.1 vs = List.zipWith (pairHits nc a) Bs vs := by
      intro a vs
      rw [p2]
      apply List.ext_getElem?
      intro i
      rw [List.getElem?_zipWith, List.getElem?_zipWith, List.getElem?_zipWith]
      cases h3 : Bs[i]? with
      | none => rfl
      | some b0 =>
        cases h4 : us[i]? with
        | none =>
          have : i < us.length := by rw [p3]; exact (List.getElem?_eq_some_iff.mp h3).1
          rw [List.getElem?_eq_getElem this] at h4; cases h4
        | some u0 => cases vs[i]? <;> rfl
    refine ⟨?_, ?_⟩
    · rw [q1, p1]
      simp only [hflag, List.zipWith_cons_cons]
    · intro j
      rw [q2 j, p2, List.getElem?_zipWith]
      cases h3 : Bs[j]? with
      | none => rfl
      | some b0 =>
        cases h4 : us[j]? with
        | none =>
          have : j < us.length := by rw [p3]; exact (List.getElem?_eq_some_iff.mp h3).1
          rw [List.getElem?_eq_getElem this] at h4; cases h4
        | some u0 =>
          simp only [Option.map_some, Option.some.injEq, List.zip_cons_cons, List.any_cons, h4, Option.any_some, Bool.or_assoc]
          rfl

/-- **C60, participants.** For every arithmetic.  Nuclei without participants whose constituents exist go through the pair loop.
Attach to every pair a uniform number: the one drawn for it, or any number if none was drawn.  Then a nucleon ends as a
participant exactly if one of its pairs is in range and passes the test with the attached number — the rule does not mention
which pairs were skipped, or the `ncoll` switch. -/
theorem C60_participants (nc : NucleonCommon F) (cn : Bool) (As Bs : List (NucleonData F))
    (hA : ∀ a ∈ As, a.constituentsExist = true ∧ a.isParticipant = false)
    (hB : ∀ b ∈ Bs, b.constituentsExist = true ∧ b.isParticipant = false) (n : Nat) (c : Bool) (w : Rand E D)
    (U : List (List F)) (hU : List.Forall₂ Extends (loopDraws nc cn As Bs w) U) :
    (∀ (i : Nat) (a a' : NucleonData F) (us : List F), As[i]? = some a → U[i]? = some us →
      (pairLoop nc cn As Bs n c w).1.1[i]? = some a' →
      (a'.isParticipant = true ↔ ∃ (j : Nat) (b : NucleonData F) (u : F), Bs[j]? = some b ∧ us[j]? = some u ∧ pairHits nc a b u = true)) ∧
    (∀ (j : Nat) (b b' : NucleonData F), Bs[j]? = some b → (pairLoop nc cn As Bs n c w).1.2.1[j]? = some b' →
      (b'.isParticipant = true ↔ ∃ (i : Nat) (a : NucleonData F) (us : List F) (u : F), As[i]? = some a ∧ U[i]? = some us ∧
        us[j]? = some u ∧ pairHits nc a b u = true)) := by
  obtain ⟨h1, h2⟩ := pairLoop_attached nc cn As Bs (fun a ha => (hA a ha).1) (fun b hb => (hB b hb).1) n c w U hU
  constructor
  · intro i a a' us ha hus ha'
    rw [h1, List.getElem?_zipWith, ha, hus] at ha'
    simp only [Option.some.injEq] at ha'
    rw [← ha']
    simp only [(hA a (List.mem_of_getElem? ha)).2, Bool.false_or, List.any_eq_true, id]
    constructor
    · rintro ⟨x, hx, rfl⟩
      obtain ⟨j, hj⟩ := List.mem_iff_getElem?.mp hx
      rw [List.getElem?_zipWith] at hj
      cases hb : Bs[j]? with
      | none => rw [hb] at hj; simp at hj
      | some b =>
        cases hu : us[j]? with
        | none => rw [hb, hu] at hj; simp at hj
        | some u =>
          rw [hb, hu] at hj
          simp only [Option.some.injEq] at hj
          exact ⟨j, b, u, hb, hu, hj⟩
    · rintro ⟨j, b, u, hb, hu, hh⟩
      refine ⟨true, ?_, rfl⟩
      apply List.mem_of_getElem? (i := j)
      rw [List.getElem?_zipWith, hb, hu]
      simp only [hh]
  · intro j b b' hb hb'
    rw [h2 j, hb] at hb'
    simp only [Option.map_some, Option.some.injEq] at hb'
    rw [← hb']
    simp only [(hB b (List.mem_of_getElem? hb)).2, Bool.false_or, List.any_eq_true]
    constructor
    · rintro ⟨⟨a, us⟩, hx, hh⟩
      obtain ⟨i, hi⟩ := List.mem_iff_getElem?.mp hx
      rw [List.getElem?_zip_eq_some] at hi
      cases hu : us[j]? with
      | none => rw [hu] at hh; simp at hh
      | some u => rw [hu] at hh; exact ⟨i, a, us, u, hi.1, hi.2, hu, by simpa using hh⟩
    · rintro ⟨i, a, us, u, ha, hus, hu, hh⟩
      refine ⟨(a, us), ?_, by rw [hu]; simpa using hh⟩
      apply List.mem_of_getElem? (i := i)
      rw [List.getElem?_zip_eq_some]
      exact ⟨ha, hus⟩

/-- **C60.** Two runs over the same nuclei, one counting binary collisions and one not, from any random states, such that one
assignment of numbers to pairs fits both: they end with the same nucleons, participants included. -/
theorem C60_ncoll_does_not_change_participants (nc : NucleonCommon F) (As Bs : List (NucleonData F))
    (hA : ∀ a ∈ As, a.constituentsExist = true) (hB : ∀ b ∈ Bs, b.constituentsExist = true) (w w' : Rand E D)
    (U : List (List F)) (h1 : List.Forall₂ Extends (loopDraws { nc with calcNcoll := true } true As Bs w) U)
    (h2 : List.Forall₂ Extends (loopDraws { nc with calcNcoll := false } false As Bs w') U) :
    (pairLoop { nc with calcNcoll := true } true As Bs 0 false w).1.1 = (pairLoop { nc with calcNcoll := false } false As Bs 0 false w').1.1 ∧
    (pairLoop { nc with calcNcoll := true } true As Bs 0 false w).1.2.1 = (pairLoop { nc with calcNcoll := false } false As Bs 0 false w').1.2.1 := by
  obtain ⟨a1, b1⟩ := pairLoop_attached _ _ As Bs hA hB 0 false w U h1
  obtain ⟨a2, b2⟩ := pairLoop_attached _ _ As Bs hA hB 0 false w' U h2
  constructor
  · rw [a1, a2]; rfl
  · apply List.ext_getElem?
    intro j
    rw [b1 j, b2 j]; rfl

end

/-! The hypotheses are met: on a tape of equal numbers every draw is that number. -/

theorem drawOf_half (nc : NucleonCommon ℝ) (A B : NucleonData ℝ) : ∀ x, drawOf nc A B halfTape = some x → 1/2 = x := by
  intro x h
  unfold drawOf at h
  split at h
  · cases h
  · split at h
    · cases h
    · rw [canonical_half] at h; injection h

theorem participate_half (nc : NucleonCommon ℝ) (A B : NucleonData ℝ) (hA : A.constituentsExist = true)
    (hB : B.constituentsExist = true) : (nc.participate A B halfTape).2 = halfTape := by
  unfold NucleonCommon.participate
  have sA : nc.sampleConstituents A halfTape = (A, halfTape) := (sampleConstituents_frame nc A halfTape).2.2.2.2.2 hA
  have sB : nc.sampleConstituents B halfTape = (B, halfTape) := (sampleConstituents_frame nc B halfTape).2.2.2.2.2 hB
  simp only [sA, sB, canonical_half]
  split
  · rfl
  · split
    · rfl
    · split <;> rfl

theorem rowDraws_half (nc : NucleonCommon ℝ) (cn : Bool) (A : NucleonData ℝ) (Bs : List (NucleonData ℝ))
    (hA : A.constituentsExist = true) (hB : ∀ b ∈ Bs, b.constituentsExist = true) (n : Nat) (c : Bool) :
    Extends (rowDraws nc A Bs halfTape) (Bs.map fun _ => 1/2) ∧ (pairRow nc cn A Bs n c halfTape).2 = halfTape := by
  induction Bs generalizing A n c with
  | nil => exact ⟨.nil, rfl⟩
  | cons B Bs ih =>
    have hs := participate_half nc A B hA (hB B (by simp))
    have he : (nc.participate A B halfTape).1.2.1.constituentsExist = true :=
      ((C05_participate_flags nc A B halfTape).2.2.2.2.2.1 hA).2
    constructor
    · rw [rowDraws, hs]
      exact .cons (drawOf_half nc A B) (ih _ he (fun b hb => hB b (by simp [hb])) 0 false).1
    · rw [pairRow]
      dsimp only
      rw [hs]
      exact (ih _ he (fun b hb => hB b (by simp [hb])) _ _).2

/-- On the tape of halves both runs draw 1/2 for every tested pair, so the matrix of halves fits both. -/
example (nc : NucleonCommon ℝ) (A : NucleonData ℝ) (Bs : List (NucleonData ℝ)) (hA : A.constituentsExist = true)
    (hB : ∀ b ∈ Bs, b.constituentsExist = true) :
    List.Forall₂ Extends (loopDraws { nc with calcNcoll := true } true [A] Bs halfTape) [Bs.map fun _ => (1/2 : ℝ)] ∧
    List.Forall₂ Extends (loopDraws { nc with calcNcoll := false } false [A] Bs halfTape) [Bs.map fun _ => (1/2 : ℝ)] :=
  ⟨.cons (rowDraws_half _ true A Bs hA hB 0 false).1 .nil, .cons (rowDraws_half _ false A Bs hA hB 0 false).1 .nil⟩

end Trento
