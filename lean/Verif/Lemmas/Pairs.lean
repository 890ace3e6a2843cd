import Verif.Props.Nucleus
import Verif.Props.Thickness
import Verif.Props.Nucleon
import Verif.Model.Collider

/-!
# The pair loops of `sample_collision`

Every pass over the nucleon pairs is described by a matrix of outcomes, one entry per pair.
-/

namespace Trento

/-- Outcome of one nucleon pair: tested and missed (or out of range), tested and collided, or not tested because both
nucleons were participants already. -/
inductive Spec.Outcome where
  | miss
  | hit
  | skipped
deriving DecidableEq

open Spec

/-- tested and collided -/
def Spec.Outcome.isHit : Outcome → Bool
  | .hit => true
  | _ => false

/-- the value `participate` returns -/
def Spec.Outcome.returned : Outcome → Bool
  | .miss => false
  | _ => true

section
variable {F E D : Type} [Arith F] [Rng F E D]

/-- Transverse position and depth of a nucleon. -/
def Spec.place {F : Type} (n : NucleonData F) : F × F × F := (n.x, n.y, n.z)

/-- The pair is within the maximum impact parameter (as the code tests it). -/
def Spec.InRange (nc : NucleonCommon F) (a b : NucleonData F) : Prop :=
  lt nc.maxImpactSq (sqr (a.x - b.x) + sqr (a.y - b.y)) = false

theorem inRange_congr (nc : NucleonCommon F) {a a' b b' : NucleonData F} (ha : place a = place a') (hb : place b = place b') :
    InRange nc a b ↔ InRange nc a' b' := by
  unfold place at ha hb
  simp only [Prod.mk.injEq] at ha hb
  unfold InRange
  rw [ha.1, ha.2.1, hb.1, hb.2.1]

/-- One call of `participate` as an outcome. -/
theorem participate_outcome (nc : NucleonCommon F) (A B : NucleonData F) (w : Rand E D) :
    ∃ o : Outcome,
      (nc.participate A B w).1.1 = o.returned ∧
      place (nc.participate A B w).1.2.1 = place A ∧ place (nc.participate A B w).1.2.2 = place B ∧
      (nc.participate A B w).1.2.1.isParticipant = (A.isParticipant || o.isHit) ∧
      (nc.participate A B w).1.2.2.isParticipant = (B.isParticipant || o.isHit) ∧
      (o = .hit → InRange nc A B) ∧
      (o = .skipped → nc.calcNcoll = false ∧ A.isParticipant = true ∧ B.isParticipant = true) := by
  obtain ⟨h1, ⟨hx, hy, hz⟩, ⟨hx', hy', hz'⟩, -⟩ := C05_participate_flags nc A B w
  have pA : place (nc.participate A B w).1.2.1 = place A := by unfold place; rw [hx, hy, hz]
  have pB : place (nc.participate A B w).1.2.2 = place B := by unfold place; rw [hx', hy', hz']
  by_cases hs : (A.isParticipant && B.isParticipant && !nc.calcNcoll) = true
  · refine ⟨.skipped, ?_, pA, pB, ?_, ?_, by simp, ?_⟩
    · unfold NucleonCommon.participate; simp [hs, Outcome.returned]
    · unfold NucleonCommon.participate; simp [hs, Outcome.isHit]
    · unfold NucleonCommon.participate; simp [hs, Outcome.isHit]
    · intro _; simp only [Bool.and_eq_true, Bool.not_eq_true'] at hs; exact ⟨hs.2, hs.1.1, hs.1.2⟩
  · rcases h1 with ⟨hr, ha, hb⟩ | ⟨hr, ha, hb⟩
    · refine ⟨.hit, hr, pA, pB, by rw [ha]; simp [Outcome.isHit], by rw [hb]; simp [Outcome.isHit], ?_, by simp⟩
      intro _
      unfold InRange
      cases hlt : lt nc.maxImpactSq (sqr (A.x - B.x) + sqr (A.y - B.y)) with
      | false => rfl
      | true =>
        exfalso
        unfold NucleonCommon.participate at hr
        simp only [hs, Bool.false_eq_true, if_false, hlt, if_true] at hr
    · exact ⟨.miss, hr, pA, pB, by rw [ha]; simp [Outcome.isHit], by rw [hb]; simp [Outcome.isHit], by simp, by simp⟩

/-- What one row of the pair loop does: `A` against all `Bs`. -/
structure RowSpec (nc : NucleonCommon F) (A : NucleonData F) (Bs : List (NucleonData F)) (A' : NucleonData F)
    (Bs' : List (NucleonData F)) (row : List Outcome) : Prop where
  len : row.length = Bs.length
  placeA : place A' = place A
  placeB : Bs'.map place = Bs.map place
  partA : A'.isParticipant = (A.isParticipant || row.any Outcome.isHit)
  partB : Bs'.map (·.isParticipant) = List.zipWith (fun (b : NucleonData F) (o : Outcome) => b.isParticipant || o.isHit) Bs row
  inRange : ∀ (j : Nat) (b : NucleonData F), row[j]? = some .hit → Bs[j]? = some b → InRange nc A b
  skipped : ∀ j : Nat, row[j]? = some .skipped → nc.calcNcoll = false ∧ A'.isParticipant = true ∧
    ∃ b', Bs'[j]? = some b' ∧ b'.isParticipant = true

theorem pairRow_spec (nc : NucleonCommon F) (calcNcoll : Bool) (A : NucleonData F) (Bs : List (NucleonData F)) (ncoll : Nat)
    (coll : Bool) (w : Rand E D) :
    ∃ row, RowSpec nc A Bs (pairRow nc calcNcoll A Bs ncoll coll w).1.1 (pairRow nc calcNcoll A Bs ncoll coll w).1.2.1 row ∧
      (pairRow nc calcNcoll A Bs ncoll coll w).1.2.2.1 = ncoll + (if calcNcoll then row.countP Outcome.returned else 0) ∧
      (pairRow nc calcNcoll A Bs ncoll coll w).1.2.2.2 = (coll || row.any Outcome.returned) := by
  induction Bs generalizing A ncoll coll w with
  | nil =>
    refine ⟨[], ⟨rfl, rfl, rfl, by simp [pairRow], rfl, by simp, by simp⟩, by simp [pairRow], by simp [pairRow]⟩
  | cons B Bs ih =>
    obtain ⟨o, ho1, hpA, hpB, hqA, hqB, hin, hsk⟩ := participate_outcome nc A B w
    obtain ⟨row, hrow, hn, hc⟩ := ih (nc.participate A B w).1.2.1
      (if (nc.participate A B w).1.1 && calcNcoll then ncoll + 1 else ncoll) ((nc.participate A B w).1.1 || coll)
      (nc.participate A B w).2
    rw [pairRow]
    dsimp only
    generalize hres : pairRow nc calcNcoll (nc.participate A B w).1.2.1 Bs
      (if (nc.participate A B w).1.1 && calcNcoll then ncoll + 1 else ncoll) ((nc.participate A B w).1.1 || coll)
      (nc.participate A B w).2 = res at *
    refine ⟨o :: row, ⟨?_, ?_, ?_, ?_, ?_, ?_, ?_⟩, ?_, ?_⟩
    · simp [hrow.len]
    · rw [hrow.placeA, hpA]
    · simp only [List.map_cons, hrow.placeB, hpB]
    · rw [hrow.partA, hqA]; simp [Bool.or_assoc]
    · simp only [List.map_cons, List.zipWith_cons_cons, hrow.partB, hqB]
    · intro j b h1 h2
      cases j with
      | zero => simp at h1 h2; subst h2; exact hin h1
      | succ j =>
        simp only [List.getElem?_cons_succ] at h1 h2
        exact (inRange_congr nc hpA rfl).mp (hrow.inRange j b h1 h2)
    · intro j h1
      cases j with
      | zero =>
        simp only [List.getElem?_cons_zero, Option.some.injEq] at h1
        obtain ⟨k1, k2, k3⟩ := hsk h1
        refine ⟨k1, by rw [hrow.partA, hqA, k2]; simp, _, rfl, by rw [hqB, k3]; simp⟩
      | succ j =>
        simp only [List.getElem?_cons_succ] at h1 ⊢
        exact hrow.skipped j h1
    · rw [hn, ho1]
      cases calcNcoll <;> cases o <;> simp [Outcome.returned, List.countP_cons] <;> omega
    · rw [hc, ho1]; cases o <;> cases coll <;> simp [Outcome.returned]

/-- What a pass over all pairs does. -/
structure PairSpec (nc : NucleonCommon F) (As Bs As' Bs' : List (NucleonData F)) (M : List (List Outcome)) : Prop where
  len : M.length = As.length
  rows : ∀ row ∈ M, row.length = Bs.length
  placeA : As'.map place = As.map place
  placeB : Bs'.map place = Bs.map place
  partA : As'.map (·.isParticipant) = List.zipWith (fun (a : NucleonData F) row => a.isParticipant || row.any Outcome.isHit) As M
  partB : ∀ j : Nat, Bs'[j]?.map (·.isParticipant) =
    Bs[j]?.map fun b => b.isParticipant || M.any fun row => decide (row[j]? = some .hit)
  inRange : ∀ (i j : Nat) (row : List Outcome) (a b : NucleonData F), M[i]? = some row → row[j]? = some .hit → As[i]? = some a → Bs[j]? = some b → InRange nc a b
  skipped : ∀ (i j : Nat) (row : List Outcome), M[i]? = some row → row[j]? = some .skipped → nc.calcNcoll = false ∧
    (∃ a', As'[i]? = some a' ∧ a'.isParticipant = true) ∧ ∃ b', Bs'[j]? = some b' ∧ b'.isParticipant = true
  countB : Bs'.countP (·.isParticipant) ≤ Bs.countP (·.isParticipant) + (M.map (List.countP Outcome.isHit)).sum

omit [Arith F] [Rng F E D] in
theorem countP_zipWith_or (Bs : List (NucleonData F)) (row : List Outcome) :
    (List.zipWith (fun (b : NucleonData F) (o : Outcome) => b.isParticipant || o.isHit) Bs row).countP id ≤
      Bs.countP (·.isParticipant) + row.countP Outcome.isHit := by
  induction Bs generalizing row with
  | nil => simp
  | cons B Bs ih =>
    cases row with
    | nil => simp
    | cons o row =>
      have := ih row
      simp only [List.zipWith_cons_cons, List.countP_cons]
      generalize o.isHit = h
      cases B.isParticipant <;> cases h <;> simp <;> omega

omit [Rng F E D] in
theorem RowSpec.countB {nc : NucleonCommon F} {A A' : NucleonData F} {Bs Bs' : List (NucleonData F)} {row : List Outcome}
    (h : RowSpec nc A Bs A' Bs' row) :
    Bs'.countP (·.isParticipant) ≤ Bs.countP (·.isParticipant) + row.countP Outcome.isHit := by
  have h1 : Bs'.countP (·.isParticipant) = (Bs'.map (·.isParticipant)).countP id := by rw [List.countP_map]; rfl
  rw [h1, h.partB]
  exact countP_zipWith_or Bs row

omit [Rng F E D] in
/-- The participants of the first nucleus are at most as many as there are hits, if there were none before. -/
theorem PairSpec.countA {nc : NucleonCommon F} {As Bs As' Bs' : List (NucleonData F)} {M : List (List Outcome)}
    (h : PairSpec nc As Bs As' Bs' M) :
    As'.countP (·.isParticipant) ≤ As.countP (·.isParticipant) + (M.map (List.countP Outcome.isHit)).sum := by
  have h1 : As'.countP (·.isParticipant) = (As'.map (·.isParticipant)).countP id := by rw [List.countP_map]; rfl
  rw [h1, h.partA]
  clear h h1
  induction As generalizing M with
  | nil => simp
  | cons A As ih =>
    cases M with
    | nil => simp
    | cons row M =>
      have := ih (M := M)
      simp only [List.zipWith_cons_cons, List.countP_cons, List.map_cons, List.sum_cons]
      by_cases hr : row.any Outcome.isHit = true
      · have : 0 < row.countP Outcome.isHit := by
          obtain ⟨o, ho, hh⟩ := List.any_eq_true.mp hr
          exact List.countP_pos_iff.mpr ⟨o, ho, hh⟩
        cases A.isParticipant <;> simp [hr] <;> omega
      · cases A.isParticipant <;> simp [hr] <;> omega

omit [Rng F E D] in
theorem hits_le_returned (M : List (List Outcome)) :
    (M.map (List.countP Outcome.isHit)).sum ≤ (M.map (List.countP Outcome.returned)).sum := by
  induction M with
  | nil => simp
  | cons row M ih =>
    simp only [List.map_cons, List.sum_cons]
    have : row.countP Outcome.isHit ≤ row.countP Outcome.returned :=
      List.countP_mono_left fun o _ ho => by cases o <;> simp_all [Outcome.isHit, Outcome.returned]
    omega

omit [Rng F E D] in
theorem PairSpec.returned_le {nc : NucleonCommon F} {As Bs As' Bs' : List (NucleonData F)} {M : List (List Outcome)}
    (h : PairSpec nc As Bs As' Bs' M) : (M.map (List.countP Outcome.returned)).sum ≤ As.length * Bs.length := by
  rw [← h.len]
  have := h.rows
  clear h
  induction M with
  | nil => simp
  | cons row M ih =>
    have h1 := ih fun r hr => this r (by simp [hr])
    have h2 : row.countP Outcome.returned ≤ Bs.length := by
      rw [← this row (by simp)]; exact List.countP_le_length
    simp only [List.map_cons, List.sum_cons, List.length_cons]
    rw [Nat.add_mul]; omega

omit [Rng F E D] in
theorem RowSpec.partB' {nc : NucleonCommon F} {A A' : NucleonData F} {Bs Bs' : List (NucleonData F)} {row : List Outcome}
    (h : RowSpec nc A Bs A' Bs' row) (j : Nat) :
    Bs'[j]?.map (·.isParticipant) = Bs[j]?.map fun b => b.isParticipant || decide (row[j]? = some .hit) := by
  have h1 : (Bs'.map (·.isParticipant))[j]? = (List.zipWith (fun (b : NucleonData F) (o : Outcome) => b.isParticipant || o.isHit) Bs row)[j]? := by
    rw [h.partB]
  rw [List.getElem?_map, List.getElem?_zipWith] at h1
  rw [h1]
  cases hb : Bs[j]? with
  | none => rfl
  | some b =>
    have hj : j < row.length := by
      rw [h.len]; exact (List.getElem?_eq_some_iff.mp hb).1
    rw [List.getElem?_eq_getElem hj]
    cases row[j] <;> simp [Outcome.isHit]

theorem pairLoop_spec (nc : NucleonCommon F) (calcNcoll : Bool) (As Bs : List (NucleonData F)) (ncoll : Nat)
    (coll : Bool) (w : Rand E D) :
    ∃ M, PairSpec nc As Bs (pairLoop nc calcNcoll As Bs ncoll coll w).1.1 (pairLoop nc calcNcoll As Bs ncoll coll w).1.2.1 M ∧
      (pairLoop nc calcNcoll As Bs ncoll coll w).1.2.2.1 =
        ncoll + (if calcNcoll then (M.map (List.countP Outcome.returned)).sum else 0) ∧
      (pairLoop nc calcNcoll As Bs ncoll coll w).1.2.2.2 = (coll || M.any fun row => row.any Outcome.returned) := by
  induction As generalizing Bs ncoll coll w with
  | nil =>
    refine ⟨[], ⟨rfl, by simp, rfl, rfl, rfl, by simp [pairLoop], by simp, by simp, by simp [pairLoop]⟩, by simp [pairLoop], by simp [pairLoop]⟩
  | cons A As ih =>
    obtain ⟨row, hrow, hn, hc⟩ := pairRow_spec nc calcNcoll A Bs ncoll coll w
    rw [pairLoop]
    dsimp only
    generalize pairRow nc calcNcoll A Bs ncoll coll w = r at *
    obtain ⟨M, hM, hMn, hMc⟩ := ih r.1.2.1 r.1.2.2.1 r.1.2.2.2 r.2
    generalize pairLoop nc calcNcoll As r.1.2.1 r.1.2.2.1 r.1.2.2.2 r.2 = res at *
    have hlenB : r.1.2.1.length = Bs.length := by
      have := congrArg List.length hrow.placeB; simpa using this
    refine ⟨row :: M, ⟨?_, ?_, ?_, ?_, ?_, ?_, ?_, ?_, ?_⟩, ?_, ?_⟩
    · simp [hM.len]
    · intro row' h
      rcases List.mem_cons.mp h with rfl | h
      · exact hrow.len
      · rw [hM.rows row' h, hlenB]
    · simp only [List.map_cons, hM.placeA, hrow.placeA]
    · rw [hM.placeB, hrow.placeB]
    · simp only [List.map_cons, List.zipWith_cons_cons, hM.partA, hrow.partA]
    · intro j
      rw [hM.partB j]
      have h1 := hrow.partB' j
      cases hb : r.1.2.1[j]? with
      | none =>
        rw [hb] at h1
        cases hb2 : Bs[j]? with
        | none => rfl
        | some b => rw [hb2] at h1; simp at h1
      | some b' =>
        rw [hb] at h1
        cases hb2 : Bs[j]? with
        | none => rw [hb2] at h1; simp at h1
        | some b =>
          rw [hb2] at h1
          simp only [Option.map_some, Option.some.injEq] at h1 ⊢
          rw [h1, List.any_cons, Bool.or_assoc]
    · intro i j row' a b h1 h2 h3 h4
      cases i with
      | zero =>
        simp only [List.getElem?_cons_zero, Option.some.injEq] at h1 h3
        subst h1; subst h3
        exact hrow.inRange j b h2 h4
      | succ i =>
        simp only [List.getElem?_cons_succ] at h1 h3
        have h5 : (r.1.2.1.map place)[j]? = (Bs.map place)[j]? := by rw [hrow.placeB]
        rw [List.getElem?_map, List.getElem?_map, h4] at h5
        cases hb : r.1.2.1[j]? with
        | none => rw [hb] at h5; simp at h5
        | some b' =>
          rw [hb] at h5
          simp only [Option.map_some, Option.some.injEq] at h5
          exact (inRange_congr nc rfl h5).mp (hM.inRange i j row' a b' h1 h2 h3 hb)
    · intro i j row' h1 h2
      cases i with
      | zero =>
        simp only [List.getElem?_cons_zero, Option.some.injEq] at h1
        subst h1
        obtain ⟨k1, k2, b', k3, k4⟩ := hrow.skipped j h2
        refine ⟨k1, ⟨_, rfl, k2⟩, ?_⟩
        have h3 := hM.partB j
        rw [k3] at h3
        cases hb : res.1.2.1[j]? with
        | none => rw [hb] at h3; simp at h3
        | some b'' =>
          rw [hb] at h3
          simp only [Option.map_some, Option.some.injEq, k4, Bool.true_or] at h3
          exact ⟨b'', rfl, h3⟩
      | succ i =>
        simp only [List.getElem?_cons_succ] at h1 ⊢
        exact hM.skipped i j row' h1 h2
    · have h1 := hM.countB
      have h2 := hrow.countB
      simp only [List.map_cons, List.sum_cons]
      exact le_trans h1 (by omega)
    · rw [hMn, hn]; cases calcNcoll <;> simp; omega
    · rw [hMc, hc]; simp [Bool.or_assoc]

/-! ### Fresh nuclei -/

omit [Rng F E D] in
/-- For nuclei without participants, a participant of the first nucleus has hit some partner. -/
theorem PairSpec.partnerA {nc : NucleonCommon F} {As Bs As' Bs' : List (NucleonData F)} {M : List (List Outcome)}
    (h : PairSpec nc As Bs As' Bs' M) (hA : ∀ a ∈ As, a.isParticipant = false)
    {i : Nat} {a' : NucleonData F} (ha : As'[i]? = some a') (hp : a'.isParticipant = true) :
    ∃ (row : List Outcome) (j : Nat), M[i]? = some row ∧ row[j]? = some .hit := by
  have h1 : (As'.map (·.isParticipant))[i]? = (List.zipWith (fun (a : NucleonData F) row => a.isParticipant || row.any Outcome.isHit) As M)[i]? := by
    rw [h.partA]
  rw [List.getElem?_map, ha, List.getElem?_zipWith] at h1
  cases hAs : As[i]? with
  | none => rw [hAs] at h1; simp at h1
  | some a =>
    cases hM : M[i]? with
    | none => rw [hAs, hM] at h1; simp at h1
    | some row =>
      rw [hAs, hM] at h1
      simp only [Option.map_some, Option.some.injEq, hp, hA a (List.mem_of_getElem? hAs), Bool.false_or] at h1
      obtain ⟨o, ho, hh⟩ := List.any_eq_true.mp h1.symm
      cases o <;> simp [Outcome.isHit] at hh
      obtain ⟨j, hj⟩ := List.mem_iff_getElem?.mp ho
      exact ⟨row, j, rfl, hj⟩

omit [Rng F E D] in
theorem PairSpec.partnerB {nc : NucleonCommon F} {As Bs As' Bs' : List (NucleonData F)} {M : List (List Outcome)}
    (h : PairSpec nc As Bs As' Bs' M) (hB : ∀ b ∈ Bs, b.isParticipant = false)
    {j : Nat} {b' : NucleonData F} (hb : Bs'[j]? = some b') (hp : b'.isParticipant = true) :
    ∃ (i : Nat) (row : List Outcome), M[i]? = some row ∧ row[j]? = some .hit := by
  have h1 := h.partB j
  rw [hb] at h1
  cases hBs : Bs[j]? with
  | none => rw [hBs] at h1; simp at h1
  | some b =>
    rw [hBs] at h1
    simp only [Option.map_some, Option.some.injEq, hp, hB b (List.mem_of_getElem? hBs), Bool.false_or] at h1
    obtain ⟨row, hrow, hh⟩ := List.any_eq_true.mp h1.symm
    obtain ⟨i, hi⟩ := List.mem_iff_getElem?.mp hrow
    exact ⟨i, row, hi, by simpa using hh⟩

omit [Rng F E D] in
/-- Both nucleons of a hit are participants. -/
theorem PairSpec.hit_participants {nc : NucleonCommon F} {As Bs As' Bs' : List (NucleonData F)} {M : List (List Outcome)}
    (h : PairSpec nc As Bs As' Bs' M) {i j : Nat} {row : List Outcome} (hi : M[i]? = some row) (hj : row[j]? = some .hit) :
    ∃ a b a' b', As[i]? = some a ∧ Bs[j]? = some b ∧ As'[i]? = some a' ∧ Bs'[j]? = some b' ∧
      place a' = place a ∧ place b' = place b ∧ a'.isParticipant = true ∧ b'.isParticipant = true ∧ InRange nc a b := by
  have hil : i < As.length := by rw [← h.len]; exact (List.getElem?_eq_some_iff.mp hi).1
  have hjl : j < Bs.length := by
    rw [← h.rows row (List.mem_of_getElem? hi)]; exact (List.getElem?_eq_some_iff.mp hj).1
  have hA := List.getElem?_eq_getElem hil
  have hB := List.getElem?_eq_getElem hjl
  have hA'l : i < As'.length := by have := congrArg List.length h.placeA; simp at this; omega
  have hB'l : j < Bs'.length := by have := congrArg List.length h.placeB; simp at this; omega
  have hA' := List.getElem?_eq_getElem hA'l
  have hB' := List.getElem?_eq_getElem hB'l
  refine ⟨_, _, _, _, hA, hB, hA', hB', ?_, ?_, ?_, ?_, h.inRange i j row _ _ hi hj hA hB⟩
  · have : (As'.map place)[i]? = (As.map place)[i]? := by rw [h.placeA]
    rw [List.getElem?_map, List.getElem?_map, hA, hA'] at this
    simpa using this
  · have : (Bs'.map place)[j]? = (Bs.map place)[j]? := by rw [h.placeB]
    rw [List.getElem?_map, List.getElem?_map, hB, hB'] at this
    simpa using this
  · have h1 : (As'.map (·.isParticipant))[i]? = (List.zipWith (fun (a : NucleonData F) row => a.isParticipant || row.any Outcome.isHit) As M)[i]? := by
      rw [h.partA]
    rw [List.getElem?_map, hA', List.getElem?_zipWith, hA, hi] at h1
    simp only [Option.map_some, Option.some.injEq] at h1
    rw [h1]
    have : row.any Outcome.isHit = true := List.any_eq_true.mpr ⟨_, List.mem_of_getElem? hj, rfl⟩
    rw [this, Bool.or_true]
  · have h1 := h.partB j
    rw [hB', hB] at h1
    simp only [Option.map_some, Option.some.injEq] at h1
    rw [h1]
    have : (M.any fun row => decide (row[j]? = some .hit)) = true :=
      List.any_eq_true.mpr ⟨row, List.mem_of_getElem? hi, by simpa using hj⟩
    rw [this, Bool.or_true]

omit [Rng F E D] in
/-- For fresh nuclei, some call returned true iff there is a hit. -/
theorem PairSpec.exists_hit {nc : NucleonCommon F} {As Bs As' Bs' : List (NucleonData F)} {M : List (List Outcome)}
    (h : PairSpec nc As Bs As' Bs' M) (hA : ∀ a ∈ As, a.isParticipant = false)
    (hc : (M.any fun row => row.any Outcome.returned) = true) :
    ∃ (i j : Nat) (row : List Outcome), M[i]? = some row ∧ row[j]? = some .hit := by
  obtain ⟨row, hrow, hr⟩ := List.any_eq_true.mp hc
  obtain ⟨o, ho, hret⟩ := List.any_eq_true.mp hr
  obtain ⟨i, hi⟩ := List.mem_iff_getElem?.mp hrow
  obtain ⟨j, hj⟩ := List.mem_iff_getElem?.mp ho
  cases o with
  | miss => simp [Outcome.returned] at hret
  | hit => exact ⟨i, j, row, hi, hj⟩
  | skipped =>
    obtain ⟨-, ⟨a', ha', hp⟩, -⟩ := h.skipped i j row hi hj
    obtain ⟨row', j', h1, h2⟩ := h.partnerA hA ha' hp
    exact ⟨i, j', row', h1, h2⟩

end
end Trento
