import Verif.Lemmas.RunInvariant

/-!
# Leftovers of earlier attempts

A nucleon whose constituents have not been sampled since it was placed still carries the constituent vector of an earlier attempt.  `clear` drops
these leftovers; everything a collision does commutes with it.
-/

namespace Trento
variable {F E D : Type} [Arith F]

/-- without constituents that do not count (model: `constituents_exist_` is false) -/
def NucleonData.clear (n : NucleonData F) : NucleonData F := if n.constituentsExist then n else { n with constituents := [] }

/-- a nucleus without such constituents -/
def Nucleus.clear (nuc : Nucleus F) : Nucleus F := { nuc with nucleons := nuc.nucleons.map NucleonData.clear }

section
omit [Arith F]
@[simp] theorem clear_x (n : NucleonData F) : n.clear.x = n.x := by unfold NucleonData.clear; split <;> rfl
@[simp] theorem clear_y (n : NucleonData F) : n.clear.y = n.y := by unfold NucleonData.clear; split <;> rfl
@[simp] theorem clear_z (n : NucleonData F) : n.clear.z = n.z := by unfold NucleonData.clear; split <;> rfl
@[simp] theorem clear_part (n : NucleonData F) : n.clear.isParticipant = n.isParticipant := by unfold NucleonData.clear; split <;> rfl
@[simp] theorem clear_exist (n : NucleonData F) : n.clear.constituentsExist = n.constituentsExist := by unfold NucleonData.clear; split <;> rfl
theorem clear_of_exist {n : NucleonData F} (h : n.constituentsExist = true) : n.clear = n := by unfold NucleonData.clear; rw [if_pos h]
@[simp] theorem clear_clear (n : NucleonData F) : n.clear.clear = n.clear := by
  rcases Bool.eq_false_or_eq_true n.constituentsExist with h | h <;> simp [NucleonData.clear, h]
end

theorem clear_set (off : F) (n m : NucleonData F) (x y z : F) :
    (setNucleonPosition off n x y z).clear = (setNucleonPosition off m x y z).clear := rfl

theorem isTooClose_clear (dm : F) (l : List (NucleonData F)) (n : NucleonData F) :
    isTooClose dm (l.map NucleonData.clear) n.clear = isTooClose dm l n := by
  simp only [isTooClose, List.any_map, Function.comp_def, clear_x, clear_y, clear_z]

theorem isTooClose_congr (dm : F) {l l' : List (NucleonData F)} (h : l.map NucleonData.clear = l'.map NucleonData.clear) {n n' : NucleonData F}
    (hn : n.clear = n'.clear) : isTooClose dm l n = isTooClose dm l' n' := by
  rw [← isTooClose_clear, h, hn, isTooClose_clear]

variable [Rng F E D]

theorem placeWS_clear (off dm r : F) {l l' : List (NucleonData F)} (h : l.map NucleonData.clear = l'.map NucleonData.clear) (left : ℕ)
    (n n' : NucleonData F) (w : Rand E D) :
    (placeWS off dm r l (left+1) n w).1.clear = (placeWS off dm r l' (left+1) n' w).1.clear ∧
      (placeWS off dm r l (left+1) n w).2 = (placeWS off dm r l' (left+1) n' w).2 := by
  induction left generalizing n n' w with
  | zero => simp only [placeWS, Nat.lt_irrefl, decide_false, Bool.false_and, Bool.false_eq_true, if_false]; exact ⟨rfl, trivial⟩
  | succ left ih =>
    rw [placeWS, placeWS]
    dsimp only
    rw [isTooClose_congr dm h (clear_set off n n' _ _ _)]
    split
    · exact ih _ _ _
    · exact ⟨rfl, rfl⟩

theorem placeAllWS_clear (off dm : F) (l l' : List (NucleonData F)) (h : l.map NucleonData.clear = l'.map NucleonData.clear) (rs : List F)
    (ns ns' : List (NucleonData F)) (hl : rs.length = ns.length) (hl' : rs.length = ns'.length) (w : Rand E D) :
    (placeAllWS off dm l rs ns w).1.map NucleonData.clear = (placeAllWS off dm l' rs ns' w).1.map NucleonData.clear ∧
      (placeAllWS off dm l rs ns w).2 = (placeAllWS off dm l' rs ns' w).2 := by
  induction rs generalizing l l' ns ns' w with
  | nil =>
    rw [List.length_nil, eq_comm, List.length_eq_zero_iff] at hl hl'
    subst hl; subst hl'
    simp only [placeAllWS, List.append_nil]
    exact ⟨h, trivial⟩
  | cons r rs ih =>
    cases ns with
    | nil => simp at hl
    | cons n ns =>
      cases ns' with
      | nil => simp at hl'
      | cons n' ns' =>
        rw [placeAllWS, placeAllWS]
        dsimp only
        obtain ⟨h1, h2⟩ := placeWS_clear off dm r h 999 n n' w
        rw [← h2]
        refine ih _ _ ?_ _ _ (by simpa using hl) (by simpa using hl') _
        rw [List.map_append, List.map_append, h]
        simp only [List.map_cons, List.map_nil]
        rw [h1]

theorem placeDef_clear (off dm : F) (t : TiltSpin F) (rSin : F) {l l' : List (NucleonData F)}
    (h : l.map NucleonData.clear = l'.map NucleonData.clear) (left : ℕ) (z : F)
    (n n' : NucleonData F) (w : Rand E D) :
    (placeDef off dm t rSin l (left+1) z n w).1.clear = (placeDef off dm t rSin l' (left+1) z n' w).1.clear ∧
      (placeDef off dm t rSin l (left+1) z n w).2 = (placeDef off dm t rSin l' (left+1) z n' w).2 := by
  induction left generalizing z n n' w with
  | zero => simp only [placeDef, Nat.lt_irrefl, decide_false, Bool.false_and, Bool.false_eq_true, if_false]; exact ⟨rfl, trivial⟩
  | succ left ih =>
    rw [placeDef, placeDef]
    dsimp only
    rw [isTooClose_congr dm h (clear_set off n n' _ _ _)]
    split
    · exact ih _ _ _ _
    · exact ⟨rfl, rfl⟩

theorem placeAllDef_clear (off dm : F) (t : TiltSpin F) (l l' : List (NucleonData F)) (h : l.map NucleonData.clear = l'.map NucleonData.clear)
    (rs : List (F × F)) (ns ns' : List (NucleonData F)) (hl : rs.length = ns.length) (hl' : rs.length = ns'.length) (w : Rand E D) :
    (placeAllDef off dm t l rs ns w).1.map NucleonData.clear = (placeAllDef off dm t l' rs ns' w).1.map NucleonData.clear ∧
      (placeAllDef off dm t l rs ns w).2 = (placeAllDef off dm t l' rs ns' w).2 := by
  induction rs generalizing l l' ns ns' w with
  | nil =>
    rw [List.length_nil, eq_comm, List.length_eq_zero_iff] at hl hl'
    subst hl; subst hl'
    simp only [placeAllDef, List.append_nil]
    exact ⟨h, trivial⟩
  | cons r rs ih =>
    cases ns with
    | nil => simp at hl
    | cons n ns =>
      cases ns' with
      | nil => simp at hl'
      | cons n' ns' =>
        rw [placeAllDef, placeAllDef]
        dsimp only
        obtain ⟨h1, h2⟩ := placeDef_clear off dm t (r.1 * sqrt (lit 1 - r.2 * r.2)) h 999 (r.1 * r.2) n n' w
        rw [← h2]
        refine ih _ _ ?_ _ _ (by simpa using hl) (by simpa using hl') _
        rw [List.map_append, List.map_append, h]
        simp only [List.map_cons, List.map_nil]
        rw [h1]

theorem placeManual_clear (off : F) (e : Euler F) (ps : List (F × F × F)) (ns ns' : List (NucleonData F)) (hl : ns.length = ns'.length) :
    (placeManual off e ps ns).map (List.map NucleonData.clear) = (placeManual off e ps ns').map (List.map NucleonData.clear) := by
  induction ps generalizing ns ns' with
  | nil =>
    cases ns with
    | nil =>
      rw [List.length_nil, eq_comm, List.length_eq_zero_iff] at hl
      rw [hl]
    | cons n ns =>
      cases ns' with
      | nil => simp at hl
      | cons n' ns' => rfl
  | cons p ps ih =>
    cases ns with
    | nil =>
      rw [List.length_nil, eq_comm, List.length_eq_zero_iff] at hl
      rw [hl]
    | cons n ns =>
      cases ns' with
      | nil => simp at hl
      | cons n' ns' =>
        obtain ⟨x, y, z⟩ := p
        have := ih ns ns' (by simpa using hl)
        rw [placeManual, placeManual]
        cases h1 : placeManual off e ps ns with
        | error er =>
          rw [h1] at this
          cases h2 : placeManual off e ps ns' with
          | error er' => rw [h2] at this; simpa using this
          | ok v' => rw [h2] at this; cases this
        | ok v =>
          rw [h1] at this
          cases h2 : placeManual off e ps ns' with
          | error er' => rw [h2] at this; cases this
          | ok v' =>
            rw [h2] at this
            simp only [Except.map, Except.ok.injEq] at this ⊢
            rw [List.map_cons, List.map_cons, this, clear_set off n n']

/-- Sampling a nucleus does not depend on the state of its nucleons. -/
theorem sampleNucleons_clear (fuel : ℕ) (A A' : Nucleus F) (hA : A.WF) (hk : A.kind = A'.kind) (hl : A.nucleons.length = A'.nucleons.length)
    (off : F) (w : Rand E D) :
    (A.sampleNucleons fuel off w).map (fun t => (t.1.clear, t.2)) = (A'.sampleNucleons fuel off w).map fun t => (t.1.clear, t.2) := by
  have key : ∀ r r' : Res (List (NucleonData F) × Rand E D),
      (r.map fun t => (t.1.map NucleonData.clear, t.2)) = (r'.map fun t => (t.1.map NucleonData.clear, t.2)) →
      (Except.map (fun t : Nucleus F × Rand E D => (t.1.clear, t.2))
        (match r with | .error e => .error e | .ok (ns, w) => .ok ({ A with nucleons := ns, offset := off }, w)) : Res (Nucleus F × Rand E D)) =
      Except.map (fun t : Nucleus F × Rand E D => (t.1.clear, t.2))
        (match r' with | .error e => .error e | .ok (ns, w) => .ok ({ A' with nucleons := ns, offset := off }, w)) := by
    intro r r' h
    cases r with
    | error e =>
      cases r' with
      | error e' => simpa [Except.map] using h
      | ok v => cases h
    | ok u =>
      cases r' with
      | error e' => cases h
      | ok v =>
        simp only [Except.map, Except.ok.injEq, Prod.mk.injEq] at h ⊢
        simp only [Nucleus.clear, Nucleus.mk.injEq]
        exact ⟨⟨hk, h.1, trivial⟩, h.2⟩
  unfold Nucleus.sampleNucleons
  dsimp only
  refine key _ _ ?_
  rw [← hk]
  unfold Nucleus.WF at hA
  revert hA
  cases A.kind with
  | proton =>
    intro hA
    dsimp only at hA ⊢
    obtain ⟨n, hn⟩ := List.length_eq_one_iff.mp hA
    obtain ⟨n', hn'⟩ := List.length_eq_one_iff.mp (hl.symm.trans hA)
    rw [hn, hn']
    rfl
  | deuteron a b =>
    intro hA
    dsimp only at hA ⊢
    obtain ⟨n1, n2, hn⟩ := List.length_eq_two.mp hA
    obtain ⟨n1', n2', hn'⟩ := List.length_eq_two.mp (hl.symm.trans hA)
    rw [hn, hn']
    unfold sampleDeuteron
    cases deuteronLoop a b fuel w <;> rfl
  | woodsSaxon R a dm =>
    intro hA
    dsimp only
    unfold sampleWS
    dsimp only
    rw [← hl]
    obtain ⟨h1, h2⟩ := placeAllWS_clear off dm [] [] rfl (sortBy id (drawRadii R a A.nucleons.length w).1) A.nucleons A'.nucleons
      (by rw [sortBy_length, drawRadii_length]) (by rw [sortBy_length, drawRadii_length, hl]) (drawRadii R a A.nucleons.length w).2
    simp only [Except.map, Except.ok.injEq, Prod.mk.injEq]
    exact ⟨h1, h2⟩
  | deformed R a b2 b4 rmax dm =>
    intro hA
    dsimp only
    unfold sampleDeformed
    dsimp only
    rw [← hl]
    cases hd : drawDeformed fuel R a b2 b4 rmax A.nucleons.length (drawTiltSpin (F := F) w).2 with
    | error e => rfl
    | ok v =>
      have hv := drawDeformed_length hd
      obtain ⟨h1, h2⟩ := placeAllDef_clear off dm (drawTiltSpin (F := F) w).1 [] [] rfl (sortBy Prod.fst v.1) A.nucleons A'.nucleons
        (by rw [sortBy_length, hv]) (by rw [sortBy_length, hv, hl]) v.2
      simp only [Except.map, Except.ok.injEq, Prod.mk.injEq]
      exact ⟨h1, h2⟩
  | manual configs rmax =>
    intro hA
    dsimp only
    unfold sampleManual
    dsimp only
    split
    · rfl
    · rename_i ps hps
      have := placeManual_clear off (drawEuler (F := F) w).1 ps A.nucleons A'.nucleons hl
      revert this
      cases placeManual off (drawEuler (F := F) w).1 ps A.nucleons with
      | error e =>
        cases placeManual off (drawEuler (F := F) w).1 ps A'.nucleons with
        | error e' => intro h; simpa [Except.map] using h
        | ok v => intro h; cases h
      | ok u =>
        cases placeManual off (drawEuler (F := F) w).1 ps A'.nucleons with
        | error e' => intro h; cases h
        | ok v => intro h; simpa [Except.map] using h

/-! ### Collisions -/

theorem sampleConstituents_clear (nc : NucleonCommon F) (n : NucleonData F) (w : Rand E D) :
    nc.sampleConstituents n.clear w = nc.sampleConstituents n w := by
  unfold NucleonCommon.sampleConstituents
  rw [clear_exist]
  rcases Bool.eq_false_or_eq_true n.constituentsExist with h | h
  · simp only [h, if_true, clear_of_exist h]
  · simp only [h, Bool.false_eq_true, if_false, NucleonData.clear]

theorem participate_clear (nc : NucleonCommon F) (A B : NucleonData F) (w : Rand E D) :
    nc.participate A.clear B.clear w =
      (((nc.participate A B w).1.1, (nc.participate A B w).1.2.1.clear, (nc.participate A B w).1.2.2.clear), (nc.participate A B w).2) := by
  have hs : ∀ (n : NucleonData F) (w : Rand E D), (nc.sampleConstituents n w).1.clear = (nc.sampleConstituents n w).1 :=
    fun n w => clear_of_exist (sampleConstituents_frame nc n w).2.2.2.2.1
  have hp : ∀ (n : NucleonData F) (w : Rand E D), (nc.sampleConstituents n w).1.setParticipant.clear = (nc.sampleConstituents n w).1.setParticipant := by
    intro n w
    refine clear_of_exist ?_
    unfold NucleonData.setParticipant
    split <;> exact (sampleConstituents_frame nc n w).2.2.2.2.1
  unfold NucleonCommon.participate
  simp only [clear_x, clear_y, clear_part, sampleConstituents_clear]
  split
  · rfl
  · split
    · rfl
    · split
      · simp only [hp]
      · simp only [hs]

theorem pairRow_clear (nc : NucleonCommon F) (cn : Bool) (A : NucleonData F) (Bs : List (NucleonData F)) (k : ℕ) (c : Bool) (w : Rand E D) :
    pairRow nc cn A.clear (Bs.map NucleonData.clear) k c w =
      (((pairRow nc cn A Bs k c w).1.1.clear, (pairRow nc cn A Bs k c w).1.2.1.map NucleonData.clear, (pairRow nc cn A Bs k c w).1.2.2),
        (pairRow nc cn A Bs k c w).2) := by
  induction Bs generalizing A k c w with
  | nil => rfl
  | cons B Bs ih =>
    rw [List.map_cons, pairRow, pairRow]
    dsimp only
    rw [participate_clear]
    dsimp only
    rw [ih]
    rfl

theorem pairLoop_clear (nc : NucleonCommon F) (cn : Bool) (As Bs : List (NucleonData F)) (k : ℕ) (c : Bool) (w : Rand E D) :
    pairLoop nc cn (As.map NucleonData.clear) (Bs.map NucleonData.clear) k c w =
      (((pairLoop nc cn As Bs k c w).1.1.map NucleonData.clear, (pairLoop nc cn As Bs k c w).1.2.1.map NucleonData.clear,
        (pairLoop nc cn As Bs k c w).1.2.2), (pairLoop nc cn As Bs k c w).2) := by
  induction As generalizing Bs k c w with
  | nil => rfl
  | cons A As ih =>
    rw [List.map_cons, pairLoop, pairLoop]
    dsimp only
    rw [pairRow_clear]
    dsimp only
    rw [ih]
    rfl

/-- the result of an attempt without leftovers -/
def clearC (t : (F × ℕ × Nucleus F × Nucleus F) × Rand E D) : (F × ℕ × Nucleus F × Nucleus F) × Rand E D :=
  ((t.1.1, t.1.2.1, t.1.2.2.1.clear, t.1.2.2.2.clear), t.2)

theorem map_eq_cases {α β : Type} {f : α → β} {r r' : Res α} (h : r.map f = r'.map f) :
    (∃ e, r = .error e ∧ r' = .error e) ∨ ∃ a a', r = .ok a ∧ r' = .ok a' ∧ f a = f a' := by
  cases r with
  | error e =>
    cases r' with
    | error e' => left; exact ⟨e, rfl, by simpa [Except.map] using h.symm⟩
    | ok v => cases h
  | ok u =>
    cases r' with
    | error e' => cases h
    | ok v => right; exact ⟨u, v, rfl, rfl, by simpa [Except.map] using h⟩

/-- An attempt does not depend on the state the previous one left the nucleons in. -/
theorem collisionLoop_clear (rfuel : ℕ) (c : Collider F) (fuel : ℕ) (A A' B B' : Nucleus F) (hA : A.WF) (hB : B.WF)
    (hA' : A'.WF) (hB' : B'.WF)
    (kA : A.kind = A'.kind) (kB : B.kind = B'.kind) (lA : A.nucleons.length = A'.nucleons.length) (lB : B.nucleons.length = B'.nucleons.length)
    (k : ℕ) (coll : Bool) (w : Rand E D) :
    (collisionLoop rfuel c fuel A B k coll w).map clearC = (collisionLoop rfuel c fuel A' B' k coll w).map clearC := by
  induction fuel generalizing A A' B B' k coll w with
  | zero => rfl
  | succ fuel ih =>
    rw [collisionLoop, collisionLoop]
    dsimp only
    generalize canonical (F := F) w = uw
    rcases map_eq_cases (sampleNucleons_clear rfuel A A' hA kA lA (c.asymmetry * impactFormula c.bmin c.bmax uw.1) uw.2) with
      ⟨e, h1, h2⟩ | ⟨⟨A1, w1⟩, ⟨A1', w1'⟩, h1, h2, h3⟩
    · rw [h1, h2]
    · rw [h1, h2]
      simp only [Prod.mk.injEq] at h3 ⊢
      obtain ⟨h3, rfl⟩ := h3
      rcases map_eq_cases (sampleNucleons_clear rfuel B B' hB kB lB ((c.asymmetry - lit 1) * impactFormula c.bmin c.bmax uw.1) w1) with
        ⟨e, g1, g2⟩ | ⟨⟨B1, w2⟩, ⟨B1', w2'⟩, g1, g2, g3⟩
      · rw [g1, g2]
      · rw [g1, g2]
        simp only [Prod.mk.injEq] at g3 ⊢
        obtain ⟨g3, rfl⟩ := g3
        have e3 : A1.nucleons.map NucleonData.clear = A1'.nucleons.map NucleonData.clear := congrArg Nucleus.nucleons h3
        have f3 : B1.nucleons.map NucleonData.clear = B1'.nucleons.map NucleonData.clear := congrArg Nucleus.nucleons g3
        have p := pairLoop_clear c.nc c.calcNcoll A1.nucleons B1.nucleons k coll w2
        rw [e3, f3, pairLoop_clear] at p
        have qA := sampleNucleons_reset hA h1
        have qB := sampleNucleons_reset hB g1
        have qA' := sampleNucleons_reset hA' h2
        have qB' := sampleNucleons_reset hB' g2
        have hI : NucleonInvariant E D c.nc (fun _ => True) := ⟨fun _ _ _ => trivial, fun _ _ _ => trivial⟩
        obtain ⟨-, -, i1, i2⟩ := pairLoop_inv hI c.calcNcoll A1.nucleons B1.nucleons k coll w2 (by simp) (by simp)
        obtain ⟨-, -, i3, i4⟩ := pairLoop_inv hI c.calcNcoll A1'.nucleons B1'.nucleons k coll w2 (by simp) (by simp)
        generalize pairLoop c.nc c.calcNcoll A1.nucleons B1.nucleons k coll w2 = r at *
        generalize pairLoop c.nc c.calcNcoll A1'.nucleons B1'.nucleons k coll w2 = r' at *
        obtain ⟨⟨ra, rb, rn, rc⟩, rw'⟩ := r
        obtain ⟨⟨ra', rb', rn', rc'⟩, rw''⟩ := r'
        simp only [Prod.mk.injEq] at p
        obtain ⟨⟨p1, p2, rfl, rfl⟩, rfl⟩ := p
        have wA : Nucleus.WF { A1 with nucleons := ra } := by
          unfold Nucleus.WF at hA ⊢
          rw [show ({ A1 with nucleons := ra } : Nucleus F).kind = A.kind from qA.1]
          rw [show ({ A1 with nucleons := ra } : Nucleus F).nucleons.length = A.nucleons.length from i1.trans qA.2.2.1]
          exact hA
        have wB : Nucleus.WF { B1 with nucleons := rb } := by
          unfold Nucleus.WF at hB ⊢
          rw [show ({ B1 with nucleons := rb } : Nucleus F).kind = B.kind from qB.1]
          rw [show ({ B1 with nucleons := rb } : Nucleus F).nucleons.length = B.nucleons.length from i2.trans qB.2.2.1]
          exact hB
        have wA' : Nucleus.WF { A1' with nucleons := ra' } := by
          unfold Nucleus.WF at hA' ⊢
          rw [show ({ A1' with nucleons := ra' } : Nucleus F).kind = A'.kind from qA'.1]
          rw [show ({ A1' with nucleons := ra' } : Nucleus F).nucleons.length = A'.nucleons.length from i3.trans qA'.2.2.1]
          exact hA'
        have wB' : Nucleus.WF { B1' with nucleons := rb' } := by
          unfold Nucleus.WF at hB' ⊢
          rw [show ({ B1' with nucleons := rb' } : Nucleus F).kind = B'.kind from qB'.1]
          rw [show ({ B1' with nucleons := rb' } : Nucleus F).nucleons.length = B'.nucleons.length from i4.trans qB'.2.2.1]
          exact hB'
        dsimp only
        split
        · simp only [Except.map, clearC, Nucleus.clear, p1, p2]
          have a1 := congrArg Nucleus.kind h3
          have a2 := congrArg Nucleus.offset h3
          have b1 := congrArg Nucleus.kind g3
          have b2 := congrArg Nucleus.offset g3
          simp only [Nucleus.clear] at a1 a2 b1 b2
          rw [a1, a2, b1, b2]
        · refine ih _ _ _ _ wA wB wA' wB' ?_ ?_ ?_ ?_ _ _ _
          · show A1.clear.kind = A1'.clear.kind
            rw [h3]
          · show B1.clear.kind = B1'.clear.kind
            rw [g3]
          · have := congrArg List.length p1; simpa using this.symm
          · have := congrArg List.length p2; simpa using this.symm

/-! ### Events -/

omit [Rng F E D] in
theorem depositAll_clear (c : EventCfg F) (nc : NucleonCommon F) (debug : Bool) {n : ℕ} (l : List (NucleonData F))
    (h : ∀ a ∈ l, a.isParticipant = true → a.constituentsExist = true) (s : Grid F n × ℕ) :
    depositAll c nc debug (l.map NucleonData.clear) s = depositAll c nc debug l s := by
  induction l generalizing s with
  | nil => rfl
  | cons a l ih =>
    obtain ⟨g, k⟩ := s
    rw [List.map_cons, depositAll, depositAll, clear_part]
    have hl := ih fun b hb => h b (by simp [hb])
    split
    · rename_i hp
      rw [clear_of_exist (h a (by simp) hp)]
      split
      · rfl
      · exact hl _
    · exact hl _

omit [Rng F E D] in
theorem compute_clear (c : EventCfg F) (nc : NucleonCommon F) (debug : Bool) {n : ℕ} (ev : Event F n) {A A' B B' : List (NucleonData F)}
    (eA : A.map NucleonData.clear = A'.map NucleonData.clear) (eB : B.map NucleonData.clear = B'.map NucleonData.clear)
    (hA : ∀ a ∈ A, a.isParticipant = true → a.constituentsExist = true) (hB : ∀ a ∈ B, a.isParticipant = true → a.constituentsExist = true)
    (hA' : ∀ a ∈ A', a.isParticipant = true → a.constituentsExist = true) (hB' : ∀ a ∈ B', a.isParticipant = true → a.constituentsExist = true) :
    ev.compute c nc debug A B = ev.compute c nc debug A' B' := by
  unfold Event.compute computeNuclearThickness
  simp only
  rw [← depositAll_clear c nc debug A hA, eA, depositAll_clear c nc debug A' hA']
  split
  · rfl
  · rw [← depositAll_clear c nc debug B hB, eB, depositAll_clear c nc debug B' hB']

end Trento
