import Verif.Props.Species

/-!
# C12, C13: sampling resets the ensemble; the offset is a pure translation

A nucleus object is created once and then sampled and collided any number of times; `NucleusHistory` describes all states it
can be in.
-/

namespace Trento

section
variable {F E D : Type} [Arith F] [Rng F E D]

/-- All states of a nucleus object: created, sampled with any offset from any random state, or its nucleons modified in any
way by collisions (participant flags, constituents). -/
inductive NucleusHistory (E D : Type) [Rng F E D] : Nucleus F → Prop
  | create (hdf5 : Bool) (disk : String → H5View F) (species : String) (dmin : F) (nuc : Nucleus F)
      (h : createNucleus hdf5 disk species dmin = .ok nuc) : NucleusHistory E D nuc
  | sample (fuel : Nat) (nuc nuc' : Nucleus F) (offset : F) (w w' : Rand E D) (h : NucleusHistory E D nuc)
      (hs : nuc.sampleNucleons fuel offset w = .ok (nuc', w')) : NucleusHistory E D nuc'
  | collide (nuc : Nucleus F) (ns : List (NucleonData F)) (h : NucleusHistory E D nuc)
      (hl : ns.length = nuc.nucleons.length) : NucleusHistory E D { nuc with nucleons := ns }

/-- The number of nucleons fits the class. -/
def Nucleus.WF (nuc : Nucleus F) : Prop :=
  match nuc.kind with
  | .proton => nuc.nucleons.length = 1
  | .deuteron _ _ => nuc.nucleons.length = 2
  | .manual configs _ => ∀ c ∈ configs, c.length = nuc.nucleons.length
  | _ => True

/-- Not a participant, no constituents sampled. -/
def Fresh (n : NucleonData F) : Prop := n.isParticipant = false ∧ n.constituentsExist = false

theorem fresh_set (offset : F) (n : NucleonData F) (x y z : F) : Fresh (setNucleonPosition offset n x y z) := ⟨rfl, rfl⟩

theorem placeWS_fresh (offset dminsq r : F) (placed : List (NucleonData F)) (left : Nat) (n : NucleonData F) (w : Rand E D) :
    Fresh (placeWS offset dminsq r placed (left+1) n w).1 := by
  induction left generalizing n w with
  | zero => simp only [placeWS]; exact fresh_set _ _ _ _ _
  | succ left ih =>
    rw [placeWS]
    dsimp only
    split
    · exact ih _ _
    · exact fresh_set _ _ _ _ _

theorem placeDef_fresh (offset dminsq : F) (t : TiltSpin F) (rSin : F) (placed : List (NucleonData F)) (left : Nat) (z : F)
    (n : NucleonData F) (w : Rand E D) : Fresh (placeDef offset dminsq t rSin placed (left+1) z n w).1 := by
  induction left generalizing z n w with
  | zero => simp only [placeDef]; exact fresh_set _ _ _ _ _
  | succ left ih =>
    rw [placeDef]
    dsimp only
    split
    · exact ih _ _ _
    · exact fresh_set _ _ _ _ _

theorem placeAllWS_spec (offset dminsq : F) (placed : List (NucleonData F)) (rs : List F) (ns : List (NucleonData F))
    (w : Rand E D) (hl : rs.length = ns.length) (hp : ∀ n ∈ placed, Fresh n) :
    (placeAllWS offset dminsq placed rs ns w).1.length = placed.length + ns.length ∧
    ∀ n ∈ (placeAllWS offset dminsq placed rs ns w).1, Fresh n := by
  induction ns generalizing placed rs w with
  | nil =>
    cases rs with
    | nil => simpa [placeAllWS] using hp
    | cons r rs => simp at hl
  | cons n ns ih =>
    cases rs with
    | nil => simp at hl
    | cons r rs =>
      rw [placeAllWS]
      dsimp only
      have := ih (placed ++ [(placeWS offset dminsq r placed 1000 n w).1]) rs (placeWS offset dminsq r placed 1000 n w).2
        (by simpa using hl) (by
          intro m hm
          rcases List.mem_append.mp hm with hm | hm
          · exact hp m hm
          · rw [List.mem_singleton.mp hm]; exact placeWS_fresh _ _ _ _ 999 _ _)
      refine ⟨?_, this.2⟩
      rw [this.1]; simp; omega

theorem placeAllDef_spec (offset dminsq : F) (t : TiltSpin F) (placed : List (NucleonData F)) (rs : List (F × F))
    (ns : List (NucleonData F)) (w : Rand E D) (hl : rs.length = ns.length) (hp : ∀ n ∈ placed, Fresh n) :
    (placeAllDef offset dminsq t placed rs ns w).1.length = placed.length + ns.length ∧
    ∀ n ∈ (placeAllDef offset dminsq t placed rs ns w).1, Fresh n := by
  induction ns generalizing placed rs w with
  | nil =>
    cases rs with
    | nil => simpa [placeAllDef] using hp
    | cons r rs => simp at hl
  | cons n ns ih =>
    cases rs with
    | nil => simp at hl
    | cons r rs =>
      rw [placeAllDef]
      dsimp only
      have := ih (placed ++ [(placeDef offset dminsq t (r.1 * sqrt (lit 1 - r.2 * r.2)) placed 1000 (r.1 * r.2) n w).1]) rs
        (placeDef offset dminsq t (r.1 * sqrt (lit 1 - r.2 * r.2)) placed 1000 (r.1 * r.2) n w).2
        (by simpa using hl) (by
          intro m hm
          rcases List.mem_append.mp hm with hm | hm
          · exact hp m hm
          · rw [List.mem_singleton.mp hm]; exact placeDef_fresh _ _ _ _ _ 999 _ _ _)
      refine ⟨?_, this.2⟩
      rw [this.1]; simp; omega

theorem drawRadii_length (R a : F) (k : Nat) (w : Rand E D) : (drawRadii R a k w).1.length = k := by
  induction k generalizing w with
  | zero => rfl
  | succ k ih => rw [drawRadii]; dsimp only; rw [List.length_cons, ih]

theorem insertBy_length {α : Type} (key : α → F) (a : α) (l : List α) : (insertBy key a l).length = l.length + 1 := by
  induction l with
  | nil => rfl
  | cons b l ih => rw [insertBy]; split <;> simp [ih]

theorem sortBy_length {α : Type} (key : α → F) (l : List α) : (sortBy key l).length = l.length := by
  induction l with
  | nil => rfl
  | cons a l ih => rw [sortBy, insertBy_length, ih]; rfl

theorem drawDeformed_length {fuel : Nat} {R a b2 b4 rmax : F} {k : Nat} {w w' : Rand E D} {ss : List (F × F)}
    (h : drawDeformed fuel R a b2 b4 rmax k w = .ok (ss, w')) : ss.length = k := by
  induction k generalizing w w' ss with
  | zero => simp [drawDeformed] at h; simp [h.1.symm]
  | succ k ih =>
    rw [drawDeformed] at h
    split at h
    · cases h
    · split at h
      · cases h
      · rename_i h'
        cases h
        simp [ih h']

theorem placeManual_spec {offset : F} {e : Euler F} {ps : List (F × F × F)} {ns ns' : List (NucleonData F)}
    (h : placeManual offset e ps ns = .ok ns') : ns'.length = ns.length ∧ ∀ n ∈ ns', Fresh n := by
  induction ns generalizing ps ns' with
  | nil => cases ps <;> simp [placeManual] at h <;> subst h <;> simp
  | cons n ns ih =>
    cases ps with
    | nil => simp [placeManual] at h
    | cons p ps =>
      obtain ⟨x, y, z⟩ := p
      rw [placeManual] at h
      split at h
      · cases h
      · rename_i ns1 h1
        cases h
        obtain ⟨h2, h3⟩ := ih h1
        refine ⟨by simp [h2], ?_⟩
        intro m hm
        rcases List.mem_cons.mp hm with rfl | hm
        · exact fresh_set _ _ _ _ _
        · exact h3 m hm

/-- Sampling keeps class and size and resets every nucleon, for every well-formed nucleus. -/
theorem sampleNucleons_reset {fuel : Nat} {nuc nuc' : Nucleus F} {offset : F} {w w' : Rand E D} (hw : nuc.WF)
    (h : nuc.sampleNucleons fuel offset w = .ok (nuc', w')) :
    nuc'.kind = nuc.kind ∧ nuc'.offset = offset ∧ nuc'.nucleons.length = nuc.nucleons.length ∧
    ∀ n ∈ nuc'.nucleons, Fresh n := by
  unfold Nucleus.sampleNucleons at h
  dsimp only at h
  split at h
  · cases h
  · rename_i ns w1 hr
    simp only [Except.ok.injEq, Prod.mk.injEq] at h
    obtain ⟨rfl, rfl⟩ := h
    refine ⟨rfl, rfl, ?_⟩
    show ns.length = nuc.nucleons.length ∧ ∀ n ∈ ns, Fresh n
    unfold Nucleus.WF at hw
    revert hr hw
    cases nuc.kind with
    | proton =>
      intro hw hr
      simp only [Except.ok.injEq, Prod.mk.injEq] at hr
      obtain ⟨n, hn⟩ := List.length_eq_one_iff.mp hw
      rw [hn] at hr ⊢
      rw [← hr.1]
      simp only [sampleProton, List.length_cons, List.length_nil, List.mem_singleton, forall_eq, true_and]
      exact fresh_set _ _ _ _ _
    | deuteron a b =>
      intro hw hr
      simp only [sampleDeuteron] at hr
      split at hr
      · cases hr
      · obtain ⟨n1, n2, hn⟩ := List.length_eq_two.mp hw
        rw [hn] at hr ⊢
        simp only [Except.ok.injEq, Prod.mk.injEq] at hr
        rw [← hr.1]
        simp only [List.length_cons, List.length_nil, List.mem_cons, List.not_mem_nil, or_false, true_and]
        rintro n (rfl | rfl) <;> exact fresh_set _ _ _ _ _
    | woodsSaxon R a dminsq =>
      intro hw hr
      simp only [Except.ok.injEq] at hr
      have := placeAllWS_spec offset dminsq [] (sortBy id (drawRadii R a nuc.nucleons.length w).1) nuc.nucleons
        (drawRadii R a nuc.nucleons.length w).2 (by rw [sortBy_length, drawRadii_length]) (by simp)
      have hns : ns = (placeAllWS offset dminsq [] (sortBy id (drawRadii R a nuc.nucleons.length w).1) nuc.nucleons
        (drawRadii R a nuc.nucleons.length w).2).1 := (congrArg Prod.fst hr).symm
      rw [hns]
      simpa using this
    | deformed R a b2 b4 rmax dminsq =>
      intro hw hr
      simp only [sampleDeformed] at hr
      split at hr
      · cases hr
      · rename_i samples w2 hs
        simp only [Except.ok.injEq] at hr
        have := placeAllDef_spec offset dminsq (drawTiltSpin (F := F) w).1 [] (sortBy Prod.fst samples) nuc.nucleons w2
          (by rw [sortBy_length, drawDeformed_length hs]) (by simp)
        have hns : ns = (placeAllDef offset dminsq (drawTiltSpin (F := F) w).1 [] (sortBy Prod.fst samples) nuc.nucleons w2).1 :=
          (congrArg Prod.fst hr).symm
        rw [hns]
        simpa using this
    | manual configs rmax =>
      intro hw hr
      simp only [sampleManual] at hr
      split at hr
      · cases hr
      · split at hr
        · cases hr
        · rename_i h1
          simp only [Except.ok.injEq, Prod.mk.injEq] at hr
          rw [← hr.1]
          exact placeManual_spec h1

omit [Rng F E D] in
theorem createNucleus_WF {hdf5 : Bool} {disk : String → H5View F} {species : String} {dmin : F} {nuc : Nucleus F}
    (h : createNucleus hdf5 disk species dmin = .ok nuc) : nuc.WF := by
  by_cases hs : species ∈ Spec.speciesTable.map Prod.fst
  · unfold Spec.speciesTable at hs
    simp only [List.map_cons, List.map_nil, List.mem_cons, List.not_mem_nil, or_false] at hs
    rcases hs with rfl | rfl | rfl | rfl | rfl | rfl | rfl | rfl | rfl | rfl | rfl | rfl <;>
    (injection h with h; subst h)
    · exact List.length_replicate
    · exact List.length_replicate
    all_goals trivial
  · obtain ⟨h1, h2⟩ := C11_other_strings hdf5 disk dmin species hs
    by_cases hf : filenameIsHdf5 species = true ∧ hdf5 = true
    · rw [h1 hf.1 hf.2] at h
      unfold manualCreate at h
      split at h
      · cases h
      · cases h
      · split at h
        · cases h
        · split at h
          · cases h
          · split at h
            · cases h
            · split at h
              · cases h
              · dsimp only at h
                split at h
                · cases h
                · injection h with h
                  subst h
                  show ∀ c ∈ h5Configs _ _ _, c.length = (List.replicate _ _).length
                  intro c hc
                  rw [List.length_replicate]
                  unfold h5Configs at hc
                  obtain ⟨i, _, rfl⟩ := List.mem_map.mp hc
                  simp
        · cases h
    · obtain ⟨msg, h2⟩ := h2 hf
      rw [h2] at h; cases h

theorem NucleusHistory.wf {nuc : Nucleus F} (h : NucleusHistory E D nuc) : nuc.WF := by
  induction h with
  | create hdf5 disk species dmin nuc h => exact createNucleus_WF h
  | sample fuel nuc nuc' offset w w' _ hs ih =>
    obtain ⟨h1, -, h2, -⟩ := sampleNucleons_reset ih hs
    unfold Nucleus.WF at ih ⊢
    rw [h1, h2]
    exact ih
  | collide nuc ns _ hl ih =>
    unfold Nucleus.WF at ih ⊢
    dsimp only
    rw [hl]
    exact ih

/-- **C12.** For every arithmetic and every nucleus object in any state it can be in (created from any species or file,
sampled and collided any number of times): after `sample_nucleons` it has the same number of nucleons as before, no
nucleon is a participant and none has sampled constituents. -/
theorem C12_sampling_resets (nuc nuc' : Nucleus F) (hh : NucleusHistory E D nuc) (fuel : Nat) (offset : F)
    (w w' : Rand E D) (h : nuc.sampleNucleons fuel offset w = .ok (nuc', w')) :
    nuc'.nucleons.length = nuc.nucleons.length ∧
    ∀ n ∈ nuc'.nucleons, n.isParticipant = false ∧ n.constituentsExist = false := by
  obtain ⟨-, -, h1, h2⟩ := sampleNucleons_reset hh.wf h
  exact ⟨h1, h2⟩

/-- The number of nucleons never changes over the life of a nucleus object. -/
theorem C12_size_constant {hdf5 : Bool} {disk : String → H5View F} {species : String} {dmin : F} {nuc : Nucleus F}
    (h : createNucleus hdf5 disk species dmin = .ok nuc) (fuel : Nat) (offset : F) (w w' : Rand E D) (nuc' : Nucleus F)
    (ns : List (NucleonData F)) (hl : ns.length = nuc.nucleons.length)
    (hs : { nuc with nucleons := ns }.sampleNucleons fuel offset w = .ok (nuc', w')) :
    nuc'.nucleons.length = nuc.nucleons.length := by
  have hh : NucleusHistory E D { nuc with nucleons := ns } := .collide _ _ (.create _ _ _ _ _ h) hl
  rw [(C12_sampling_resets _ _ hh fuel offset w w' hs).1]; exact hl

end

/-- A Woods–Saxon nucleus can always be sampled. -/
theorem sampleNucleons_ws_ok {F E D : Type} [Arith F] [Rng F E D] (nuc : Nucleus F) (R a d : F)
    (hk : nuc.kind = .woodsSaxon R a d) (fuel : Nat) (b : F) (w : Rand E D) :
    ∃ r, nuc.sampleNucleons fuel b w = .ok r := by
  unfold Nucleus.sampleNucleons; rw [hk]; exact ⟨_, rfl⟩

/-- Non-vacuity of C12: a lead nucleus can be created and sampled. -/
example : ∃ (nuc nuc' : Nucleus ℝ) (w w' : Rand Tape Unit), NucleusHistory Tape Unit nuc ∧
    nuc.sampleNucleons 1 (3:ℝ) w = .ok (nuc', w') ∧ nuc'.nucleons.length = 208 := by
  have h1 : createNucleus (F := ℝ) false (fun _ => .missing) "Pb" 0 = .ok (mkWoodsSaxon 208 (lit 6.62) (lit 0.546) 0) := rfl
  have hh : NucleusHistory Tape Unit (mkWoodsSaxon 208 (lit 6.62 : ℝ) (lit 0.546) 0) := .create _ _ _ _ _ h1
  let w : Rand Tape Unit := ⟨Tape.const 0 (by norm_num), ()⟩
  obtain ⟨⟨nuc', w'⟩, hs⟩ := sampleNucleons_ws_ok (mkWoodsSaxon 208 (lit 6.62 : ℝ) (lit 0.546) 0) _ _ _ rfl 1 3 w
  exact ⟨_, nuc', w, w', hh, hs, by
    rw [(C12_sampling_resets _ _ hh _ _ _ _ hs).1]; exact List.length_replicate⟩

/-! ## C13 -/

section
variable {E D : Type} [Rng ℝ E D]

/-- The nucleon moved by `b` along x. -/
noncomputable def NucleonData.shiftX (b : ℝ) (n : NucleonData ℝ) : NucleonData ℝ := { n with x := n.x + b }

theorem set_shift (b : ℝ) (n n' : NucleonData ℝ) (hc : n.constituents = n'.constituents) (x y z : ℝ) :
    setNucleonPosition b n x y z = (setNucleonPosition 0 n' x y z).shiftX b := by
  unfold setNucleonPosition NucleonData.setPosition NucleonData.shiftX
  simp [hc]

theorem isTooClose_shift (b dminsq : ℝ) (placed : List (NucleonData ℝ)) (n : NucleonData ℝ) :
    isTooClose dminsq (placed.map (NucleonData.shiftX b)) (n.shiftX b) = isTooClose dminsq placed n := by
  unfold isTooClose
  split
  · rfl
  · rw [List.any_map]
    congr 1
    funext m
    simp only [Function.comp, NucleonData.shiftX]
    congr 1; ring

theorem placeWS_shift (b dminsq r : ℝ) (placed : List (NucleonData ℝ)) (left : Nat) (n n' : NucleonData ℝ)
    (hc : n.constituents = n'.constituents) (w : Rand E D) :
    placeWS b dminsq r (placed.map (NucleonData.shiftX b)) (left+1) n w =
      ((placeWS 0 dminsq r placed (left+1) n' w).1.shiftX b, (placeWS 0 dminsq r placed (left+1) n' w).2) := by
  induction left generalizing n n' w with
  | zero => simp only [placeWS, lt_irrefl, decide_false, Bool.false_and, Bool.false_eq_true, if_false]
            rw [set_shift b n n' hc]
  | succ left ih =>
    rw [placeWS, placeWS]
    dsimp only
    rw [set_shift b n n' hc, isTooClose_shift]
    split
    · exact ih _ _ rfl _
    · rfl

theorem placeDef_shift (b dminsq : ℝ) (t : TiltSpin ℝ) (rSin : ℝ) (placed : List (NucleonData ℝ)) (left : Nat) (z : ℝ)
    (n n' : NucleonData ℝ) (hc : n.constituents = n'.constituents) (w : Rand E D) :
    placeDef b dminsq t rSin (placed.map (NucleonData.shiftX b)) (left+1) z n w =
      ((placeDef 0 dminsq t rSin placed (left+1) z n' w).1.shiftX b, (placeDef 0 dminsq t rSin placed (left+1) z n' w).2) := by
  induction left generalizing n n' w z with
  | zero => simp only [placeDef, lt_irrefl, decide_false, Bool.false_and, Bool.false_eq_true, if_false]
            rw [set_shift b n n' hc]
  | succ left ih =>
    rw [placeDef, placeDef]
    dsimp only
    rw [set_shift b n n' hc, isTooClose_shift]
    split
    · exact ih _ _ _ rfl _
    · rfl

theorem placeAllWS_shift (b dminsq : ℝ) (placed : List (NucleonData ℝ)) (rs : List ℝ) (ns : List (NucleonData ℝ))
    (hl : rs.length = ns.length) (w : Rand E D) :
    placeAllWS b dminsq (placed.map (NucleonData.shiftX b)) rs ns w =
      ((placeAllWS 0 dminsq placed rs ns w).1.map (NucleonData.shiftX b), (placeAllWS 0 dminsq placed rs ns w).2) := by
  induction ns generalizing placed rs w with
  | nil =>
    cases rs with
    | nil => simp [placeAllWS]
    | cons r rs => simp at hl
  | cons n ns ih =>
    cases rs with
    | nil => simp at hl
    | cons r rs =>
      rw [placeAllWS, placeAllWS]
      dsimp only
      rw [placeWS_shift b dminsq r placed 999 n n rfl w]
      rw [← ih _ _ (by simpa using hl)]
      simp

theorem placeAllDef_shift (b dminsq : ℝ) (t : TiltSpin ℝ) (placed : List (NucleonData ℝ)) (rs : List (ℝ × ℝ))
    (ns : List (NucleonData ℝ)) (hl : rs.length = ns.length) (w : Rand E D) :
    placeAllDef b dminsq t (placed.map (NucleonData.shiftX b)) rs ns w =
      ((placeAllDef 0 dminsq t placed rs ns w).1.map (NucleonData.shiftX b), (placeAllDef 0 dminsq t placed rs ns w).2) := by
  induction ns generalizing placed rs w with
  | nil =>
    cases rs with
    | nil => simp [placeAllDef]
    | cons r rs => simp at hl
  | cons n ns ih =>
    cases rs with
    | nil => simp at hl
    | cons r rs =>
      rw [placeAllDef, placeAllDef]
      dsimp only
      rw [placeDef_shift b dminsq t _ placed 999 _ n n rfl w]
      rw [← ih _ _ (by simpa using hl)]
      simp

theorem placeManual_shift (b : ℝ) (e : Euler ℝ) (ps : List (ℝ × ℝ × ℝ)) (ns : List (NucleonData ℝ)) :
    placeManual b e ps ns = (placeManual 0 e ps ns).map (List.map (NucleonData.shiftX b)) := by
  induction ns generalizing ps with
  | nil => cases ps <;> simp [placeManual, Except.map]
  | cons n ns ih =>
    cases ps with
    | nil => simp [placeManual, Except.map]
    | cons p ps =>
      obtain ⟨x, y, z⟩ := p
      rw [placeManual, placeManual, ih]
      cases placeManual 0 e ps ns with
      | error er => rfl
      | ok ns1 =>
        simp only [Except.map, List.map_cons]
        rw [set_shift b n n rfl]

/-- **C13.** For every nucleus object in any reachable state, any offset and any random state: sampling with offset `b` does
exactly what sampling with offset 0 does (same failure, or same nucleons and same final random state), with `b` added
to every x coordinate. -/
theorem C13_offset_is_translation (nuc : Nucleus ℝ) (hh : NucleusHistory E D nuc) (fuel : Nat) (b : ℝ) (w : Rand E D) :
    nuc.sampleNucleons fuel b w =
      (nuc.sampleNucleons fuel 0 w).map fun r =>
        ({ r.1 with nucleons := r.1.nucleons.map fun n => { n with x := n.x + b }, offset := b }, r.2) := by
  have hw := hh.wf
  have hmap : ∀ ns : List (NucleonData ℝ), ns.map (fun n => { n with x := n.x + b }) = ns.map (NucleonData.shiftX b) :=
    fun _ => rfl
  unfold Nucleus.sampleNucleons
  dsimp only
  unfold Nucleus.WF at hw
  cases hk : nuc.kind with
  | proton =>
    rw [hk] at hw
    obtain ⟨n, hn⟩ := List.length_eq_one_iff.mp hw
    simp only [hn, sampleProton, Except.map, hmap]
    rw [set_shift b n n rfl]; rfl
  | deuteron a c =>
    rw [hk] at hw
    obtain ⟨n1, n2, hn⟩ := List.length_eq_two.mp hw
    simp only [sampleDeuteron, hn]
    cases deuteronLoop a c fuel w with
    | error e => rfl
    | ok r =>
      simp only [Except.map, hmap]
      rw [set_shift b n1 n1 rfl, set_shift b n2 n2 rfl]; rfl
  | woodsSaxon R a dminsq =>
    simp only [Except.map, sampleWS, hmap]
    have := placeAllWS_shift b dminsq [] (sortBy id (drawRadii R a nuc.nucleons.length w).1) nuc.nucleons
      (by rw [sortBy_length, drawRadii_length]) (drawRadii R a nuc.nucleons.length w).2
    simp only [List.map_nil] at this
    rw [this]
  | deformed R a b2 b4 rmax dminsq =>
    simp only [sampleDeformed]
    cases hd : drawDeformed fuel R a b2 b4 rmax nuc.nucleons.length (drawTiltSpin (F := ℝ) w).2 with
    | error e => rfl
    | ok r =>
      obtain ⟨ss, w2⟩ := r
      simp only [Except.map, hmap]
      have := placeAllDef_shift b dminsq (drawTiltSpin (F := ℝ) w).1 [] (sortBy Prod.fst ss) nuc.nucleons
        (by rw [sortBy_length, drawDeformed_length hd]) w2
      simp only [List.map_nil] at this
      rw [this]
  | manual configs rmax =>
    simp only [sampleManual]
    generalize hi : configs[(drawIndex ℝ (if configs.length = 0 then 18446744073709551615 else configs.length - 1)
        (drawEuler (F := ℝ) w).2).1]? = o
    cases o with
    | none => rfl
    | some ps =>
      simp only
      rw [placeManual_shift b]
      cases placeManual 0 (drawEuler (F := ℝ) w).1 ps nuc.nucleons with
      | error e => rfl
      | ok ns => simp only [Except.map, hmap]

end

end Trento
