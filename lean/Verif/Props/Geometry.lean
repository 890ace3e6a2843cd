import Verif.Props.Nucleus
import Mathlib.LinearAlgebra.UnitaryGroup

/-!
# C14, C15, C16: Woods–Saxon radii, minimum distance, rotations
-/

namespace Trento

section
variable {E D : Type} [Rng ℝ E D]

theorem canonical_mem [LawfulRng E D] (w : Rand E D) : 0 ≤ (canonical (F := ℝ) w).1 ∧ (canonical (F := ℝ) w).1 < 1 :=
  LawfulRng.canonical_mem w.eng

theorem cosTheta_mem [LawfulRng E D] (w : Rand E D) : -1 ≤ (cosTheta (F := ℝ) w).1 ∧ (cosTheta (F := ℝ) w).1 < 1 := by
  have h := canonical_mem w
  unfold cosTheta
  simp only [lit_real]
  push_cast
  constructor <;> linarith [h.1, h.2]

theorem cosTheta_sq_le [LawfulRng E D] (w : Rand E D) : (cosTheta (F := ℝ) w).1 * (cosTheta (F := ℝ) w).1 ≤ 1 := by
  have h := cosTheta_mem w
  nlinarith [h.1, h.2]

theorem spherical_norm (r c p : ℝ) (hc : c * c ≤ 1) :
    (spherical r c p).1^2 + (spherical r c p).2.1^2 + (spherical r c p).2.2^2 = r^2 := by
  unfold spherical
  simp only [sqrt_real, cos_real, sin_real, lit_real]
  push_cast
  have h1 : Real.sqrt (1 - c*c) ^ 2 = 1 - c*c := Real.sq_sqrt (by linarith)
  have h2 := Real.cos_sq_add_sin_sq p
  calc (r * √(1 - c * c) * Real.cos p) ^ 2 + (r * √(1 - c * c) * Real.sin p) ^ 2 + (r * c) ^ 2
      = r^2 * (√(1 - c * c))^2 * (Real.cos p ^2 + Real.sin p ^ 2) + r^2 * (c*c) := by ring
    _ = r^2 := by rw [h1, h2]; ring

/-! ## Sorting -/

theorem insertBy_perm {α : Type} {F : Type} [Arith F] (key : α → F) (a : α) (l : List α) :
    (insertBy key a l).Perm (a :: l) := by
  induction l with
  | nil => exact List.Perm.refl _
  | cons b l ih =>
    rw [insertBy]
    split
    · exact (List.Perm.cons b ih).trans (List.Perm.swap a b l)
    · exact List.Perm.refl _

theorem sortBy_perm {α : Type} {F : Type} [Arith F] (key : α → F) (l : List α) : (sortBy key l).Perm l := by
  induction l with
  | nil => exact List.Perm.refl _
  | cons a l ih => exact (insertBy_perm key a _).trans (List.Perm.cons a ih)

theorem insertBy_sorted {α : Type} (key : α → ℝ) (a : α) (l : List α) (h : l.Pairwise fun x y => key x ≤ key y) :
    (insertBy key a l).Pairwise fun x y => key x ≤ key y := by
  induction l with
  | nil => simp [insertBy]
  | cons b l ih =>
    rw [insertBy]
    rw [List.pairwise_cons] at h
    split
    · rename_i hb
      simp only [lt_real, decide_eq_true_eq] at hb
      rw [List.pairwise_cons]
      refine ⟨?_, ih h.2⟩
      intro c hc
      rcases List.mem_cons.mp ((insertBy_perm key a l).mem_iff.mp hc) with rfl | hc
      · exact hb.le
      · exact h.1 c hc
    · rename_i hb
      simp only [lt_real, decide_eq_true_eq, not_lt] at hb
      rw [List.pairwise_cons]
      refine ⟨?_, List.pairwise_cons.mpr h⟩
      intro c hc
      rcases List.mem_cons.mp hc with rfl | hc
      · exact hb
      · exact le_trans hb (h.1 c hc)

theorem sortBy_sorted {α : Type} (key : α → ℝ) (l : List α) : (sortBy key l).Pairwise fun x y => key x ≤ key y := by
  induction l with
  | nil => exact List.Pairwise.nil
  | cons a l ih => exact insertBy_sorted key a _ ih

/-! ## C14 -/

/-- Distance of a nucleon from the point `(b, 0, 0)`, the centre of a nucleus sampled with offset `b`. -/
noncomputable def Spec.radiusFrom (b : ℝ) (n : NucleonData ℝ) : ℝ := Real.sqrt ((n.x - b)^2 + n.y^2 + n.z^2)

theorem radiusFrom_set (b : ℝ) (n : NucleonData ℝ) (x y z r : ℝ) (hr : 0 ≤ r) (h : x^2 + y^2 + z^2 = r^2) :
    Spec.radiusFrom b (setNucleonPosition b n x y z) = r := by
  unfold Spec.radiusFrom setNucleonPosition NucleonData.setPosition
  simp only [add_sub_cancel_right]
  rw [h, Real.sqrt_sq hr]

theorem placeWS_radius [LawfulRng E D] (b dminsq r : ℝ) (hr : 0 ≤ r) (placed : List (NucleonData ℝ)) (left : Nat)
    (n : NucleonData ℝ) (w : Rand E D) : Spec.radiusFrom b (placeWS b dminsq r placed (left+1) n w).1 = r := by
  induction left generalizing n w with
  | zero =>
    simp only [placeWS, lt_irrefl, decide_false, Bool.false_and, Bool.false_eq_true, if_false]
    exact radiusFrom_set _ _ _ _ _ _ hr (spherical_norm _ _ _ (cosTheta_sq_le _))
  | succ left ih =>
    rw [placeWS]
    dsimp only
    split
    · exact ih _ _
    · exact radiusFrom_set _ _ _ _ _ _ hr (spherical_norm _ _ _ (cosTheta_sq_le _))

theorem placeAllWS_radius [LawfulRng E D] (b dminsq : ℝ) (placed : List (NucleonData ℝ)) (rs : List ℝ)
    (hr : ∀ r ∈ rs, 0 ≤ r) (ns : List (NucleonData ℝ)) (hl : rs.length = ns.length) (w : Rand E D) :
    (placeAllWS b dminsq placed rs ns w).1.map (Spec.radiusFrom b) = placed.map (Spec.radiusFrom b) ++ rs := by
  induction ns generalizing placed rs w with
  | nil =>
    cases rs with
    | nil => simp [placeAllWS]
    | cons r rs => simp at hl
  | cons n ns ih =>
    cases rs with
    | nil => simp at hl
    | cons r rs =>
      rw [placeAllWS]
      dsimp only
      rw [ih _ _ (fun x hx => hr x (by simp [hx])) (by simpa using hl)]
      rw [List.map_append, List.map_singleton, placeWS_radius b dminsq r (hr r (by simp)) placed 999]
      simp

theorem woodsSaxonTable_mem (R a : ℝ) (h : 0 ≤ R + 10 * a) :
    ∀ p ∈ woodsSaxonTable R a, 0 ≤ p.1 ∧ p.1 ≤ R + 10 * a := by
  intro p hp
  unfold woodsSaxonTable linearTable at hp
  simp only [List.mem_map, List.mem_range] at hp
  obtain ⟨k, hk, rfl⟩ := hp
  simp only [lit_real, ofInt_real]
  push_cast
  have h1 : (0:ℝ) ≤ k := Nat.cast_nonneg k
  have h2 : (k:ℝ) ≤ 1000 := by exact_mod_cast Nat.lt_succ_iff.mp hk
  constructor
  · simp only [zero_add, sub_zero]; positivity
  · simp only [zero_add, sub_zero]
    rw [mul_div_assoc', div_le_iff₀ (by norm_num)]; nlinarith

theorem woodsSaxonTable_ne (R a : ℝ) : woodsSaxonTable R a ≠ [] := by
  unfold woodsSaxonTable linearTable
  simp

theorem drawRadii_mem [LawfulRng E D] (R a : ℝ) (h : 0 ≤ R + 10 * a) (k : Nat) (w : Rand E D) :
    ∀ r ∈ (drawRadii R a k w).1, 0 ≤ r ∧ r ≤ R + 10 * a := by
  induction k generalizing w with
  | zero => simp [drawRadii]
  | succ k ih =>
    rw [drawRadii]
    dsimp only
    intro r hr
    rcases List.mem_cons.mp hr with rfl | hr
    · exact LawfulRng.piecewiseLinear_mem _ _ _ 0 _ (woodsSaxonTable_ne R a) (woodsSaxonTable_mem R a h)
    · exact ih _ r hr

/-- **C14, spherical.** After sampling a Woods–Saxon nucleus with offset `b`, the distances of the nucleons from the centre
`(b, 0, 0)`, in iteration order, are increasing and are exactly the radii drawn from the distribution (as many as there
are nucleons, drawn from the state before the call), rearranged — however many angular retries were made. -/
theorem C14_woods_saxon_radii [LawfulRng E D] (R a dminsq : ℝ) (hRa : 0 ≤ R + 10 * a) (nuc nuc' : Nucleus ℝ)
    (hk : nuc.kind = .woodsSaxon R a dminsq) (fuel : Nat) (b : ℝ) (w w' : Rand E D)
    (h : nuc.sampleNucleons fuel b w = .ok (nuc', w')) :
    (nuc'.nucleons.map (Spec.radiusFrom b)).Perm (drawRadii R a nuc.nucleons.length w).1 ∧
    (nuc'.nucleons.map (Spec.radiusFrom b)).Pairwise (· ≤ ·) ∧
    ∀ n ∈ nuc'.nucleons, Spec.radiusFrom b n ≤ R + 10 * a := by
  unfold Nucleus.sampleNucleons at h
  rw [hk] at h
  simp only [Except.ok.injEq, Prod.mk.injEq] at h
  have hperm := sortBy_perm id (drawRadii R a nuc.nucleons.length w).1
  have hmem := drawRadii_mem R a hRa nuc.nucleons.length w
  have hd : nuc'.nucleons.map (Spec.radiusFrom b) = sortBy id (drawRadii R a nuc.nucleons.length w).1 := by
    rw [← h.1]
    have := placeAllWS_radius b dminsq [] (sortBy id (drawRadii R a nuc.nucleons.length w).1)
      (fun r hr => (hmem r (hperm.mem_iff.mp hr)).1) nuc.nucleons
      (by rw [sortBy_length, drawRadii_length]) (drawRadii R a nuc.nucleons.length w).2
    simpa [sampleWS] using this
  rw [hd]
  refine ⟨hperm, sortBy_sorted id _, ?_⟩
  intro n hn
  have : Spec.radiusFrom b n ∈ nuc'.nucleons.map (Spec.radiusFrom b) := List.mem_map_of_mem hn
  rw [hd] at this
  exact (hmem _ (hperm.mem_iff.mp this)).2

/-! ## C16 rotations -/

open Matrix in
/-- Rotation about the z axis by an angle with the given cosine and sine. -/
noncomputable def Spec.rotZ (c s : ℝ) : Matrix (Fin 3) (Fin 3) ℝ := !![c, -s, 0; s, c, 0; 0, 0, 1]
open Matrix in
/-- Rotation about the x axis by an angle with the given cosine and sine. -/
noncomputable def Spec.rotX (c s : ℝ) : Matrix (Fin 3) (Fin 3) ℝ := !![1, 0, 0; 0, c, -s; 0, s, c]

/-- A position as a vector. -/
def Spec.vec (p : ℝ × ℝ × ℝ) : Fin 3 → ℝ := ![p.1, p.2.1, p.2.2]

open Spec

theorem rotZ_mem {c s : ℝ} (h : c^2 + s^2 = 1) : rotZ c s ∈ Matrix.specialOrthogonalGroup (Fin 3) ℝ := by
  rw [Matrix.mem_specialOrthogonalGroup_iff]
  constructor
  · rw [Matrix.mem_orthogonalGroup_iff]
    ext i j
    fin_cases i <;> fin_cases j <;> simp [rotZ, Matrix.mul_apply, Fin.sum_univ_three] <;> linarith
  · simp [rotZ, Matrix.det_fin_three]; linarith

theorem rotX_mem {c s : ℝ} (h : c^2 + s^2 = 1) : rotX c s ∈ Matrix.specialOrthogonalGroup (Fin 3) ℝ := by
  rw [Matrix.mem_specialOrthogonalGroup_iff]
  constructor
  · rw [Matrix.mem_orthogonalGroup_iff]
    ext i j
    fin_cases i <;> fin_cases j <;> simp [rotX, Matrix.mul_apply, Fin.sum_univ_three] <;> linarith
  · simp [rotX, Matrix.det_fin_three]; linarith

/-- **C16, tilt and spin.** The deformed nucleus formula is the rotation by the tilt angle about x followed by the
rotation by the spin angle about z. -/
theorem C16_tilt_spin (t : TiltSpin ℝ) (x y z : ℝ) :
    vec (rotateTS t x y z) = (rotZ t.cosB t.sinB * rotX t.cosA t.sinA).mulVec (vec (x, y, z)) := by
  ext i
  fin_cases i <;> simp [vec, rotateTS, rotZ, rotX, Matrix.mulVec, dotProduct, Matrix.mul_apply, Fin.sum_univ_three] <;> ring

/-- **C16, Euler.** The manual nucleus formula is a rotation about z, then about the original x axis, then about
the original z axis. -/
theorem C16_euler (e : Euler ℝ) (x y z : ℝ) :
    vec (rotateEuler e x y z) = (rotZ e.c3 e.s3 * rotX e.c2 e.s2 * rotZ e.c1 e.s1).mulVec (vec (x, y, z)) := by
  ext i
  fin_cases i <;>
    simp [vec, rotateEuler, rotZ, rotX, Matrix.mulVec, dotProduct, Matrix.mul_apply, Fin.sum_univ_three] <;> ring

theorem drawTiltSpin_rotation [LawfulRng E D] (w : Rand E D) :
    rotZ (drawTiltSpin (F := ℝ) w).1.cosB (drawTiltSpin (F := ℝ) w).1.sinB *
      rotX (drawTiltSpin (F := ℝ) w).1.cosA (drawTiltSpin (F := ℝ) w).1.sinA ∈ Matrix.specialOrthogonalGroup (Fin 3) ℝ := by
  unfold drawTiltSpin
  dsimp only
  apply mul_mem
  · exact rotZ_mem (Real.cos_sq_add_sin_sq _)
  · apply rotX_mem
    have h := cosTheta_sq_le w
    simp only [sqrt_real, lit_real]
    push_cast
    rw [Real.sq_sqrt (by linarith)]; ring

theorem drawEuler_rotation [LawfulRng E D] (w : Rand E D) :
    rotZ (drawEuler (F := ℝ) w).1.c3 (drawEuler (F := ℝ) w).1.s3 * rotX (drawEuler (F := ℝ) w).1.c2 (drawEuler (F := ℝ) w).1.s2 *
      rotZ (drawEuler (F := ℝ) w).1.c1 (drawEuler (F := ℝ) w).1.s1 ∈ Matrix.specialOrthogonalGroup (Fin 3) ℝ := by
  unfold drawEuler
  dsimp only
  apply mul_mem
  · apply mul_mem
    · exact rotZ_mem (Real.cos_sq_add_sin_sq _)
    · apply rotX_mem
      have h := cosTheta_sq_le (phi (F := ℝ) w).2
      simp only [sqrt_real, lit_real]
      push_cast
      rw [Real.sq_sqrt (by linarith)]; ring
  · exact rotZ_mem (Real.cos_sq_add_sin_sq _)

/-- Rotations preserve squared distances. -/
theorem rotation_preserves_distance {M : Matrix (Fin 3) (Fin 3) ℝ} (h : M ∈ Matrix.specialOrthogonalGroup (Fin 3) ℝ)
    (p q : Fin 3 → ℝ) : ∑ i, (M.mulVec p i - M.mulVec q i)^2 = ∑ i, (p i - q i)^2 := by
  have hM := ((Matrix.mem_specialOrthogonalGroup_iff).mp h).1
  rw [Matrix.mem_orthogonalGroup_iff'] at hM
  have key : ∀ v : Fin 3 → ℝ, ∑ i, (M.mulVec v i)^2 = ∑ i, (v i)^2 := by
    intro v
    have h1 : dotProduct (M.mulVec v) (M.mulVec v) = dotProduct v v := by
      rw [Matrix.dotProduct_mulVec, Matrix.vecMul_mulVec]
      have : M.transpose * M = 1 := hM
      rw [this, Matrix.vecMul_one]
    simpa [dotProduct, pow_two] using h1
  have h2 : ∀ i, M.mulVec p i - M.mulVec q i = M.mulVec (p - q) i := by
    intro i; rw [Matrix.mulVec_sub]; rfl
  simp only [h2, key, Pi.sub_apply]

/-- Position of a nucleon relative to `(b, 0, 0)`. -/
noncomputable def Spec.relPos (b : ℝ) (n : NucleonData ℝ) : Fin 3 → ℝ := ![n.x - b, n.y, n.z]

theorem relPos_set (b : ℝ) (n : NucleonData ℝ) (p : ℝ × ℝ × ℝ) :
    relPos b (setNucleonPosition b n p.1 p.2.1 p.2.2) = vec p := by
  unfold relPos setNucleonPosition NucleonData.setPosition vec; simp

theorem placeManual_positions {b : ℝ} {e : Euler ℝ} {ps : List (ℝ × ℝ × ℝ)} {ns ns' : List (NucleonData ℝ)}
    (hl : ps.length = ns.length) (h : placeManual b e ps ns = .ok ns') :
    ns'.map (relPos b) = ps.map fun p => (rotZ e.c3 e.s3 * rotX e.c2 e.s2 * rotZ e.c1 e.s1).mulVec (vec p) := by
  induction ns generalizing ps ns' with
  | nil =>
    cases ps with
    | nil => simp [placeManual] at h; subst h; simp
    | cons p ps => simp at hl
  | cons n ns ih =>
    cases ps with
    | nil => simp [placeManual] at h
    | cons p ps =>
      obtain ⟨x, y, z⟩ := p
      rw [placeManual] at h
      split at h
      · cases h
      · rename_i ns1 h1
        cases h
        rw [List.map_cons, List.map_cons, ih (by simpa using hl) h1, ← C16_euler]
        congr 1
        exact relPos_set b n (rotateEuler e x y z)

/-- **C16, manual nuclei.** Sampling a manual nucleus with offset `b` places the nucleons at a proper rotation of one of the
configurations of the file, translated by `b` along x; so all distances between nucleons are those of the file. -/
theorem C16_manual_rigid [LawfulRng E D] (configs : List (List (ℝ × ℝ × ℝ))) (rmax : ℝ) (nuc nuc' : Nucleus ℝ)
    (hh : NucleusHistory E D nuc) (hk : nuc.kind = .manual configs rmax) (fuel : Nat) (b : ℝ) (w w' : Rand E D)
    (h : nuc.sampleNucleons fuel b w = .ok (nuc', w')) :
    ∃ M ∈ Matrix.specialOrthogonalGroup (Fin 3) ℝ, ∃ config ∈ configs,
      nuc'.nucleons.map (relPos b) = config.map fun p => M.mulVec (vec p) := by
  have hw := hh.wf
  unfold Nucleus.WF at hw
  unfold Nucleus.sampleNucleons at h
  rw [hk] at h hw
  simp only [sampleManual] at h hw
  refine ⟨_, drawEuler_rotation w, ?_⟩
  generalize hi : configs[(drawIndex ℝ (if configs.length = 0 then 18446744073709551615 else configs.length - 1)
        (drawEuler (F := ℝ) w).2).1]? = o at h
  cases o with
  | none => simp at h
  | some ps =>
    have hmem : ps ∈ configs := List.mem_of_getElem? hi
    refine ⟨ps, hmem, ?_⟩
    cases hp : placeManual b (drawEuler (F := ℝ) w).1 ps nuc.nucleons with
    | error er => simp only [hp] at h; cases h
    | ok ns =>
      simp only [hp] at h
      simp only [Except.ok.injEq, Prod.mk.injEq] at h
      rw [← h.1]
      exact placeManual_positions (hw ps hmem) hp

/-- A manual nucleus with at least one configuration can always be sampled: the configuration index is in range. -/
theorem C16_manual_total [LawfulRng E D] (configs : List (List (ℝ × ℝ × ℝ))) (hc : configs ≠ []) (rmax : ℝ) (nuc : Nucleus ℝ)
    (hh : NucleusHistory E D nuc) (hk : nuc.kind = .manual configs rmax) (fuel : Nat) (b : ℝ) (w : Rand E D) :
    ∃ r, nuc.sampleNucleons fuel b w = .ok r := by
  have hw := hh.wf
  unfold Nucleus.WF at hw
  unfold Nucleus.sampleNucleons
  rw [hk] at hw ⊢
  simp only [sampleManual] at hw ⊢
  have hlen : configs.length ≠ 0 := by simpa using hc
  have hidx : (drawIndex ℝ (configs.length - 1) (drawEuler (F := ℝ) w).2).1 < configs.length := by
    have : (drawIndex ℝ (configs.length - 1) (drawEuler (F := ℝ) w).2).1 ≤ configs.length - 1 :=
      LawfulRng.uniformInt_le _ _ _
    omega
  simp only [hlen, if_false, List.getElem?_eq_getElem hidx]
  have htot : ∀ (ps : List (ℝ × ℝ × ℝ)) (ns : List (NucleonData ℝ)) (e : Euler ℝ), ps.length = ns.length →
      ∃ ns', placeManual b e ps ns = .ok ns' := by
    intro ps ns e
    induction ns generalizing ps with
    | nil => intro _; cases ps <;> exact ⟨_, rfl⟩
    | cons n ns ih =>
      intro hl
      cases ps with
      | nil => simp at hl
      | cons p ps =>
        obtain ⟨ns', h'⟩ := ih ps (by simpa using hl)
        obtain ⟨x, y, z⟩ := p
        rw [placeManual, h']
        exact ⟨_, rfl⟩
  obtain ⟨ns', h'⟩ := htot _ nuc.nucleons (drawEuler (F := ℝ) w).1 (hw _ (List.getElem_mem hidx))
  rw [h']
  exact ⟨_, rfl⟩

/-! ### Deformed nuclei -/

/-- The point a deformed nucleon is placed at before the rotation: radius `r`, height `± r cosθ`. -/
def Spec.IntrinsicPoint (s : ℝ × ℝ) (p : ℝ × ℝ × ℝ) : Prop :=
  p.1^2 + p.2.1^2 + p.2.2^2 = s.1^2 ∧ (p.2.2 = s.1 * s.2 ∨ p.2.2 = -(s.1 * s.2))

theorem placeDef_point [LawfulRng E D] (b dminsq : ℝ) (t : TiltSpin ℝ) (s : ℝ × ℝ) (hs : s.2 * s.2 ≤ 1)
    (placed : List (NucleonData ℝ)) (left : Nat) (z : ℝ) (hz : z = s.1 * s.2 ∨ z = -(s.1 * s.2)) (n : NucleonData ℝ)
    (w : Rand E D) :
    ∃ p, IntrinsicPoint s p ∧
      relPos b (placeDef b dminsq t (s.1 * sqrt (lit 1 - s.2 * s.2)) placed (left+1) z n w).1 =
        (rotZ t.cosB t.sinB * rotX t.cosA t.sinA).mulVec (vec p) := by
  have hpt : ∀ ph : ℝ, ∀ z : ℝ, (z = s.1 * s.2 ∨ z = -(s.1 * s.2)) → ∀ n : NucleonData ℝ,
      ∃ p, IntrinsicPoint s p ∧
      relPos b (setNucleonPosition b n (rotateTS t (s.1 * sqrt (lit 1 - s.2 * s.2) * cos ph)
          (s.1 * sqrt (lit 1 - s.2 * s.2) * sin ph) z).1
        (rotateTS t (s.1 * sqrt (lit 1 - s.2 * s.2) * cos ph) (s.1 * sqrt (lit 1 - s.2 * s.2) * sin ph) z).2.1
        (rotateTS t (s.1 * sqrt (lit 1 - s.2 * s.2) * cos ph) (s.1 * sqrt (lit 1 - s.2 * s.2) * sin ph) z).2.2) =
        (rotZ t.cosB t.sinB * rotX t.cosA t.sinA).mulVec (vec p) := by
    intro ph z hz n
    refine ⟨(s.1 * sqrt (lit 1 - s.2 * s.2) * cos ph, s.1 * sqrt (lit 1 - s.2 * s.2) * sin ph, z), ⟨?_, hz⟩, ?_⟩
    · simp only [sqrt_real, lit_real, cos_real, sin_real]
      push_cast
      have h1 : Real.sqrt (1 - s.2*s.2) ^ 2 = 1 - s.2*s.2 := Real.sq_sqrt (by linarith)
      have h2 := Real.cos_sq_add_sin_sq ph
      have h3 : z^2 = (s.1*s.2)^2 := by rcases hz with rfl | rfl <;> ring
      calc (s.1 * √(1 - s.2 * s.2) * Real.cos ph) ^ 2 + (s.1 * √(1 - s.2 * s.2) * Real.sin ph) ^ 2 + z ^ 2
          = s.1^2 * (√(1 - s.2 * s.2))^2 * (Real.cos ph ^2 + Real.sin ph ^ 2) + z^2 := by ring
        _ = s.1^2 := by rw [h1, h2, h3]; ring
    · rw [← C16_tilt_spin]; exact relPos_set b n _
  induction left generalizing z n w with
  | zero =>
    simp only [placeDef, lt_irrefl, decide_false, Bool.false_and, Bool.false_eq_true, if_false]
    exact hpt _ _ hz _
  | succ left ih =>
    rw [placeDef]
    dsimp only
    split
    · apply ih
      simp only [lit_real]; push_cast
      rcases hz with rfl | rfl
      · right; ring
      · left; ring
    · exact hpt _ _ hz _

theorem placeAllDef_points [LawfulRng E D] (b dminsq : ℝ) (t : TiltSpin ℝ) (placed : List (NucleonData ℝ))
    (ss : List (ℝ × ℝ)) (hs : ∀ s ∈ ss, s.2 * s.2 ≤ 1) (ns : List (NucleonData ℝ)) (hl : ss.length = ns.length)
    (w : Rand E D) :
    ∃ ps : List (ℝ × ℝ × ℝ), List.Forall₂ IntrinsicPoint ss ps ∧
      (placeAllDef b dminsq t placed ss ns w).1.map (relPos b) = placed.map (relPos b) ++
        ps.map fun p => (rotZ t.cosB t.sinB * rotX t.cosA t.sinA).mulVec (vec p) := by
  induction ns generalizing placed ss w with
  | nil =>
    cases ss with
    | nil => exact ⟨[], List.Forall₂.nil, by simp [placeAllDef]⟩
    | cons r rs => simp at hl
  | cons n ns ih =>
    cases ss with
    | nil => simp at hl
    | cons s ss =>
      rw [placeAllDef]
      dsimp only
      obtain ⟨p, hp, hpos⟩ := placeDef_point b dminsq t s (hs s (by simp)) placed 999 (s.1 * s.2) (.inl rfl) n w
      obtain ⟨ps, h1, h2⟩ := ih (placed ++ [(placeDef b dminsq t (s.1 * sqrt (lit 1 - s.2 * s.2)) placed 1000 (s.1*s.2) n w).1])
        ss (fun x hx => hs x (by simp [hx])) (by simpa using hl)
        (placeDef b dminsq t (s.1 * sqrt (lit 1 - s.2 * s.2)) placed 1000 (s.1*s.2) n w).2
      refine ⟨p :: ps, List.Forall₂.cons hp h1, ?_⟩
      rw [h2, List.map_append, List.map_singleton, hpos]
      simp

theorem deformedReject_mem [LawfulRng E D] {R a b2 b4 rmax : ℝ} (hr : 0 ≤ rmax) {fuel : Nat} {w w' : Rand E D} {s : ℝ × ℝ}
    (h : deformedReject R a b2 b4 rmax fuel w = .ok (s, w')) : 0 ≤ s.1 ∧ s.1 ≤ rmax ∧ s.2 * s.2 ≤ 1 := by
  induction fuel generalizing w with
  | zero => cases h
  | succ fuel ih =>
    rw [deformedReject] at h
    dsimp only at h
    split at h
    · exact ih h
    · simp only [Except.ok.injEq, Prod.mk.injEq] at h
      rw [← h.1]
      have hu := canonical_mem w
      have hc : (0:ℝ) ≤ cbrt (canonical (F := ℝ) w).1 ∧ cbrt (canonical (F := ℝ) w).1 ≤ 1 := by
        rw [cbrt_real hu.1]
        exact ⟨Real.rpow_nonneg hu.1 _, Real.rpow_le_one hu.1 hu.2.le (by norm_num)⟩
      refine ⟨mul_nonneg hr hc.1, ?_, cosTheta_sq_le _⟩
      show rmax * _ ≤ rmax
      nlinarith [hc.1, hc.2]

theorem drawDeformed_mem [LawfulRng E D] {R a b2 b4 rmax : ℝ} (hr : 0 ≤ rmax) {fuel k : Nat} {w w' : Rand E D}
    {ss : List (ℝ × ℝ)} (h : drawDeformed fuel R a b2 b4 rmax k w = .ok (ss, w')) :
    ∀ s ∈ ss, 0 ≤ s.1 ∧ s.1 ≤ rmax ∧ s.2 * s.2 ≤ 1 := by
  induction k generalizing w w' ss with
  | zero =>
    simp only [drawDeformed, Except.ok.injEq, Prod.mk.injEq] at h
    rw [← h.1]; simp
  | succ k ih =>
    rw [drawDeformed] at h
    split at h
    · cases h
    · rename_i s1 w1 h1
      split at h
      · cases h
      · rename_i h2
        cases h
        intro s hs
        rcases List.mem_cons.mp hs with rfl | hs
        · exact deformedReject_mem hr h1
        · exact ih h2 s hs

/-- **C14 and C16, deformed.** Sampling a deformed nucleus with offset `b`: there are samples `(r, cosθ)` drawn by the
rejection loop, sorted by radius, and intrinsic points with exactly these radii and heights `± r cosθ`, such that the
nucleons sit at one common proper rotation of these points, translated by `b` along x.  In particular the distances from the
centre in iteration order are exactly the sampled radii in increasing order. -/
theorem C14_C16_deformed [LawfulRng E D] (R a b2 b4 rmax dminsq : ℝ) (hr : 0 ≤ rmax) (nuc nuc' : Nucleus ℝ)
    (hk : nuc.kind = .deformed R a b2 b4 rmax dminsq) (fuel : Nat) (b : ℝ) (w w' : Rand E D)
    (h : nuc.sampleNucleons fuel b w = .ok (nuc', w')) :
    ∃ drawn sorted w2, drawDeformed fuel R a b2 b4 rmax nuc.nucleons.length (drawTiltSpin (F := ℝ) w).2 = .ok (drawn, w2) ∧
      sorted.Perm drawn ∧ (sorted.map Prod.fst).Pairwise (· ≤ ·) ∧
      nuc'.nucleons.map (radiusFrom b) = sorted.map Prod.fst ∧
      ∃ M ∈ Matrix.specialOrthogonalGroup (Fin 3) ℝ, ∃ ps, List.Forall₂ IntrinsicPoint sorted ps ∧
        nuc'.nucleons.map (relPos b) = ps.map fun p => M.mulVec (vec p) := by
  unfold Nucleus.sampleNucleons at h
  rw [hk] at h
  simp only [sampleDeformed] at h
  cases hd : drawDeformed fuel R a b2 b4 rmax nuc.nucleons.length (drawTiltSpin (F := ℝ) w).2 with
  | error e => rw [hd] at h; simp at h
  | ok res =>
    obtain ⟨drawn, w2⟩ := res
    rw [hd] at h
    simp only [Except.ok.injEq, Prod.mk.injEq] at h
    have hperm := sortBy_perm Prod.fst drawn
    have hmem := drawDeformed_mem hr hd
    obtain ⟨ps, h1, h2⟩ := placeAllDef_points b dminsq (drawTiltSpin (F := ℝ) w).1 [] (sortBy Prod.fst drawn)
      (fun s hs => (hmem s (hperm.mem_iff.mp hs)).2.2) nuc.nucleons
      (by rw [sortBy_length, drawDeformed_length hd]) w2
    have h3 : nuc'.nucleons.map (relPos b) = ps.map fun p => (rotZ (drawTiltSpin (F := ℝ) w).1.cosB
        (drawTiltSpin (F := ℝ) w).1.sinB * rotX (drawTiltSpin (F := ℝ) w).1.cosA (drawTiltSpin (F := ℝ) w).1.sinA).mulVec
        (vec p) := by
      rw [← h.1]; simpa using h2
    refine ⟨drawn, sortBy Prod.fst drawn, w2, rfl, hperm, ?_, ?_, _, drawTiltSpin_rotation w, ps, h1, h3⟩
    · rw [List.pairwise_map]; exact sortBy_sorted Prod.fst drawn
    · -- radii: norm of relPos
      have hrad : ∀ n : NucleonData ℝ, radiusFrom b n = Real.sqrt (∑ i, (relPos b n i)^2) := by
        intro n; simp [radiusFrom, relPos, Fin.sum_univ_three]
      have hM := drawTiltSpin_rotation w
      have h4 : nuc'.nucleons.map (radiusFrom b) = (nuc'.nucleons.map (relPos b)).map
          (fun v => Real.sqrt (∑ i, (v i)^2)) := by
        rw [List.map_map]; exact List.map_congr_left fun n _ => hrad n
      rw [h4, h3, List.map_map]
      have h0 : ∀ s ∈ sortBy Prod.fst drawn, 0 ≤ s.1 := fun s hs => (hmem s (hperm.mem_iff.mp hs)).1
      revert h1 h0
      generalize sortBy Prod.fst drawn = sorted
      intro h1 h0
      clear h2 h3 h4
      induction h1 with
      | nil => rfl
      | @cons s p ss ps hsp _ ih =>
        rw [List.map_cons, List.map_cons, ih (fun x hx => h0 x (by simp [hx]))]
        congr 1
        have h5 := rotation_preserves_distance hM (vec p) 0
        rw [Matrix.mulVec_zero] at h5
        simp only [Pi.zero_apply, sub_zero] at h5
        simp only [Function.comp]
        rw [h5]
        have h6 : ∑ i, (vec p i)^2 = s.1^2 := by
          rw [← hsp.1]; simp [vec, Fin.sum_univ_three]
        rw [h6, Real.sqrt_sq (h0 s (by simp))]

end

/-! ## The hypotheses are met -/

/-- The tape of zeros. -/
noncomputable def zeroTape : Rand Tape Unit := ⟨Tape.const 0 (by norm_num), ()⟩

theorem deformedReject_zero (R a b2 b4 rmax : ℝ) (fuel : Nat) :
    ∃ s, deformedReject R a b2 b4 rmax (fuel+1) zeroTape = .ok (s, zeroTape) := by
  rw [deformedReject]
  refine ⟨_, if_neg ?_⟩
  simp only [lt_real, decide_eq_true_eq, not_lt]
  unfold deformedDist
  simp only [exp_real, lit_real]
  push_cast
  show (0:ℝ) ≤ _
  positivity

theorem drawDeformed_zero (R a b2 b4 rmax : ℝ) (fuel k : Nat) :
    ∃ ss, drawDeformed (fuel+1) R a b2 b4 rmax k zeroTape = .ok (ss, zeroTape) := by
  induction k with
  | zero => exact ⟨[], rfl⟩
  | succ k ih =>
    obtain ⟨s, hs⟩ := deformedReject_zero R a b2 b4 rmax fuel
    obtain ⟨ss, hss⟩ := ih
    exact ⟨s :: ss, by rw [drawDeformed, hs]; dsimp only; rw [hss]⟩

/-- A deformed nucleus (uranium) can be sampled from the tape of zeros: the hypotheses of the deformed theorems are met. -/
example : ∃ (nuc nuc' : Nucleus ℝ) (w' : Rand Tape Unit), createNucleus false (fun _ => .missing) "U" (1/2) = .ok nuc ∧
    nuc.sampleNucleons 1 (2:ℝ) zeroTape = .ok (nuc', w') := by
  refine ⟨mkDeformed 238 (lit 6.81) (lit 0.600) (lit 0.280) (lit 0.093) (1/2), ?_⟩
  obtain ⟨ss, hss⟩ := drawDeformed_zero (lit 6.81) (lit 0.600) (lit 0.280) (lit 0.093)
    (lit 6.81 * (lit 1 + lit 0.63 * fabs (lit 0.280) + lit 0.85 * fabs (lit 0.093)) + lit 10 * lit 0.600) 0 238
  have hz : (drawTiltSpin (F := ℝ) zeroTape).2 = zeroTape := rfl
  unfold Nucleus.sampleNucleons
  simp only [mkDeformed, Nucleus.ofKind, sampleDeformed, hz, List.length_replicate]
  rw [hss]
  exact ⟨_, _, rfl, rfl⟩

/-- A manual nucleus with two configurations of two nucleons can be created and sampled. -/
example : ∃ (nuc nuc' : Nucleus ℝ) (w' : Rand Tape Unit),
    createNucleus true (fun _ => .file [("x", .dataset [2, 2, 3] fun i j k => (i:ℝ) + 2 * j + k)]) "he.h5" 0 = .ok nuc ∧
    nuc.sampleNucleons 1 (2:ℝ) zeroTape = .ok (nuc', w') := by
  obtain ⟨nuc, hn⟩ : ∃ nuc, createNucleus (F := ℝ) true
      (fun _ => .file [("x", .dataset [2, 2, 3] fun i j k => (i:ℝ) + 2 * j + k)]) "he.h5" 0 = .ok nuc := ⟨_, rfl⟩
  have hk : ∃ rmax, nuc.kind = .manual (h5Configs (fun i j k => (i:ℝ) + 2 * j + k) 2 2) rmax := by
    cases hn; exact ⟨_, rfl⟩
  obtain ⟨rmax, hk⟩ := hk
  obtain ⟨⟨nuc', w'⟩, h⟩ := C16_manual_total (E := Tape) (D := Unit) _ (by simp [h5Configs, List.range_succ]) rmax nuc
    (.create _ _ _ _ _ hn) hk 1 2 zeroTape
  exact ⟨nuc, nuc', w', hn, h⟩

end Trento
