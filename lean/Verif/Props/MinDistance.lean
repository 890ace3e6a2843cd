import Verif.Props.Geometry

/-!
# C15: minimum nucleon-nucleon distance

The specification describes placement as a sequence of *attempts*: a step function says which position the `k`-th
attempt at one nucleon draws from which random state; attempts follow each other until one is far enough from all
nucleons placed before or until the thousandth.
-/

namespace Trento

set_option linter.unusedSectionVars false
section
variable {E D : Type} [Rng ℝ E D]

namespace Spec

/-- Distance of two points in space. -/
noncomputable def dist3 (p q : ℝ × ℝ × ℝ) : ℝ := Real.sqrt ((p.1 - q.1)^2 + (p.2.1 - q.2.1)^2 + (p.2.2 - q.2.2)^2)

/-- Position of a nucleon. -/
def pos (n : NucleonData ℝ) : ℝ × ℝ × ℝ := (n.x, n.y, n.z)

/-- `p` moved by `b` along x. -/
noncomputable def moved (b : ℝ) (p : ℝ × ℝ × ℝ) : ℝ × ℝ × ℝ := (p.1 + b, p.2.1, p.2.2)

/-- How attempt number `k` (counted from 0) at placing one nucleon draws a position. -/
abbrev Step (E D : Type) := Nat → Rand E D → (ℝ × ℝ × ℝ) × Rand E D

/-- Outcome of attempt number `k` when all attempts 0, 1, …, `k` are made one after the other from random state `w`. -/
def attempt (step : Step E D) (w : Rand E D) : Nat → (ℝ × ℝ × ℝ) × Rand E D
  | 0 => step 0 w
  | k+1 => step (k+1) (attempt step w k).2

/-- `p` is closer than `dmin` to an already placed nucleon (the constraint is active only for `dmin² ≥ 1e-10`). -/
def TooClose (dmin : ℝ) (placed : List (NucleonData ℝ)) (p : ℝ × ℝ × ℝ) : Prop :=
  1e-10 ≤ dmin * dmin ∧ ∃ q ∈ placed, dist3 p (pos q) < dmin

/-- `Placement b dmin steps tries ns w w'`: starting in random state `w`, the nucleons `ns` were placed in order, nucleon `j`
by attempts of `steps[j]`, of which it used `tries[j]`: all attempts but the last were too close to the nucleons
before, and the last was not or was the thousandth; afterwards the random state is `w'`. -/
inductive Placement (b dmin : ℝ) : List (Step E D) → List Nat → List (NucleonData ℝ) → Rand E D → Rand E D → Prop
  | nil (w) : Placement b dmin [] [] [] w w
  | snoc {steps tries ns w w1} (step : Step E D) (k : Nat) (n : NucleonData ℝ) :
      Placement b dmin steps tries ns w w1 → k < 1000 →
      (∀ i < k, TooClose dmin ns (moved b (attempt step w1 i).1)) →
      (¬ TooClose dmin ns (moved b (attempt step w1 k).1) ∨ k + 1 = 1000) →
      pos n = moved b (attempt step w1 k).1 →
      Placement b dmin (steps ++ [step]) (tries ++ [k+1]) (ns ++ [n]) w (attempt step w1 k).2

/-- An attempt at a spherical nucleon: uniform random direction at radius `r`. -/
noncomputable def sphericalStep (r : ℝ) : Step E D := fun _ w =>
  let u := canonical (F := ℝ) w
  let v := canonical (F := ℝ) u.2
  let c := 2 * u.1 - 1
  let φ := 2 * Real.pi * v.1
  ((r * Real.sqrt (1 - c * c) * Real.cos φ, r * Real.sqrt (1 - c * c) * Real.sin φ, r * c), v.2)

/-- An attempt at a nucleon of a deformed nucleus: uniform random azimuth in the intrinsic frame at radius `r` and polar
angle `θ` or `π - θ` alternatingly, then rotated. -/
noncomputable def deformedStep (t : TiltSpin ℝ) (r c : ℝ) : Step E D := fun k w =>
  let v := canonical (F := ℝ) w
  let φ := 2 * Real.pi * v.1
  (rotateTS t (r * Real.sqrt (1 - c * c) * Real.cos φ) (r * Real.sqrt (1 - c * c) * Real.sin φ) ((-1)^k * (r * c)), v.2)

end Spec
open Spec

theorem isTooClose_iff {dmin : ℝ} (hd : 0 ≤ dmin) (placed : List (NucleonData ℝ)) (n : NucleonData ℝ) :
    isTooClose (dmin*dmin) placed n = true ↔ TooClose dmin placed (pos n) := by
  unfold isTooClose TooClose
  have hlit : (lit 1e-10 : ℝ) = 1e-10 := by rw [lit_real]; norm_num
  simp only [lt_real, decide_eq_true_eq, hlit]
  split
  · rename_i h
    simp only [Bool.false_eq_true, false_iff]
    rintro ⟨h1, _⟩; linarith
  · rename_i h
    simp only [List.any_eq_true, decide_eq_true_eq]
    constructor
    · rintro ⟨q, hq, hlt⟩
      refine ⟨by linarith, q, hq, ?_⟩
      unfold dist3 pos
      rw [Real.sqrt_lt' (by nlinarith)]
      nlinarith
    · rintro ⟨_, q, hq, hlt⟩
      refine ⟨q, hq, ?_⟩
      unfold dist3 pos at hlt
      have h0 : 0 < dmin := by
        rcases hd.lt_or_eq with h' | h'
        · exact h'
        · rw [← h'] at h; norm_num at h
      rw [Real.sqrt_lt' h0] at hlt
      nlinarith

/-- Attempts from the `j`-th on. -/
theorem attempt_shift (step : Step E D) (w : Rand E D) (k : Nat) :
    attempt step w (k+1) = attempt (fun i => step (i+1)) (step 0 w).2 k := by
  induction k with
  | zero => rfl
  | succ k ih => rw [attempt, ih]; rfl

theorem set_twice (b : ℝ) (n : NucleonData ℝ) (x y z x' y' z' : ℝ) :
    setNucleonPosition b (setNucleonPosition b n x y z) x' y' z' = setNucleonPosition b n x' y' z' := rfl

theorem pos_set (b : ℝ) (n : NucleonData ℝ) (p : ℝ × ℝ × ℝ) :
    pos (setNucleonPosition b n p.1 p.2.1 p.2.2) = moved b p := rfl

/-- One nucleon placed by a sequence of attempts. -/
def OnePlaced (b dmin : ℝ) (step : Step E D) (placed : List (NucleonData ℝ)) (left : Nat) (w : Rand E D)
    (r : NucleonData ℝ × Rand E D) : Prop :=
  ∃ k < left, (∀ i < k, TooClose dmin placed (moved b (attempt step w i).1)) ∧
    (¬ TooClose dmin placed (moved b (attempt step w k).1) ∨ k + 1 = left) ∧
    pos r.1 = moved b (attempt step w k).1 ∧ r.2 = (attempt step w k).2

theorem onePlaced_stop {b dmin : ℝ} {step : Step E D} {placed : List (NucleonData ℝ)} {left : Nat} {w : Rand E D}
    {n : NucleonData ℝ} (hd : 0 ≤ dmin) (hn : pos n = moved b (step 0 w).1)
    (h : ¬ (decide (0 < left) && isTooClose (dmin*dmin) placed n) = true) :
    OnePlaced b dmin step placed (left+1) w (n, (step 0 w).2) := by
  refine ⟨0, by omega, by simp, ?_, hn, rfl⟩
  by_cases hl : left = 0
  · right; omega
  · left
    have : ¬ isTooClose (dmin*dmin) placed n = true := by
      intro h'; apply h; rw [h']; simp; omega
    rw [isTooClose_iff hd, hn] at this
    exact this

theorem onePlaced_more {b dmin : ℝ} {step : Step E D} {placed : List (NucleonData ℝ)} {left : Nat} {w : Rand E D}
    {n : NucleonData ℝ} {r : NucleonData ℝ × Rand E D} (hd : 0 ≤ dmin) (hn : pos n = moved b (step 0 w).1)
    (h : (decide (0 < left) && isTooClose (dmin*dmin) placed n) = true)
    (hr : OnePlaced b dmin (fun i => step (i+1)) placed left (step 0 w).2 r) :
    OnePlaced b dmin step placed (left+1) w r := by
  obtain ⟨k, hk, h1, h2, h3, h4⟩ := hr
  rw [Bool.and_eq_true, isTooClose_iff hd, hn] at h
  refine ⟨k+1, by omega, ?_, ?_, ?_, ?_⟩
  · intro i hi
    cases i with
    | zero => exact h.2
    | succ i => rw [attempt_shift]; exact h1 i (by omega)
  · rw [attempt_shift]
    rcases h2 with h2 | h2
    · exact .inl h2
    · exact .inr (by omega)
  · rw [attempt_shift]; exact h3
  · rw [attempt_shift]; exact h4

theorem placeWS_onePlaced (b dmin r : ℝ) (hd : 0 ≤ dmin) (placed : List (NucleonData ℝ)) (left : Nat)
    (n : NucleonData ℝ) (w : Rand E D) :
    OnePlaced b dmin (sphericalStep r) placed (left+1) w (placeWS b (dmin*dmin) r placed (left+1) n w) := by
  have hn : ∀ (n : NucleonData ℝ) (w : Rand E D), pos (setNucleonPosition b n
      (spherical r (cosTheta (F := ℝ) w).1 (phi (F := ℝ) (cosTheta (F := ℝ) w).2).1).1
      (spherical r (cosTheta (F := ℝ) w).1 (phi (F := ℝ) (cosTheta (F := ℝ) w).2).1).2.1
      (spherical r (cosTheta (F := ℝ) w).1 (phi (F := ℝ) (cosTheta (F := ℝ) w).2).1).2.2) =
      moved b (sphericalStep r 0 w).1 := by
    intro n w
    simp [pos, setNucleonPosition, NucleonData.setPosition, moved, sphericalStep, spherical, cosTheta, phi]
  have hw : ∀ w : Rand E D, (phi (F := ℝ) (cosTheta (F := ℝ) w).2).2 = (sphericalStep (E := E) r 0 w).2 := fun w => rfl
  induction left generalizing n w with
  | zero =>
    rw [placeWS]
    dsimp only
    split
    · rename_i h; simp at h
    · rename_i h; rw [hw]; exact onePlaced_stop hd (hn n w) h
  | succ left ih =>
    rw [placeWS]
    dsimp only
    split
    · rename_i h
      exact onePlaced_more hd (hn n w) h (ih _ _)
    · rename_i h; rw [hw]; exact onePlaced_stop hd (hn n w) h

theorem placeDef_onePlaced (b dmin : ℝ) (hd : 0 ≤ dmin) (t : TiltSpin ℝ) (r c : ℝ) (placed : List (NucleonData ℝ))
    (left : Nat) (j : Nat) (n : NucleonData ℝ) (w : Rand E D) :
    OnePlaced b dmin (fun i => deformedStep t r c (i + j)) placed (left+1) w
      (placeDef b (dmin*dmin) t (r * sqrt (lit 1 - c * c)) placed (left+1) ((-1)^j * (r*c)) n w) := by
  have hn : ∀ (j : Nat) (n : NucleonData ℝ) (w : Rand E D), pos (setNucleonPosition b n
      (rotateTS t (r * sqrt (lit 1 - c * c) * cos (phi (F := ℝ) w).1) (r * sqrt (lit 1 - c * c) * sin (phi (F := ℝ) w).1)
        ((-1)^j * (r*c))).1
      (rotateTS t (r * sqrt (lit 1 - c * c) * cos (phi (F := ℝ) w).1) (r * sqrt (lit 1 - c * c) * sin (phi (F := ℝ) w).1)
        ((-1)^j * (r*c))).2.1
      (rotateTS t (r * sqrt (lit 1 - c * c) * cos (phi (F := ℝ) w).1) (r * sqrt (lit 1 - c * c) * sin (phi (F := ℝ) w).1)
        ((-1)^j * (r*c))).2.2) =
      moved b (deformedStep t r c (0 + j) w).1 := by
    intro j n w
    simp [pos, setNucleonPosition, NucleonData.setPosition, moved, deformedStep, phi]
  have hw : ∀ (j : Nat) (w : Rand E D), (phi (F := ℝ) w).2 = (deformedStep (E := E) t r c (0 + j) w).2 := fun j w => rfl
  induction left generalizing j n w with
  | zero =>
    rw [placeDef]
    dsimp only
    split
    · rename_i h; simp at h
    · rename_i h; rw [hw j]; exact onePlaced_stop hd (hn j n w) h
  | succ left ih =>
    rw [placeDef]
    dsimp only
    split
    · rename_i h
      refine onePlaced_more hd (hn j n w) h ?_
      have := ih (j+1) (setNucleonPosition b n
        (rotateTS t (r * sqrt (lit 1 - c * c) * cos (phi (F := ℝ) w).1) (r * sqrt (lit 1 - c * c) * sin (phi (F := ℝ) w).1)
        ((-1)^j * (r*c))).1
      (rotateTS t (r * sqrt (lit 1 - c * c) * cos (phi (F := ℝ) w).1) (r * sqrt (lit 1 - c * c) * sin (phi (F := ℝ) w).1)
        ((-1)^j * (r*c))).2.1
      (rotateTS t (r * sqrt (lit 1 - c * c) * cos (phi (F := ℝ) w).1) (r * sqrt (lit 1 - c * c) * sin (phi (F := ℝ) w).1)
        ((-1)^j * (r*c))).2.2) (phi (F := ℝ) w).2
      have hz : (-1:ℝ)^(j+1) * (r*c) = (-1)^j * (r*c) * lit (-1) := by
        rw [lit_real, pow_succ]; push_cast; ring
      rw [hz] at this
      have hf : (fun i => deformedStep (E := E) (D := D) t r c (i + 1 + j)) = fun i => deformedStep t r c (i + (j+1)) := by
        funext i; congr 1; omega
      rw [hf]
      exact this
    · rename_i h; rw [hw j]; exact onePlaced_stop hd (hn j n w) h

theorem placeAllWS_placement (b dmin : ℝ) (hd : 0 ≤ dmin) {steps0 : List (Step E D)} {tries0 : List Nat}
    {placed : List (NucleonData ℝ)} {w0 w : Rand E D} (h0 : Placement b dmin steps0 tries0 placed w0 w)
    (rs : List ℝ) (ns : List (NucleonData ℝ)) (hl : rs.length = ns.length) :
    ∃ tries, Placement b dmin (steps0 ++ rs.map sphericalStep) tries (placeAllWS b (dmin*dmin) placed rs ns w).1 w0
      (placeAllWS b (dmin*dmin) placed rs ns w).2 := by
  induction ns generalizing rs placed w steps0 tries0 with
  | nil =>
    cases rs with
    | nil => exact ⟨tries0, by simpa [placeAllWS] using h0⟩
    | cons r rs => simp at hl
  | cons n ns ih =>
    cases rs with
    | nil => simp at hl
    | cons r rs =>
      obtain ⟨k, hk, h1, h2, h3, h4⟩ := placeWS_onePlaced b dmin r hd placed 999 n w
      have h5 := Placement.snoc (sphericalStep r) k (placeWS b (dmin*dmin) r placed 1000 n w).1 h0 hk h1 h2 h3
      rw [← h4] at h5
      obtain ⟨tries, h6⟩ := ih h5 rs (by simpa using hl)
      refine ⟨tries, ?_⟩
      rw [placeAllWS]
      simpa using h6

theorem placeAllDef_placement (b dmin : ℝ) (hd : 0 ≤ dmin) (t : TiltSpin ℝ) {steps0 : List (Step E D)} {tries0 : List Nat}
    {placed : List (NucleonData ℝ)} {w0 w : Rand E D} (h0 : Placement b dmin steps0 tries0 placed w0 w)
    (ss : List (ℝ × ℝ)) (ns : List (NucleonData ℝ)) (hl : ss.length = ns.length) :
    ∃ tries, Placement b dmin (steps0 ++ ss.map fun s => deformedStep t s.1 s.2) tries
      (placeAllDef b (dmin*dmin) t placed ss ns w).1 w0 (placeAllDef b (dmin*dmin) t placed ss ns w).2 := by
  induction ns generalizing ss placed w steps0 tries0 with
  | nil =>
    cases ss with
    | nil => exact ⟨tries0, by simpa [placeAllDef] using h0⟩
    | cons r rs => simp at hl
  | cons n ns ih =>
    cases ss with
    | nil => simp at hl
    | cons s ss =>
      have h := placeDef_onePlaced b dmin hd t s.1 s.2 placed 999 0 n w
      rw [pow_zero, one_mul] at h
      obtain ⟨k, hk, h1, h2, h3, h4⟩ := h
      have h5 := Placement.snoc (deformedStep t s.1 s.2) k
        (placeDef b (dmin*dmin) t (s.1 * sqrt (lit 1 - s.2 * s.2)) placed 1000 (s.1*s.2) n w).1 h0 hk h1 h2 h3
      have h4' : (placeDef b (dmin*dmin) t (s.1 * sqrt (lit 1 - s.2 * s.2)) placed 1000 (s.1*s.2) n w).2 =
        (attempt (deformedStep t s.1 s.2) w k).2 := h4
      rw [← h4'] at h5
      obtain ⟨tries, h6⟩ := ih h5 ss (by simpa using hl)
      refine ⟨tries, ?_⟩
      rw [placeAllDef]
      simpa using h6

/-- **C15, placement, spherical.** Sampling a Woods–Saxon nucleus with minimum distance `dmin` places the nucleons one after
the other at the sorted radii, each by at most 1000 attempts, moving on at the first attempt that is not too close. -/
theorem C15_placement_spherical (R a dmin : ℝ) (hd : 0 ≤ dmin) (nuc nuc' : Nucleus ℝ)
    (hk : nuc.kind = .woodsSaxon R a (dmin * dmin)) (fuel : Nat) (b : ℝ) (w w' : Rand E D)
    (h : nuc.sampleNucleons fuel b w = .ok (nuc', w')) :
    ∃ tries, Placement b dmin ((sortBy id (drawRadii R a nuc.nucleons.length w).1).map sphericalStep) tries
      nuc'.nucleons (drawRadii R a nuc.nucleons.length w).2 w' := by
  unfold Nucleus.sampleNucleons at h
  rw [hk] at h
  simp only [Except.ok.injEq, Prod.mk.injEq] at h
  obtain ⟨tries, ht⟩ := placeAllWS_placement (E := E) (D := D) b dmin hd (Placement.nil _)
    (sortBy id (drawRadii R a nuc.nucleons.length w).1) nuc.nucleons (by rw [sortBy_length, drawRadii_length])
  refine ⟨tries, ?_⟩
  rw [← h.1, ← h.2]
  simpa [sampleWS] using ht

/-- **C15, placement, deformed.** -/
theorem C15_placement_deformed (R a b2 b4 rmax dmin : ℝ) (hd : 0 ≤ dmin) (nuc nuc' : Nucleus ℝ)
    (hk : nuc.kind = .deformed R a b2 b4 rmax (dmin * dmin)) (fuel : Nat) (b : ℝ) (w w' : Rand E D)
    (h : nuc.sampleNucleons fuel b w = .ok (nuc', w')) :
    ∃ samples w2 tries, drawDeformed fuel R a b2 b4 rmax nuc.nucleons.length (drawTiltSpin (F := ℝ) w).2 = .ok (samples, w2) ∧
      Placement b dmin ((sortBy Prod.fst samples).map fun s => deformedStep (drawTiltSpin (F := ℝ) w).1 s.1 s.2) tries
      nuc'.nucleons w2 w' := by
  unfold Nucleus.sampleNucleons at h
  rw [hk] at h
  simp only [sampleDeformed] at h
  cases hs : drawDeformed fuel R a b2 b4 rmax nuc.nucleons.length (drawTiltSpin (F := ℝ) w).2 with
  | error e => rw [hs] at h; simp at h
  | ok res =>
    obtain ⟨samples, w2⟩ := res
    rw [hs] at h
    simp only [Except.ok.injEq, Prod.mk.injEq] at h
    obtain ⟨tries, ht⟩ := placeAllDef_placement (E := E) (D := D) b dmin hd (drawTiltSpin (F := ℝ) w).1 (Placement.nil w2)
      (sortBy Prod.fst samples) nuc.nucleons (by rw [sortBy_length, drawDeformed_length hs])
    refine ⟨samples, w2, tries, rfl, ?_⟩
    rw [← h.1, ← h.2]
    simpa using ht

/-- **C15, minimum distance.** In any placement no nucleon uses more than 1000 attempts, and if no nucleon used all of them,
every pair of nucleons is at least `dmin` apart (`dmin² ≥ 1e-10`). -/
theorem C15_minimum_distance (b dmin : ℝ) (hd : 1e-10 ≤ dmin * dmin) {steps : List (Step E D)} {tries : List Nat}
    {ns : List (NucleonData ℝ)} {w w' : Rand E D} (h : Placement b dmin steps tries ns w w') :
    tries.length = ns.length ∧ (∀ t ∈ tries, 1 ≤ t ∧ t ≤ 1000) ∧
    ∀ i j, i < j → ∀ (hj : j < ns.length) (_ : tries[j]? ≠ some 1000) (hi : i < ns.length),
      dmin ≤ dist3 (pos ns[j]) (pos ns[i]) := by
  induction h with
  | nil w => exact ⟨rfl, by simp, by intro i j _ hj; simp at hj⟩
  | @snoc steps tries ns w w1 step k n h hk h1 h2 h3 ih =>
    obtain ⟨hlen, hle, hp⟩ := ih
    refine ⟨by simp [hlen], ?_, ?_⟩
    · intro t ht
      rcases List.mem_append.mp ht with ht | ht
      · exact hle t ht
      · simp at ht; omega
    · intro i j hij hj ht hi
      by_cases hjl : j < ns.length
      · have := hp i j hij hjl (by rwa [List.getElem?_append_left (by omega)] at ht) (by omega)
        rwa [List.getElem_append_left hjl, List.getElem_append_left (by omega)]
      · have hj' : j = ns.length := by simp at hj; omega
        subst hj'
        rw [← hlen] at ht
        simp at ht
        have h2' := h2.resolve_right (by omega)
        simp only [List.getElem_append_right (Nat.le_refl _), Nat.sub_self, List.getElem_cons_zero]
        rw [List.getElem_append_left (by omega), h3]
        by_contra hc
        exact h2' ⟨hd, _, List.getElem_mem _, not_le.mp hc⟩

/-- The minimum distance constraint in one statement for a whole nucleus: if all attempts counts are below 1000, all pairs are
at least `dmin` apart. -/
theorem C15_all_pairs (b dmin : ℝ) (hd : 1e-10 ≤ dmin * dmin) {steps : List (Step E D)} {tries : List Nat}
    {ns : List (NucleonData ℝ)} {w w' : Rand E D} (h : Placement b dmin steps tries ns w w') (ht : ∀ t ∈ tries, t < 1000) :
    ns.Pairwise fun n1 n2 => dmin ≤ dist3 (pos n2) (pos n1) := by
  obtain ⟨hlen, _, hp⟩ := C15_minimum_distance b dmin hd h
  rw [List.pairwise_iff_getElem]
  intro i j hi hj hij
  refine hp i j hij hj ?_ hi
  rw [List.getElem?_eq_getElem (by omega)]
  intro heq
  have := ht _ (List.getElem_mem (by omega : j < tries.length))
  simp only [Option.some.injEq] at heq
  omega

/-- With an inactive constraint (`dmin² < 1e-10`) every nucleon is placed at the first attempt. -/
theorem C15_inactive (b dmin : ℝ) (hd : dmin * dmin < 1e-10) {steps : List (Step E D)} {tries : List Nat}
    {ns : List (NucleonData ℝ)} {w w' : Rand E D} (h : Placement b dmin steps tries ns w w') : ∀ t ∈ tries, t = 1 := by
  induction h with
  | nil w => simp
  | @snoc steps tries ns w w1 step k n h hk h1 h2 h3 ih =>
    intro t ht
    rcases List.mem_append.mp ht with ht | ht
    · exact ih t ht
    · cases k with
      | zero => simpa using ht
      | succ k => exact absurd (h1 0 (by omega)).1 (by linarith)

/-- Non-vacuity: lead with `dmin = 1/2` can be sampled from a concrete tape, and the placement theorem applies to the 208
nucleons. -/
example : ∃ (ns : List (NucleonData ℝ)) (steps : List (Step Tape Unit)) (tries : List Nat) (w w' : Rand Tape Unit),
    Placement 3 (1/2) steps tries ns w w' ∧ ns.length = 208 := by
  have h1 : createNucleus (F := ℝ) false (fun _ => .missing) "Pb" (1/2) =
    .ok (mkWoodsSaxon 208 (lit 6.62) (lit 0.546) (1/2)) := rfl
  have hh : NucleusHistory Tape Unit (mkWoodsSaxon 208 (lit 6.62 : ℝ) (lit 0.546) (1/2)) := .create _ _ _ _ _ h1
  let w : Rand Tape Unit := ⟨Tape.const 0 (by norm_num), ()⟩
  obtain ⟨⟨nuc', w'⟩, hs⟩ := sampleNucleons_ws_ok (mkWoodsSaxon 208 (lit 6.62 : ℝ) (lit 0.546) (1/2)) _ _ _ rfl 1 3 w
  obtain ⟨tries, h⟩ := C15_placement_spherical _ _ (1/2) (by norm_num) _ _ rfl _ _ _ _ hs
  exact ⟨nuc'.nucleons, _, tries, _, w', h, by
    rw [(C12_sampling_resets _ _ hh _ _ _ _ hs).1]; exact List.length_replicate⟩

end
end Trento
