import Verif.Lemmas.LatticeGauss
import Verif.Props.Observables

/-!
# C112: the grids integrate to the weights of the participants

A nucleon is normalised so that its thickness integrates to the average of the weights of its constituents.  The
program only has the values at cell centres; here the cell sums are compared with the weights, with numerical bounds
that hold for every grid whose step does not exceed the constituent width.
-/

namespace Trento.Spec
/-- Sum over the participants of a nucleus of their constituents' weights, divided by the number `m` of constituents per
nucleon: the integral that the thickness function of the nucleus is meant to have. -/
noncomputable def participantWeight (m : ℕ) (A : List (NucleonData ℝ)) : ℝ :=
  ((A.filter (·.isParticipant)).map fun a => (a.constituents.map (·.fluctuation)).sum / (m:ℝ)).sum
end Trento.Spec

namespace Trento
open Spec LatticeGauss

theorem gridSum_mono {n : ℕ} {f g : Fin n → Fin n → ℝ} (h : ∀ iy ix, f iy ix ≤ g iy ix) : gridSum f ≤ gridSum g :=
  Finset.sum_le_sum fun iy _ => Finset.sum_le_sum fun ix _ => h iy ix

theorem gridSum_add {n : ℕ} (f g : Fin n → Fin n → ℝ) :
    gridSum (fun iy ix => f iy ix + g iy ix) = gridSum f + gridSum g := by
  unfold gridSum; simp only [Finset.sum_add_distrib]

theorem gridSum_mul {n : ℕ} (s : ℝ) (f : Fin n → Fin n → ℝ) :
    gridSum (fun iy ix => s * f iy ix) = s * gridSum f := by
  unfold gridSum; simp only [Finset.mul_sum]

/-- Grid integral of the ideal thickness of a nucleon. -/
theorem ideal_grid {v : ℝ} (m : ℕ) {n : ℕ} (h X : ℝ) (cs : List (Constituent ℝ)) :
    h^2 * gridSum (fun iy ix : Fin n => idealThickness v m cs (node h X ix.val) (node h X iy.val)) =
      (cs.map fun q => q.fluctuation * disc h X v q.x q.y n).sum / m := by
  induction cs with
  | nil => simp [idealThickness, gridSum]
  | cons q cs ih =>
    have e : ∀ iy ix : Fin n, idealThickness v m (q :: cs) (node h X ix.val) (node h X iy.val) =
        q.fluctuation / (2 * Real.pi * v^2 * m) * (if distSq q (node h X ix.val) (node h X iy.val) < (5 * v)^2 then
          Real.exp (-distSq q (node h X ix.val) (node h X iy.val) / (2 * v^2)) else 0) +
        idealThickness v m cs (node h X ix.val) (node h X iy.val) := by
      intro iy ix
      unfold idealThickness
      rw [List.map_cons, List.sum_cons, mul_add]
      congr 1
      split <;> ring
    simp only [e]
    rw [gridSum_add, mul_add, ih, List.map_cons, List.sum_cons, add_div, gridSum_mul]
    congr 1
    unfold disc gridSum distSq
    ring

theorem ideal_grid_le {v h : ℝ} (hh : 0 < h) (hhv : h ≤ v) (X : ℝ) (m n : ℕ) {cs : List (Constituent ℝ)}
    (hf : ∀ q ∈ cs, 0 ≤ q.fluctuation) :
    h^2 * gridSum (fun iy ix : Fin n => idealThickness v m cs (node h X ix.val) (node h X iy.val)) ≤
      (1 + 2.1e-8) * ((cs.map (·.fluctuation)).sum / (m:ℝ)) := by
  rw [ideal_grid, ← mul_div_assoc, ← List.sum_map_mul_left]
  refine div_le_div_of_nonneg_right ?_ (Nat.cast_nonneg m)
  refine List.sum_le_sum fun q hq => ?_
  have := disc_le hh hhv X q.x q.y n
  have := hf q hq
  nlinarith

theorem ideal_grid_ge {v h : ℝ} (hh : 0 < h) (hhv : h ≤ v) {X : ℝ} (m : ℕ) {n : ℕ} (hX : 2 * X = n * h)
    {cs : List (Constituent ℝ)}
    (hf : ∀ q ∈ cs, 0 ≤ q.fluctuation ∧ |q.x| + 5 * v ≤ X ∧ |q.y| + 5 * v ≤ X) :
    (1 - 2.1e-4) * ((cs.map (·.fluctuation)).sum / (m:ℝ)) ≤
      h^2 * gridSum (fun iy ix : Fin n => idealThickness v m cs (node h X ix.val) (node h X iy.val)) := by
  rw [ideal_grid, ← mul_div_assoc, ← List.sum_map_mul_left]
  refine div_le_div_of_nonneg_right ?_ (Nat.cast_nonneg m)
  refine List.sum_le_sum fun q hq => ?_
  obtain ⟨h0, h1, h2⟩ := hf q hq
  have := disc_ge hh hhv hX h1 h2
  nlinarith

theorem direct_cons (nc : NucleonCommon ℝ) (debug : Bool) (a : NucleonData ℝ) (A : List (NucleonData ℝ)) (x y : ℝ) :
    directThickness nc debug (a :: A) x y =
      (if a.isParticipant then thicknessAt nc debug a x y else 0) + directThickness nc debug A x y := by
  unfold directThickness
  by_cases h : a.isParticipant = true <;> simp [h]

theorem participantWeight_cons (m : ℕ) (a : NucleonData ℝ) (A : List (NucleonData ℝ)) :
    participantWeight m (a :: A) =
      (if a.isParticipant then (a.constituents.map (·.fluctuation)).sum / (m:ℝ) else 0) + participantWeight m A := by
  unfold participantWeight
  by_cases h : a.isParticipant = true <;> simp [h]

theorem direct_grid_le {w v : ℝ} {m : ℕ} {σ : ℝ} {ncoll : Bool} {k h : ℝ} (hh : 0 < h) (hhv : h ≤ v) (X : ℝ) (n : ℕ)
    (debug : Bool) {A : List (NucleonData ℝ)}
    (hA : ∀ a ∈ A, a.isParticipant = true → ∀ q ∈ a.constituents, 0 ≤ q.fluctuation) :
    h^2 * gridSum (fun iy ix : Fin n =>
      directThickness (NucleonCommon.make w v m σ ncoll k) debug A (node h X ix.val) (node h X iy.val)) ≤
      (1 + 2.1e-8) * participantWeight m A := by
  have hv : 0 < v := by linarith
  generalize hnc : NucleonCommon.make w v m σ ncoll k = nc
  induction A with
  | nil => simp [directThickness, participantWeight, gridSum]
  | cons a A ih =>
    simp only [direct_cons, participantWeight_cons, gridSum_add]
    have ih' := ih fun b hb => hA b (by simp [hb])
    rw [mul_add, mul_add]
    refine add_le_add ?_ ih'
    by_cases hp : a.isParticipant = true
    · simp only [hp, if_true]
      have hf := hA a (by simp) hp
      refine le_trans ?_ (ideal_grid_le hh hhv X m n hf)
      refine mul_le_mul_of_nonneg_left (gridSum_mono fun iy ix => ?_) (by positivity)
      obtain ⟨t, ht, -, h1, -⟩ := C03_thickness w v m σ ncoll k hv debug a hf (node h X ix.val) (node h X iy.val)
      rw [hnc] at ht
      unfold thicknessAt; rw [ht]; exact h1
    · simp [hp, gridSum]

theorem direct_grid_ge {w v : ℝ} {m : ℕ} {σ : ℝ} {ncoll : Bool} {k h : ℝ} (hh : 0 < h) (hhv : h ≤ v) {X : ℝ} {n : ℕ}
    (hX : 2 * X = n * h) (debug : Bool) {A : List (NucleonData ℝ)}
    (hA : ∀ a ∈ A, a.isParticipant = true → ∀ q ∈ a.constituents,
      0 ≤ q.fluctuation ∧ |q.x| + 5 * v ≤ X ∧ |q.y| + 5 * v ≤ X) :
    (1 - 2.5e-4) * participantWeight m A ≤ h^2 * gridSum (fun iy ix : Fin n =>
      directThickness (NucleonCommon.make w v m σ ncoll k) debug A (node h X ix.val) (node h X iy.val)) := by
  have hv : 0 < v := by linarith
  generalize hnc : NucleonCommon.make w v m σ ncoll k = nc
  induction A with
  | nil => simp [directThickness, participantWeight, gridSum]
  | cons a A ih =>
    simp only [direct_cons, participantWeight_cons, gridSum_add]
    have ih' := ih fun b hb => hA b (by simp [hb])
    rw [mul_add, mul_add]
    refine add_le_add ?_ ih'
    by_cases hp : a.isParticipant = true
    · simp only [hp, if_true]
      have hq := hA a (by simp) hp
      have hf : ∀ q ∈ a.constituents, 0 ≤ q.fluctuation := fun q h => (hq q h).1
      have h1 := ideal_grid_ge hh hhv m hX hq
      have herr := C03_error_small
      have h2 : (1 - 2e-5) * gridSum (fun iy ix : Fin n =>
          idealThickness v m a.constituents (node h X ix.val) (node h X iy.val)) ≤
          gridSum (fun iy ix : Fin n => thicknessAt nc debug a (node h X ix.val) (node h X iy.val)) := by
        rw [← gridSum_mul]
        refine gridSum_mono fun iy ix => ?_
        obtain ⟨t, ht, h0, h3, h4, -⟩ :=
          C03_thickness w v m σ ncoll k hv debug a hf (node h X ix.val) (node h X iy.val)
        rw [hnc] at ht
        unfold thicknessAt; rw [ht]
        have hid : 0 ≤ idealThickness v m a.constituents (node h X ix.val) (node h X iy.val) := h0.trans h3
        dsimp only
        nlinarith
      have hW : 0 ≤ (a.constituents.map (·.fluctuation)).sum / (m:ℝ) := by
        refine div_nonneg (List.sum_nonneg ?_) (Nat.cast_nonneg m)
        intro t ht
        obtain ⟨q, hq', rfl⟩ := List.mem_map.mp ht
        exact hf q hq'
      have h5 := mul_le_mul_of_nonneg_left h2 (sq_nonneg h)
      nlinarith
    · simp [hp, gridSum]

theorem center_node (c : EventCfg ℝ) (i : ℤ) : c.center i = node c.dxy c.xymax i := by
  rw [center_real]; rfl

section
variable (w v : ℝ) (m : ℕ) (σ : ℝ) (ncoll : Bool) (k : ℝ) (c : EventCfg ℝ) (debug : Bool) (n : ℕ)
  (A B : List (NucleonData ℝ)) (ev ev' : Event ℝ n)

/-- **C112, upper bound.** For every grid whose step does not exceed the constituent width, and wherever the participants
are, the grid integral of a thickness grid exceeds the weight of the participants by at most a fraction `2.1e-8`. -/
theorem C112_thickness_integral_le (hd : 0 < c.dxy) (hdv : c.dxy ≤ v) (hn : c.nsteps = n)
    (hA : ∀ a ∈ A, a.isParticipant = true → ∀ q ∈ a.constituents, 0 ≤ q.fluctuation)
    (hB : ∀ b ∈ B, b.isParticipant = true → ∀ q ∈ b.constituents, 0 ≤ q.fluctuation)
    (h : Event.compute c (NucleonCommon.make w v m σ ncoll k) debug ev A B = .ok ev') :
    c.dxy^2 * gridSum ev'.TA ≤ (1 + 2.1e-8) * participantWeight m A ∧
    c.dxy^2 * gridSum ev'.TB ≤ (1 + 2.1e-8) * participantWeight m B := by
  have hv : 0 < v := by linarith
  have hd2 : 0 ≤ c.dxy^2 := by positivity
  have hT := C21_thickness_is_direct_sum w v m σ ncoll k hv c hd debug n hn A B hA hB ev ev' h
  constructor
  · refine le_trans (mul_le_mul_of_nonneg_left (gridSum_mono fun iy ix => ?_) hd2)
      (direct_grid_le (w := w) (σ := σ) (ncoll := ncoll) (k := k) hd hdv c.xymax n debug hA)
    rw [(hT iy ix).1, center_node, center_node]
  · refine le_trans (mul_le_mul_of_nonneg_left (gridSum_mono fun iy ix => ?_) hd2)
      (direct_grid_le (w := w) (σ := σ) (ncoll := ncoll) (k := k) hd hdv c.xymax n debug hB)
    rw [(hT iy ix).2, center_node, center_node]

/-- **C112, lower bound.** If moreover all constituents of all participants are at least five constituent widths inside
the grid, the grid integrals fall below the weights by at most a fraction `2.5e-4`. -/
theorem C112_thickness_integral_ge (hd : 0 < c.dxy) (hdv : c.dxy ≤ v) (hn : c.nsteps = n)
    (hX : 2 * c.xymax = n * c.dxy)
    (hAB : ∀ a ∈ A ++ B, a.isParticipant = true → ∀ q ∈ a.constituents,
      0 ≤ q.fluctuation ∧ |q.x| + 5 * v ≤ c.xymax ∧ |q.y| + 5 * v ≤ c.xymax)
    (h : Event.compute c (NucleonCommon.make w v m σ ncoll k) debug ev A B = .ok ev') :
    (1 - 2.5e-4) * participantWeight m A ≤ c.dxy^2 * gridSum ev'.TA ∧
    (1 - 2.5e-4) * participantWeight m B ≤ c.dxy^2 * gridSum ev'.TB := by
  have hv : 0 < v := by linarith
  have hd2 : 0 ≤ c.dxy^2 := by positivity
  have hA := fun a (ha : a ∈ A) => hAB a (by simp [ha])
  have hB := fun b (hb : b ∈ B) => hAB b (by simp [hb])
  have hT := C21_thickness_is_direct_sum w v m σ ncoll k hv c hd debug n hn A B
    (fun a ha hp q hq => (hA a ha hp q hq).1) (fun a ha hp q hq => (hB a ha hp q hq).1) ev ev' h
  constructor
  · refine le_trans (direct_grid_ge (w := w) (σ := σ) (ncoll := ncoll) (k := k) hd hdv hX debug hA)
      (mul_le_mul_of_nonneg_left (gridSum_mono fun iy ix => ?_) hd2)
    rw [(hT iy ix).1, center_node, center_node]
  · refine le_trans (direct_grid_ge (w := w) (σ := σ) (ncoll := ncoll) (k := k) hd hdv hX debug hB)
      (mul_le_mul_of_nonneg_left (gridSum_mono fun iy ix => ?_) hd2)
    rw [(hT iy ix).2, center_node, center_node]

theorem trentoMean_half (a b : ℝ) : trentoMean 1 a b = (a + b) / 2 := by
  unfold trentoMean powerMean
  rw [if_neg (by norm_num), if_neg (by intro h; linarith [h.1]), if_neg one_ne_zero, if_neg (by intro h; linarith [h.1])]
  simp

theorem gridSum_half (f g : Fin n → Fin n → ℝ) (s : ℝ) :
    gridSum (fun iy ix => s * ((f iy ix + g iy ix) / 2)) = s * ((gridSum f + gridSum g) / 2) := by
  rw [gridSum_mul]
  congr 1
  rw [← gridSum_add, div_eq_inv_mul, ← gridSum_mul]
  congr 1
  funext iy ix
  ring

/-- **C112, multiplicity from above.** For `p ≤ 1` the multiplicity is at most `norm` times half the weight of all
participants (up to `2.1e-8`), whatever the grid and wherever they are. -/
theorem C112_multiplicity_le (hd : 0 < c.dxy) (hdv : c.dxy ≤ v) (hn : c.nsteps = n) (hnorm : 0 ≤ c.norm) (hp : c.p ≤ 1)
    (hA : ∀ a ∈ A, a.isParticipant = true → ∀ q ∈ a.constituents, 0 ≤ q.fluctuation)
    (hB : ∀ b ∈ B, b.isParticipant = true → ∀ q ∈ b.constituents, 0 ≤ q.fluctuation)
    (h : Event.compute c (NucleonCommon.make w v m σ ncoll k) debug ev A B = .ok ev') :
    ev'.multiplicity ≤ (1 + 2.1e-8) * (c.norm * ((participantWeight m A + participantWeight m B) / 2)) := by
  have hv : 0 < v := by linarith
  have hd2 : 0 ≤ c.dxy^2 := by positivity
  obtain ⟨h1, h2⟩ := C112_thickness_integral_le w v m σ ncoll k c debug n A B ev ev' hd hdv hn hA hB h
  have h3 : gridSum ev'.TR ≤ c.norm * ((gridSum ev'.TA + gridSum ev'.TB) / 2) := by
    rw [← gridSum_half]
    refine gridSum_mono fun iy ix => ?_
    obtain ⟨p1, p2⟩ := C21_thickness_nonneg w v m σ ncoll k hv c hd debug n hn A B hA hB ev ev' h iy ix
    rw [C25_reduced_thickness c _ debug n A B ev ev' h iy ix, ← trentoMean_half]
    exact mul_le_mul_of_nonneg_left (C26_monotone _ _ _ _ p1 p2 hp) hnorm
  rw [C27_multiplicity c _ debug n ev ev' A B h]
  refine (mul_le_mul_of_nonneg_left h3 hd2).trans ?_
  have h4 : c.dxy^2 * (c.norm * ((gridSum ev'.TA + gridSum ev'.TB) / 2)) =
      c.norm * ((c.dxy^2 * gridSum ev'.TA + c.dxy^2 * gridSum ev'.TB) / 2) := by ring
  rw [h4, show (1 + 2.1e-8) * (c.norm * ((participantWeight m A + participantWeight m B) / 2)) =
    c.norm * (((1 + 2.1e-8) * participantWeight m A + (1 + 2.1e-8) * participantWeight m B) / 2) by ring]
  gcongr

/-- **C112, multiplicity from below.** For `p ≥ 1`, and participants at least five constituent widths inside the grid,
the multiplicity is at least `norm` times half the weight of all participants (up to `2.5e-4`). -/
theorem C112_multiplicity_ge (hd : 0 < c.dxy) (hdv : c.dxy ≤ v) (hn : c.nsteps = n)
    (hX : 2 * c.xymax = n * c.dxy) (hnorm : 0 ≤ c.norm) (hp : 1 ≤ c.p)
    (hAB : ∀ a ∈ A ++ B, a.isParticipant = true → ∀ q ∈ a.constituents,
      0 ≤ q.fluctuation ∧ |q.x| + 5 * v ≤ c.xymax ∧ |q.y| + 5 * v ≤ c.xymax)
    (h : Event.compute c (NucleonCommon.make w v m σ ncoll k) debug ev A B = .ok ev') :
    (1 - 2.5e-4) * (c.norm * ((participantWeight m A + participantWeight m B) / 2)) ≤ ev'.multiplicity := by
  have hv : 0 < v := by linarith
  have hd2 : 0 ≤ c.dxy^2 := by positivity
  obtain ⟨h1, h2⟩ := C112_thickness_integral_ge w v m σ ncoll k c debug n A B ev ev' hd hdv hn hX hAB h
  have h3 : c.norm * ((gridSum ev'.TA + gridSum ev'.TB) / 2) ≤ gridSum ev'.TR := by
    rw [← gridSum_half]
    refine gridSum_mono fun iy ix => ?_
    obtain ⟨p1, p2⟩ := C21_thickness_nonneg w v m σ ncoll k hv c hd debug n hn A B
      (fun a ha hp q hq => (hAB a (by simp [ha]) hp q hq).1) (fun a ha hp q hq => (hAB a (by simp [ha]) hp q hq).1)
      ev ev' h iy ix
    rw [C25_reduced_thickness c _ debug n A B ev ev' h iy ix, ← trentoMean_half]
    exact mul_le_mul_of_nonneg_left (C26_monotone _ _ _ _ p1 p2 hp) hnorm
  rw [C27_multiplicity c _ debug n ev ev' A B h]
  refine le_trans ?_ (mul_le_mul_of_nonneg_left h3 hd2)
  have h4 : c.dxy^2 * (c.norm * ((gridSum ev'.TA + gridSum ev'.TB) / 2)) =
      c.norm * ((c.dxy^2 * gridSum ev'.TA + c.dxy^2 * gridSum ev'.TB) / 2) := by ring
  rw [h4, show (1 - 2.5e-4) * (c.norm * ((participantWeight m A + participantWeight m B) / 2)) =
    c.norm * (((1 - 2.5e-4) * participantWeight m A + (1 - 2.5e-4) * participantWeight m B) / 2) by ring]
  gcongr

end

theorem participantWeight_nonneg (m : ℕ) (A : List (NucleonData ℝ))
    (hA : ∀ a ∈ A, a.isParticipant = true → ∀ q ∈ a.constituents, 0 ≤ q.fluctuation) : 0 ≤ participantWeight m A := by
  refine List.sum_nonneg fun t ht => ?_
  obtain ⟨a, ha, rfl⟩ := List.mem_map.mp ht
  rw [List.mem_filter] at ha
  refine div_nonneg (List.sum_nonneg fun u hu => ?_) (Nat.cast_nonneg m)
  obtain ⟨q, hq, rfl⟩ := List.mem_map.mp hu
  exact hA a ha.1 ha.2 q hq

/-- **C112, the grid does not matter at `p = 1`.** The wounded nucleon multiplicities of the same participants on two
grids that contain them and whose steps do not exceed the constituent width differ by less than `3e-4` of the value the
model aims at, whatever the two steps and sizes are. -/
theorem C112_grid_choice (w v : ℝ) (m : ℕ) (σ : ℝ) (ncoll : Bool) (k norm d₁ g₁ d₂ g₂ : ℝ) (debug : Bool) (n₁ n₂ : ℕ)
    (A B : List (NucleonData ℝ)) (c₁ c₂ : EventCfg ℝ) (ev₁ ev₁' : Event ℝ n₁) (ev₂ ev₂' : Event ℝ n₂)
    (hnorm : 0 ≤ norm) (hd₁ : 0 < d₁) (hd₂ : 0 < d₂) (hv₁ : d₁ ≤ v) (hv₂ : d₂ ≤ v) (hg₁ : 0 ≤ g₁) (hg₂ : 0 ≤ g₂)
    (m₁ : EventCfg.make norm d₁ g₁ 1 = .ok c₁) (m₂ : EventCfg.make norm d₂ g₂ 1 = .ok c₂)
    (hn₁ : c₁.nsteps = n₁) (hn₂ : c₂.nsteps = n₂)
    (hAB : ∀ a ∈ A ++ B, a.isParticipant = true → ∀ q ∈ a.constituents,
      0 ≤ q.fluctuation ∧ |q.x| + 5 * v ≤ min g₁ g₂ ∧ |q.y| + 5 * v ≤ min g₁ g₂)
    (h₁ : Event.compute c₁ (NucleonCommon.make w v m σ ncoll k) debug ev₁ A B = .ok ev₁')
    (h₂ : Event.compute c₂ (NucleonCommon.make w v m σ ncoll k) debug ev₂ A B = .ok ev₂') :
    |ev₁'.multiplicity - ev₂'.multiplicity| ≤
      3e-4 * (norm * ((participantWeight m A + participantWeight m B) / 2)) := by
  have key : ∀ (d g : ℝ) (n : ℕ) (c : EventCfg ℝ) (ev ev' : Event ℝ n), 0 < d → d ≤ v → 0 ≤ g →
      EventCfg.make norm d g 1 = .ok c → c.nsteps = n → min g₁ g₂ ≤ g →
      Event.compute c (NucleonCommon.make w v m σ ncoll k) debug ev A B = .ok ev' →
      (1 - 2.5e-4) * (norm * ((participantWeight m A + participantWeight m B) / 2)) ≤ ev'.multiplicity ∧
      ev'.multiplicity ≤ (1 + 2.1e-8) * (norm * ((participantWeight m A + participantWeight m B) / 2)) := by
    intro d g n c ev ev' hd hdv hg hm hn hmin h
    obtain ⟨q1, q2, q3, q4, -⟩ := C20_grid_geometry norm d g 1 hd hg c hm
    have hcn : c.norm = norm ∧ c.p = 1 := by
      unfold EventCfg.make at hm
      split at hm
      · cases hm
      · split at hm
        · cases hm
        · have := (Except.ok.inj hm).symm
          rw [this]; exact ⟨rfl, rfl⟩
    have hX : 2 * c.xymax = n * c.dxy := by rw [q3, q2, hn]; push_cast; ring
    have hin : ∀ a ∈ A ++ B, a.isParticipant = true → ∀ q ∈ a.constituents,
        0 ≤ q.fluctuation ∧ |q.x| + 5 * v ≤ c.xymax ∧ |q.y| + 5 * v ≤ c.xymax := by
      intro a ha hp q hq
      obtain ⟨r1, r2, r3⟩ := hAB a ha hp q hq
      exact ⟨r1, by linarith, by linarith⟩
    have lo := C112_multiplicity_ge w v m σ ncoll k c debug n A B ev ev' (by rw [q2]; exact hd) (by rw [q2]; exact hdv)
      hn hX (by rw [hcn.1]; exact hnorm) (by rw [hcn.2]) hin h
    have up := C112_multiplicity_le w v m σ ncoll k c debug n A B ev ev' (by rw [q2]; exact hd) (by rw [q2]; exact hdv)
      hn (by rw [hcn.1]; exact hnorm) (by rw [hcn.2]) (fun a ha hp q hq => (hin a (by simp [ha]) hp q hq).1)
      (fun a ha hp q hq => (hin a (by simp [ha]) hp q hq).1) h
    rw [hcn.1] at lo up
    exact ⟨lo, up⟩
  obtain ⟨l1, u1⟩ := key d₁ g₁ n₁ c₁ ev₁ ev₁' hd₁ hv₁ hg₁ m₁ hn₁ (min_le_left _ _) h₁
  obtain ⟨l2, u2⟩ := key d₂ g₂ n₂ c₂ ev₂ ev₂' hd₂ hv₂ hg₂ m₂ hn₂ (min_le_right _ _) h₂
  have hW : 0 ≤ norm * ((participantWeight m A + participantWeight m B) / 2) := by
    have := participantWeight_nonneg m A fun a ha hp q hq => (hAB a (by simp [ha]) hp q hq).1
    have := participantWeight_nonneg m B fun a ha hp q hq => (hAB a (by simp [ha]) hp q hq).1
    positivity
  rw [abs_le]
  constructor <;> linarith

/-- Non-vacuity: the default grid (10 fm, 0.2 fm), width 0.5, `p = 1`, one participant per side; the multiplicity of this
event is 1.25 up to `2.5e-4`. -/
example : ∃ (c : EventCfg ℝ) (n : ℕ) (ev ev' : Event ℝ n) (A B : List (NucleonData ℝ)),
    EventCfg.make (1:ℝ) 0.2 10 1 = .ok c ∧ c.nsteps = n ∧
    Event.compute c (NucleonCommon.make (0.5:ℝ) 0.5 1 1 false 1) true ev A B = .ok ev' ∧
    participantWeight 1 A = 1 ∧ participantWeight 1 B = 1.5 ∧
    (1 - 2.5e-4) * 1.25 ≤ ev'.multiplicity ∧ ev'.multiplicity ≤ (1 + 2.1e-8) * 1.25 := by
  obtain ⟨c, hc⟩ := C20_grid_exists 1 0.2 10 1 (by norm_num) (by norm_num) (by norm_num)
  obtain ⟨q1, q2, q3, q4, q5, -⟩ := C20_grid_geometry 1 0.2 10 1 (by norm_num) (by norm_num) c hc
  have hns : c.nsteps = (100:ℕ) := by
    rw [q1]
    have : (2 * 10 / 0.2 : ℝ) = ((100:ℤ) : ℝ) := by norm_num
    rw [this, Int.ceil_intCast]; rfl
  have hX : c.xymax = 10 := by
    have : (c.nsteps : ℝ) = 100 := by rw [hns]; norm_num
    rw [this] at q3; linarith
  have hcn : c.norm = 1 ∧ c.p = 1 := by
    unfold EventCfg.make at hc
    split at hc
    · cases hc
    · split at hc
      · cases hc
      · have := (Except.ok.inj hc).symm
        rw [this]; exact ⟨rfl, rfl⟩
  let A : List (NucleonData ℝ) := [⟨1, 0, 0, true, true, [⟨1, 0, 1⟩]⟩]
  let B : List (NucleonData ℝ) := [⟨1, 1, 0, true, true, [⟨1, 1, 1.5⟩]⟩]
  have hin : ∀ a ∈ A ++ B, a.isParticipant = true → a.constituents ≠ [] ∧ ∀ q ∈ a.constituents,
      0 ≤ q.fluctuation ∧ |q.x| ≤ 1 ∧ |q.y| ≤ 1 := by
    intro a ha _
    simp only [A, B, List.cons_append, List.nil_append, List.mem_cons, List.not_mem_nil, or_false] at ha
    rcases ha with rfl | rfl
    · refine ⟨by simp, fun q hq => ?_⟩
      simp only [List.mem_cons, List.not_mem_nil, or_false] at hq
      subst hq; norm_num
    · refine ⟨by simp, fun q hq => ?_⟩
      simp only [List.mem_cons, List.not_mem_nil, or_false] at hq
      subst hq; norm_num
  let ev : Event ℝ 100 := ⟨fun _ _ => 0, fun _ _ => 0, fun _ _ => 0, 0, 0, 0, 0, ⟨0, 0, 0, 0⟩⟩
  obtain ⟨ev', h⟩ := C22_deposition_in_bounds 0.5 0.5 1 1 false 1 (by norm_num) c (by rw [q2]; norm_num) true 100 hns
    (by norm_num) A B 1 hin (by rw [hX, q2]; norm_num) ev
  have hWA : participantWeight 1 A = 1 := by simp [participantWeight, A]
  have hWB : participantWeight 1 B = 1.5 := by simp [participantWeight, B]
  have hin' : ∀ a ∈ A ++ B, a.isParticipant = true → ∀ q ∈ a.constituents,
      0 ≤ q.fluctuation ∧ |q.x| + 5 * 0.5 ≤ c.xymax ∧ |q.y| + 5 * 0.5 ≤ c.xymax := by
    intro a ha hp q hq
    obtain ⟨r1, r2, r3⟩ := (hin a ha hp).2 q hq
    rw [hX]
    exact ⟨r1, by linarith, by linarith⟩
  have lo := C112_multiplicity_ge 0.5 0.5 1 1 false 1 c true 100 A B ev ev' (by rw [q2]; norm_num)
    (by rw [q2]; norm_num) hns (by rw [hX, q2]; norm_num) (by rw [hcn.1]; norm_num) (by rw [hcn.2]) hin' h
  have up := C112_multiplicity_le 0.5 0.5 1 1 false 1 c true 100 A B ev ev' (by rw [q2]; norm_num)
    (by rw [q2]; norm_num) hns (by rw [hcn.1]; norm_num) (by rw [hcn.2])
    (fun a ha hp q hq => (hin' a (by simp [ha]) hp q hq).1) (fun a ha hp q hq => (hin' a (by simp [ha]) hp q hq).1) h
  rw [hcn.1, hWA, hWB] at lo up
  refine ⟨c, 100, ev, ev', A, B, hc, hns, h, hWA, hWB, ?_, ?_⟩ <;> linarith

end Trento
