import Verif.Lemmas.RoundedDeposit
import Verif.Props.RoundedObservables
import Verif.Props.RoundedExample

/-! # C80: accuracy of the thickness grids of whole events in rounded arithmetic -/

namespace Trento
open Spec
variable {M : Machine}

/-- The thickness of a nucleus at a point: the sum over its participants of their ideal thickness (Gaussians of width `v`, `m` per nucleon,
cut off at radius `ρ`). -/
noncomputable def Spec.participantThickness (ρ v : ℝ) (m : ℕ) (A : List (NucleonData (Fl M))) (x y : ℝ) : ℝ :=
  ((A.filter (·.isParticipant)).map fun a => cutThickness ρ v m (a.constituents.map Constituent.exact) x y).sum

theorem cutThickness_nonneg (ρ v : ℝ) (m : ℕ) (cs : List (Constituent ℝ)) (hf : ∀ c ∈ cs, 0 ≤ c.fluctuation) (x y : ℝ) :
    0 ≤ cutThickness ρ v m cs x y := by
  have hpi := Real.pi_pos
  exact mul_nonneg (by positivity) (cutSum_nonneg ρ v x y cs hf)

theorem cutThickness_outside (ρ v : ℝ) (m : ℕ) (cs : List (Constituent ℝ)) (x y : ℝ) (h : ∀ c ∈ cs, ρ^2 ≤ distSq c x y) :
    cutThickness ρ v m cs x y = 0 := by
  have : cutSum ρ v x y cs = 0 := by
    induction cs with
    | nil => rfl
    | cons c cs ih =>
      rw [cutSum_cons, ih (fun q hq => h q (by simp [hq])), if_neg (not_lt.2 (h c (by simp))), add_zero]
  show 1 / (2 * Real.pi * v^2 * m) * cutSum ρ v x y cs = 0
  rw [this, mul_zero]

/-- One more participant. -/
theorem grid_step {g t T L U l u ε k : ℝ} (hT : |T - (g + t)| ≤ 1.2e-16 * |g + t| + 1e-250) (hg : 0 ≤ g) (ht : 0 ≤ t)
    (hε : 2.1e-5 ≤ ε) (hε1 : ε ≤ 0.1) (hL : 0 ≤ L) (hU : 0 ≤ U) (hl : 0 ≤ l) (hu : 0 ≤ u) (hk0 : 0 ≤ k) (hk : k ≤ 1e6)
    (h1 : (1 - ε) * L - k * 1e-199 ≤ g) (h2 : g ≤ (1 + ε) * U + k * 1e-199)
    (h3 : (1 - 2.1e-5) * l - 1e-200 ≤ t) (h4 : t ≤ (1 + 2.1e-5) * u + 1e-200) :
    (1 - (ε + 2e-16)) * (L + l) - (k + 1) * 1e-199 ≤ T ∧ T ≤ (1 + (ε + 2e-16)) * (U + u) + (k + 1) * 1e-199 := by
  rw [abs_of_nonneg (show 0 ≤ g + t by linarith)] at hT
  have hT := abs_le.1 hT
  have hl' : (1 - ε) * l ≤ (1 - 2.1e-5) * l := mul_le_mul_of_nonneg_right (by linarith) hl
  have hu' : (1 + 2.1e-5) * u ≤ (1 + ε) * u := mul_le_mul_of_nonneg_right (by linarith) hu
  have a1 : (1 - ε) * (L + l) - k * 1e-199 - 1e-200 ≤ g + t := by linarith
  have a2 : g + t ≤ (1 + ε) * (U + u) + k * 1e-199 + 1e-200 := by linarith
  have b1 : ε * (L + l) ≤ 0.1 * (L + l) := mul_le_mul_of_nonneg_right hε1 (by linarith)
  have b2 : ε * (U + u) ≤ 0.1 * (U + u) := mul_le_mul_of_nonneg_right hε1 (by linarith)
  have b3 : 0 ≤ ε * (L + l) := mul_nonneg (by linarith) (by linarith)
  have b4 : 0 ≤ ε * (U + u) := mul_nonneg (by linarith) (by linarith)
  have e1 : (1 - ε) * (L + l) = (L + l) - ε * (L + l) := by ring
  have e2 : (1 + ε) * (U + u) = (U + u) + ε * (U + u) := by ring
  have e3 : (1 - (ε + 2e-16)) * (L + l) = (L + l) - ε * (L + l) - 2e-16 * (L + l) := by ring
  have e4 : (1 + (ε + 2e-16)) * (U + u) = (U + u) + ε * (U + u) + 2e-16 * (U + u) := by ring
  rw [e1] at a1
  rw [e2] at a2
  rw [e3, e4]
  have hS : 0 ≤ L + l := by linarith
  have hV : 0 ≤ U + u := by linarith
  generalize ε * (L + l) = x at *
  generalize ε * (U + u) = y at *
  generalize L + l = S at *
  generalize U + u = V at *
  have n1 : k * 1e-199 ≤ 1e6 * 1e-199 := mul_le_mul_of_nonneg_right hk (by norm_num)
  have n0 : 0 ≤ k * 1e-199 := mul_nonneg hk0 (by norm_num)
  have e5 : (k + 1) * 1e-199 = k * 1e-199 + 1e-199 := by ring
  rw [e5]
  generalize k * 1e-199 = κ at *
  have c1 : (1e-250:ℝ) + 1e-200 + 1.2e-16 * (1e6 * 1e-199 + 1e-200) ≤ 1e-199 := by norm_num
  constructor
  · have m1 : (1 - 1.2e-16) * (S - x - κ - 1e-200) ≤ (1 - 1.2e-16) * (g + t) := mul_le_mul_of_nonneg_left a1 (by norm_num)
    nlinarith
  · have m2 : (1 + 1.2e-16) * (g + t) ≤ (1 + 1.2e-16) * (V + y + κ + 1e-200) := mul_le_mul_of_nonneg_left a2 (by norm_num)
    nlinarith

/-- A nucleon whose constituents, if they exist, have non-negative weights and are not more than a million. -/
def WeightsBoundFl (n : NucleonData (Fl M)) : Prop := WeightsFl n ∧ (n.constituentsExist = true → n.constituents.length ≤ 1000000)

theorem depositAll_near (w v : Fl M) (hv : 1e-10 ≤ v.val) (hv2 : v.val ≤ 1e6) (m : ℕ) (hm : 1 ≤ m) (hm2 : m ≤ 1000000) (σ : Fl M) (nc : Bool) (k : Fl M)
    (c : EventCfg (Fl M)) {n : ℕ} (hns : c.nsteps = n) (hn : n ≤ 1000000) (hD : 1e-100 ≤ c.dxy.val) (hX : |c.xymax.val| ≤ n * c.dxy.val)
    (A : List (NucleonData (Fl M))) (hA : ∀ a ∈ A, WeightsBoundFl a) (g g' : Grid (Fl M) n) (j j' : ℕ) (hg : ∀ iy ix, 0 ≤ (g iy ix).val)
    (h : depositAll c (NucleonCommon.make w v m σ nc k) false A (g, j) = .ok (g', j')) (i : ℕ) (hi : i + A.length ≤ 1000000) (iy ix : Fin n) (L U : ℝ)
    (hL : 0 ≤ L) (hU : 0 ≤ U) (h1 : (1 - (2.1e-5 + i * 2e-16)) * L - i * 1e-199 ≤ (g iy ix).val) (h2 : (g iy ix).val ≤ (1 + (2.1e-5 + i * 2e-16)) * U + i * 1e-199) :
    (1 - (2.1e-5 + (i + A.length : ℕ) * 2e-16)) * (L + participantThickness (5 * v.val * (1 - 1e-14)) v.val m A (c.center ix.val).val (c.center iy.val).val)
        - (i + A.length : ℕ) * 1e-199 ≤ (g' iy ix).val ∧
    (g' iy ix).val ≤ (1 + (2.1e-5 + (i + A.length : ℕ) * 2e-16)) *
        (U + participantThickness (5 * v.val * (1 + 1e-14)) v.val m A (c.center ix.val).val (c.center iy.val).val) + (i + A.length : ℕ) * 1e-199 := by
  induction A generalizing g j i L U with
  | nil =>
    simp only [depositAll, Except.ok.injEq, Prod.mk.injEq] at h
    rw [← h.1]
    simpa [participantThickness] using ⟨by linarith, by linarith⟩
  | cons a A ih =>
    have hA' : ∀ a ∈ A, WeightsBoundFl a := fun b hb => hA b (by simp [hb])
    rw [List.length_cons] at hi ⊢
    have hcast : ((i + 1 : ℕ) : ℝ) = i + 1 := by push_cast; ring
    have hir : (i:ℝ) ≤ 1e6 := by
      have : (i:ℝ) ≤ ((1000000:ℕ):ℝ) := by exact_mod_cast (by omega : i ≤ 1000000)
      norm_num at this ⊢; exact this
    have hir0 : (0:ℝ) ≤ i := Nat.cast_nonneg i
    have hle : i + (A.length + 1) = i + 1 + A.length := by omega
    rw [hle]
    unfold depositAll at h
    by_cases hp : a.isParticipant = true
    · simp only [hp, if_true] at h
      cases hd : depositNucleon c (NucleonCommon.make w v m σ nc k) false a g with
      | error e => simp only [hd] at h; cases h
      | ok g1 =>
        simp only [hd] at h
        obtain ⟨⟨w1, w2⟩, w3⟩ := hA a (by simp)
        have hex := w1 hp
        have hf := w2 hex
        have hff : ∀ q ∈ a.constituents.map Constituent.exact, 0 ≤ q.fluctuation := by
          intro q hq; obtain ⟨q', hq', rfl⟩ := List.mem_map.1 hq; exact hf q' hq'
        have hg1 : ∀ iy ix, 0 ≤ (g1 iy ix).val := by
          intro iy ix
          rcases depositNucleon_fl w v hv m σ nc k c hns hn hD hX a hf g g1 hd iy ix with ⟨t, ht, he⟩ | ⟨he, -⟩
          · obtain ⟨t', ht', h0⟩ := thickness_fl_ok w v hv m σ nc k a hf (c.center ix.val) (c.center iy.val)
            rw [ht] at ht'; cases ht'
            rw [he]; exact M.fl_nonneg (add_nonneg (hg iy ix) h0)
          · rw [he]; exact hg iy ix
        have hl0 := cutThickness_nonneg (5 * v.val * (1 - 1e-14)) v.val m _ hff (c.center ix.val).val (c.center iy.val).val
        have hu0 := cutThickness_nonneg (5 * v.val * (1 + 1e-14)) v.val m _ hff (c.center ix.val).val (c.center iy.val).val
        have hlo : participantThickness (5 * v.val * (1 - 1e-14)) v.val m (a :: A) (c.center ix.val).val (c.center iy.val).val =
          cutThickness (5 * v.val * (1 - 1e-14)) v.val m (a.constituents.map Constituent.exact) (c.center ix.val).val (c.center iy.val).val +
            participantThickness (5 * v.val * (1 - 1e-14)) v.val m A (c.center ix.val).val (c.center iy.val).val := by
          unfold participantThickness; rw [List.filter_cons_of_pos (by simpa using hp), List.map_cons, List.sum_cons]
        have hhi : participantThickness (5 * v.val * (1 + 1e-14)) v.val m (a :: A) (c.center ix.val).val (c.center iy.val).val =
          cutThickness (5 * v.val * (1 + 1e-14)) v.val m (a.constituents.map Constituent.exact) (c.center ix.val).val (c.center iy.val).val +
            participantThickness (5 * v.val * (1 + 1e-14)) v.val m A (c.center ix.val).val (c.center iy.val).val := by
          unfold participantThickness; rw [List.filter_cons_of_pos (by simpa using hp), List.map_cons, List.sum_cons]
        rw [hlo, hhi, ← add_assoc L, ← add_assoc U]
        have step : (1 - (2.1e-5 + (i + 1 : ℕ) * 2e-16)) * (L + cutThickness (5 * v.val * (1 - 1e-14)) v.val m (a.constituents.map Constituent.exact) (c.center ix.val).val (c.center iy.val).val)
            - (i + 1 : ℕ) * 1e-199 ≤ (g1 iy ix).val ∧
          (g1 iy ix).val ≤ (1 + (2.1e-5 + (i + 1 : ℕ) * 2e-16)) * (U + cutThickness (5 * v.val * (1 + 1e-14)) v.val m (a.constituents.map Constituent.exact) (c.center ix.val).val (c.center iy.val).val)
            + (i + 1 : ℕ) * 1e-199 := by
          rw [hcast]
          rcases depositNucleon_fl w v hv m σ nc k c hns hn hD hX a hf g g1 hd iy ix with ⟨t, ht, he⟩ | ⟨he, ho⟩
          · obtain ⟨t', ht', h0, h3, h4⟩ := C76_thickness w v hv hv2 m hm hm2 σ nc k a (w3 hex) hf (c.center ix.val) (c.center iy.val)
            rw [ht] at ht'; cases ht'
            obtain ⟨s1, s2⟩ := grid_step (T := (g1 iy ix).val) (by rw [he]; exact M.fl_err' _) (hg iy ix) h0 (by linarith) (by linarith) hL hU hl0 hu0 hir0 hir h1 h2 h3 h4
            exact ⟨by linarith, by linarith⟩
          · rw [he, cutThickness_outside (5 * v.val * (1 - 1e-14)) v.val m _ _ _ (by
              intro q hq; obtain ⟨q', hq', rfl⟩ := List.mem_map.1 hq; exact ho q' hq')]
            have a1 : 0 ≤ 2e-16 * L := by positivity
            have a2 : 0 ≤ 2e-16 * U := by positivity
            have a3 : (0:ℝ) < 1e-199 := by norm_num
            have a4 : 0 ≤ (1 + (2.1e-5 + ((i:ℝ) + 1) * 2e-16)) *
              cutThickness (5 * v.val * (1 + 1e-14)) v.val m (a.constituents.map Constituent.exact) (c.center ix.val).val (c.center iy.val).val :=
              mul_nonneg (by positivity) hu0
            constructor
            · linarith
            · linarith
        exact ih hA' g1 _ hg1 h (i+1) (by omega) _ _ (by linarith) (by linarith) step.1 step.2
    · simp only [hp, Bool.false_eq_true, if_false] at h
      have hlo : ∀ ρ, participantThickness ρ v.val m (a :: A) (c.center ix.val).val (c.center iy.val).val =
          participantThickness ρ v.val m A (c.center ix.val).val (c.center iy.val).val := by
        intro ρ; unfold participantThickness; rw [List.filter_cons_of_neg (by simpa using hp)]
      rw [hlo, hlo]
      have a1 : 0 ≤ 2e-16 * L := by positivity
      have a2 : 0 ≤ 2e-16 * U := by positivity
      have a3 : (0:ℝ) < 1e-199 := by norm_num
      exact ih hA' g _ hg h (i+1) (by omega) L U hL hU (by rw [hcast]; linarith) (by rw [hcast]; linarith)

/-! ## Cell centres -/

theorem half_size_fl {dxy : Fl M} {n : ℕ} (hn : n ≤ 1000000) : (lit 0.5 * ofInt (n:ℤ) * dxy : Fl M).val = M.fl ((n:ℝ) / 2 * dxy.val) := by
  have hhalf : (lit 0.5 * ofInt (n:ℤ) : Fl M).val = (n:ℝ) / 2 := by
    rw [Fl.mul_val, M.lit_half, M.ofInt_exact _ (by rw [Nat.abs_cast]; omega)]
    rw [M.exact_dyadic n 1 _ (by push_cast; ring) (by rw [Nat.abs_cast]; omega) (by norm_num)]
    push_cast; ring
  rw [Fl.mul_val, hhalf]

theorem make_xymax {norm dxy gm p : Fl M} {ec : EventCfg (Fl M)} {n : ℕ} (hn : n ≤ 1000000) (hns : ec.nsteps = n)
    (h : EventCfg.make norm dxy gm p = .ok ec) : ec.xymax.val = M.fl ((n:ℝ) / 2 * dxy.val) := by
  unfold EventCfg.make at h
  split at h
  · cases h
  · split at h
    · cases h
    · cases h
      dsimp only at hns ⊢
      rw [hns]
      exact half_size_fl hn

theorem centre_numeric {n i : ℕ} {D X a c : ℝ} (hn : 1 ≤ n) (hi : i < n) (hD : 1e-100 ≤ D) (hX : |X - n / 2 * D| ≤ 1.2e-16 * |(n:ℝ) / 2 * D| + 1e-250)
    (ha : |a - (i + 1/2) * D| ≤ 1.2e-16 * |((i:ℝ) + 1/2) * D| + 1e-250) (hc : |c - (a - X)| ≤ 1.2e-16 * |a - X| + 1e-250) :
    |c - ((i + 1/2) - n / 2) * D| ≤ 5e-16 * n * D ∧ |X| ≤ n * D := by
  have hn1 : (1:ℝ) ≤ n := by exact_mod_cast hn
  have hi1 : (i:ℝ) + 1 ≤ n := by exact_mod_cast hi
  have hi0 : (0:ℝ) ≤ i := Nat.cast_nonneg i
  have hD0 : 0 < D := by linarith
  have p1 : 0 ≤ (n:ℝ) / 2 * D := by positivity
  have p2 : 0 ≤ ((i:ℝ) + 1/2) * D := by positivity
  rw [abs_of_nonneg p1] at hX
  rw [abs_of_nonneg p2] at ha
  have hs : D ≤ n * D := by nlinarith
  have e1 : (n:ℝ) / 2 * D = n * D / 2 := by ring
  have e2 : ((i:ℝ) + 1/2) * D ≤ n * D := by nlinarith
  have e3 : (((i:ℝ) + 1/2) - n / 2) * D = ((i:ℝ) + 1/2) * D - n * D / 2 := by ring
  rw [e1] at hX
  rw [e3]
  have e4 : 5e-16 * (n:ℝ) * D = 5e-16 * (n * D) := by ring
  rw [e4]
  have d0 : D / 2 ≤ ((i:ℝ) + 1/2) * D := by nlinarith
  have e5 : ((i:ℝ) + 1/2) * D ≤ n * D - D / 2 := by nlinarith
  generalize ((i:ℝ) + 1/2) * D = q at *
  generalize (n:ℝ) * D = N at *
  have hX := abs_le.1 hX
  have ha := abs_le.1 ha
  have haX : |a - X| ≤ N := by
    rw [abs_le]; constructor <;> linarith
  have hc' : |c - (a - X)| ≤ 1.2e-16 * N + 1e-250 := by linarith
  have hc' := abs_le.1 hc'
  constructor
  · rw [abs_le]; constructor <;> linarith
  · rw [abs_le]; constructor <;> linarith

/-- Computed cell centres are the documented ones up to a few units in the last place of the grid size. -/
theorem center_near {norm dxy gm p : Fl M} {ec : EventCfg (Fl M)} {n : ℕ} (hn : n ≤ 1000000) (hns : ec.nsteps = n)
    (h : EventCfg.make norm dxy gm p = .ok ec) (hD : 1e-100 ≤ dxy.val) {i : ℕ} (hi : i < n) :
    |(ec.center (i:ℤ)).val - ((i + 1/2) - n / 2) * dxy.val| ≤ 5e-16 * n * dxy.val ∧ |ec.xymax.val| ≤ n * dxy.val := by
  obtain ⟨-, g2, -⟩ := eventCfg_make_inv h
  have hx := make_xymax hn hns h
  rw [center_fl ec hn hi, g2]
  refine centre_numeric (by omega) hi hD ?_ (M.fl_err' _) (M.fl_err' _)
  rw [hx]; exact M.fl_err' _

/-! ## Events -/

/-- A thickness grid agrees with the sum of the participants' thicknesses: at every cell centre — the documented one up to `5e-16` of the grid size —
the value lies, up to a relative 2.2e-5, between the exact sums for the cut-off radii `5 v (1 ∓ 1e-14)`. -/
def Spec.AccurateThickness (dxy v : ℝ) (m : ℕ) {n : ℕ} (A : List (NucleonData (Fl M))) (g : Grid (Fl M) n) : Prop :=
  ∃ centre : Fin n → ℝ, (∀ i : Fin n, |centre i - (((i.val : ℝ) + 1/2) - n / 2) * dxy| ≤ 5e-16 * n * dxy) ∧
    ∀ iy ix : Fin n,
      (1 - 2.2e-5) * participantThickness (5 * v * (1 - 1e-14)) v m A (centre ix) (centre iy) - 1e-190 ≤ (g iy ix).val ∧
      (g iy ix).val ≤ (1 + 2.2e-5) * participantThickness (5 * v * (1 + 1e-14)) v m A (centre ix) (centre iy) + 1e-190

theorem participantThickness_nonneg (ρ v : ℝ) (m : ℕ) (A : List (NucleonData (Fl M))) (hA : ∀ a ∈ A, WeightsBoundFl a) (x y : ℝ) :
    0 ≤ participantThickness ρ v m A x y := by
  unfold participantThickness
  apply List.sum_nonneg
  intro t ht
  obtain ⟨a, ha, rfl⟩ := List.mem_map.1 ht
  obtain ⟨ha, hp⟩ := List.mem_filter.1 ha
  have w := (hA a ha).1
  apply cutThickness_nonneg
  intro q hq
  obtain ⟨q', hq', rfl⟩ := List.mem_map.1 hq
  exact w.2 (w.1 hp) q' hq'

theorem deposit_accurate (w v : Fl M) (hv : 1e-10 ≤ v.val) (hv2 : v.val ≤ 1e6) (m : ℕ) (hm : 1 ≤ m) (hm2 : m ≤ 1000000) (σ : Fl M) (nc : Bool) (k : Fl M)
    {norm dxy gm p : Fl M} {ec : EventCfg (Fl M)} {n : ℕ} (hn : n ≤ 1000000) (hns : ec.nsteps = n) (hec : EventCfg.make norm dxy gm p = .ok ec)
    (hD : 1e-100 ≤ dxy.val) (A : List (NucleonData (Fl M))) (hA : ∀ a ∈ A, WeightsBoundFl a) (hlen : A.length ≤ 1000000) (g : Grid (Fl M) n) (j j' : ℕ)
    (h : depositAll ec (NucleonCommon.make w v m σ nc k) false A (fun _ _ => lit 0, j) = .ok (g, j')) :
    AccurateThickness dxy.val v.val m A g := by
  obtain ⟨-, g2, -⟩ := eventCfg_make_inv hec
  refine ⟨fun i => (ec.center i.val).val, fun i => (center_near hn hns hec hD i.isLt).1, ?_⟩
  intro iy ix
  have hX := (center_near hn hns hec hD iy.isLt).2
  obtain ⟨h1, h2⟩ := depositAll_near w v hv hv2 m hm hm2 σ nc k ec hns hn (by rw [g2]; exact hD) (by rw [g2]; exact hX) A hA _ g j j'
    (fun _ _ => by rw [M.lit_zero]) h 0 (by omega) iy ix 0 0 le_rfl le_rfl (by rw [M.lit_zero]; norm_num) (by rw [M.lit_zero]; norm_num)
  rw [zero_add, zero_add] at h1 h2
  have hl : ((A.length : ℕ):ℝ) ≤ 1e6 := by
    have : (A.length:ℝ) ≤ ((1000000:ℕ):ℝ) := by exact_mod_cast hlen
    norm_num at this ⊢; exact this
  have p1 := participantThickness_nonneg (5 * v.val * (1 - 1e-14)) v.val m A hA (ec.center ix.val).val (ec.center iy.val).val
  have p2 := participantThickness_nonneg (5 * v.val * (1 + 1e-14)) v.val m A hA (ec.center ix.val).val (ec.center iy.val).val
  generalize participantThickness (5 * v.val * (1 - 1e-14)) v.val m A (ec.center ix.val).val (ec.center iy.val).val = L at *
  generalize participantThickness (5 * v.val * (1 + 1e-14)) v.val m A (ec.center ix.val).val (ec.center iy.val).val = U at *
  generalize (A.length:ℝ) = K at *
  have q1 : (2.1e-5 + K * 2e-16) * L ≤ 2.2e-5 * L := mul_le_mul_of_nonneg_right (by linarith) p1
  have q2 : (2.1e-5 + K * 2e-16) * U ≤ 2.2e-5 * U := mul_le_mul_of_nonneg_right (by linarith) p2
  have q3 : K * (1e-199:ℝ) ≤ 1e-190 := by
    have : K * (1e-199:ℝ) ≤ 1e6 * 1e-199 := mul_le_mul_of_nonneg_right hl (by norm_num)
    refine this.trans (by norm_num)
  constructor
  · linarith
  · linarith

theorem weightsBound_invariant {E D : Type} [Rng (Fl M) E D] [LawfulRngFl M E D] (nc : NucleonCommon (Fl M)) (hm : nc.constituentNumber ≤ 1000000) :
    NucleonInvariant E D nc (fun n => WeightsBoundFl (M := M) n ∧ (n.constituentsExist = true → n.constituents.length = nc.constituentNumber)) where
  sampled n w hn := by
    have hw := (weights_invariant (E := E) (D := D) nc).sampled n w hn.1.1
    have hlen : (nc.sampleConstituents n w).1.constituentsExist = true → (nc.sampleConstituents n w).1.constituents.length = nc.constituentNumber := by
      unfold NucleonCommon.sampleConstituents
      split
      · exact hn.2
      · intro _
        have hl : ∀ (k : ℕ) (x y : Fl M) (w : Rand E D), (drawConstituents nc k x y w).1.1.length = k := by
          intro k
          induction k with
          | zero => intros; rfl
          | succ k ih =>
            intro x y w
            unfold drawConstituents
            simp only [List.length_cons, ih]
        simp only [List.length_map, hl]
    exact ⟨⟨hw, fun h => by rw [hlen h]; exact hm⟩, hlen⟩
  participant n he hn := ⟨⟨(weights_invariant (E := E) (D := D) nc).participant n he hn.1.1, hn.1.2⟩, hn.2⟩

section run
variable {E D : Type} [Rng (Fl M) E D]

/-- **C80.** In rounded arithmetic (release build; constituent width between 1e-10 and 1e6 fm, 1 to 10⁶ constituents per nucleon, at most 10⁶ nucleons per nucleus,
at most 10⁶ cells per side): the thickness grids of every record are, to a relative 2.2e-5, the sums of the participants' thicknesses at the cell
centres, for the nucleons of the collision that the record reports — nothing is lost at the edges of the index rectangles that are computed in
rounded arithmetic, and the error does not grow with the number of nucleons. -/
theorem C80_thickness_grids [LawfulRngFl M E D] (o : Options (Fl M)) (sigma : Fl M) (hA : NucleusHistory E D o.projectileA)
    (hB : NucleusHistory E D o.projectileB) (lA : o.projectileA.nucleons.length ≤ 1000000) (lB : o.projectileB.nucleons.length ≤ 1000000)
    (hv : 1e-10 ≤ o.constitWidth.val) (hv2 : o.constitWidth.val ≤ 1e6) (hm : 1 ≤ o.constitNumber) (hm2 : o.constitNumber ≤ 1000000)
    (hD : 1e-100 ≤ o.gridStep.val)
    (rfuel fuel : Nat) (ev0 : (n : Nat) → Event (Fl M) n) (w : Rand E D) (n : ℕ) (hn : n ≤ 1000000) (rs : List (EventRecord (Fl M) n))
    (h : runAll rfuel fuel o sigma false ev0 w = .ok ⟨n, rs⟩) :
    ∀ rec ∈ rs, ∃ A B : Nucleus (Fl M), CollisionOf E D (Collider.make o sigma) rec.b rec.ncoll A B ∧
      (∀ a ∈ A.nucleons ++ B.nucleons, a.isParticipant = true → a.constituents.length = o.constitNumber) ∧
      rec.event.npart = A.nucleons.countP (·.isParticipant) + B.nucleons.countP (·.isParticipant) ∧
      AccurateThickness o.gridStep.val o.constitWidth.val o.constitNumber A.nucleons rec.event.TA ∧
      AccurateThickness o.gridStep.val o.constitWidth.val o.constitNumber B.nucleons rec.event.TB := by
  obtain ⟨ec, hec, hns, key⟩ := runAll_records_inv o sigma false (weightsBound_invariant (E := E) (D := D) (Collider.make o sigma).nc hm2)
    (by intro n h1 h2; exact ⟨⟨⟨fun h => absurd h (by rw [h1]; simp), fun h => absurd h (by rw [h2]; simp)⟩, fun h => absurd h (by rw [h2]; simp)⟩,
          fun h => absurd h (by rw [h2]; simp)⟩) hA hB rfuel fuel ev0 w n rs h
  intro rec hrec
  obtain ⟨A, B, hcol, nA, nB, pA, pB, hcomp⟩ := key rec hrec
  obtain ⟨TA, TB, npA, npB, dA, dB, hev⟩ := compute_ok (hcomp (ev0 n))
  refine ⟨A, B, hcol, ?_, ?_, ?_, ?_⟩
  · intro a ha hp
    rcases List.mem_append.1 ha with ha | ha
    · exact (pA a ha).2 ((pA a ha).1.1.1 hp)
    · exact (pB a ha).2 ((pB a ha).1.1.1 hp)
  · have e1 := depositAll_npart dA
    have e2 := depositAll_npart dB
    rw [hev]
    show npB = _
    omega
  · rw [hev]
    exact deposit_accurate _ _ hv hv2 _ hm hm2 _ _ _ hn hns hec hD _ (fun a ha => (pA a ha).1) (nA ▸ lA) _ _ _ dA
  · rw [hev]
    exact deposit_accurate _ _ hv hv2 _ hm hm2 _ _ _ hn hns hec hD _ (fun a ha => (pB a ha).1) (nB ▸ lB) _ _ _ dB

/-- The run of `example_run_fl` (two head-on proton–proton events) satisfies the hypotheses of C80, on every machine: both records have accurate grids. -/
theorem example_grid_fl (ev0 : (n : Nat) → Event (Fl M) n) : ∃ n r1 r2, n ≤ 1000 ∧
    runAll 0 1 (exampleOptionsFl M) ⟨100⟩ false ev0 halfTape = .ok ⟨n, [r1, r2]⟩ ∧
    ∃ A B : Nucleus (Fl M), CollisionOf Tape Unit (Collider.make (exampleOptionsFl M) ⟨100⟩) r2.b r2.ncoll A B ∧
      AccurateThickness (exampleOptionsFl M).gridStep.val 1 1 A.nucleons r2.event.TA ∧ (∃ a ∈ A.nucleons, a.isParticipant = true) := by
  obtain ⟨n, r1, r2, h⟩ := example_run_fl (M := M) ev0
  have hh : NucleusHistory Tape Unit (mkProton : Nucleus (Fl M)) := .create false (fun _ => .missing) "p" (lit 0) _ rfl
  have l10 : (lit 10 : Fl M).val = 10 := by rw [M.lit_exact 10 10 0 (by norm_num) (by norm_num) (by norm_num)]; norm_num
  have l2 : (1/8:ℝ) ≤ (lit 0.2 : Fl M).val := by
    rw [Fl.lit_val]
    have e1 : M.fl (1/8) = 1/8 := M.exact_dyadic 1 3 _ (by norm_num) (by norm_num) (by norm_num)
    rw [← e1]; exact M.fl_mono _ _ (by norm_num)
  have hn : n ≤ 1000 := by
    obtain ⟨ec, hec, hns, -⟩ := runAll_records_inv (exampleOptionsFl M) ⟨100⟩ false (P := fun _ => True) (E := Tape) (D := Unit)
      ⟨fun _ _ _ => trivial, fun _ _ _ => trivial⟩ (fun _ _ _ => trivial) hh hh 0 1 ev0 halfTape n _ h
    unfold EventCfg.make at hec
    split at hec
    · cases hec
    · rename_i ns hcast
      split at hec
      · cases hec
      · cases hec
        dsimp only at hns
        subst hns
        have hk := castInt_fl_inv hcast
        have hval : (ceil (lit 2 * (exampleOptionsFl M).gridMax / (exampleOptionsFl M).gridStep : Fl M)).val ≤ 160 := by
          have e : (lit 2 * (exampleOptionsFl M).gridMax : Fl M).val = 20 := by
            show M.fl ((lit 2 : Fl M).val * (lit 10 : Fl M).val) = 20
            rw [M.lit_two, l10]
            have := M.exact_int 20 (by norm_num)
            push_cast at this
            rw [show (2:ℝ) * 10 = 20 by norm_num, this]
          rw [Fl.ceil_val, Fl.div_val, e]
          have hq : (20:ℝ) / (exampleOptionsFl M).gridStep.val ≤ ((160:ℤ):ℝ) := by
            show (20:ℝ) / (lit 0.2 : Fl M).val ≤ _
            rw [div_le_iff₀ (by linarith)]; push_cast; linarith
          have := Int.ceil_le.2 (M.fl_le_int (by norm_num) hq)
          exact_mod_cast this
        generalize (ceil (lit 2 * (exampleOptionsFl M).gridMax / (exampleOptionsFl M).gridStep : Fl M)).val = z at *
        have : (n:ℤ) ≤ 160 := by
          rw [hk]
          split
          · have := Int.floor_le z
            have : ((⌊z⌋:ℤ):ℝ) ≤ ((160:ℤ):ℝ) := by push_cast; linarith
            exact_mod_cast this
          · exact Int.ceil_le.2 (by push_cast; exact hval)
        omega
  obtain ⟨A, B, h1, h2, h3, h4, h5⟩ := C80_thickness_grids (E := Tape) (D := Unit) (exampleOptionsFl M) ⟨100⟩ hh hh (by show 1 ≤ 1000000; norm_num) (by show 1 ≤ 1000000; norm_num)
    (by show 1e-10 ≤ (lit 1 : Fl M).val; rw [M.lit_one]; norm_num) (by show (lit 1 : Fl M).val ≤ 1e6; rw [M.lit_one]; norm_num)
    (Nat.le_refl 1) (by show 1 ≤ 1000000; norm_num) (by show 1e-100 ≤ (lit 0.2 : Fl M).val; linarith) 0 1 ev0 halfTape n (by omega) _ h r2 (by simp)
  refine ⟨n, r1, r2, hn, h, A, B, h1, ?_, h1.participants.1⟩
  have e : (exampleOptionsFl M).constitWidth.val = 1 := M.lit_one
  rw [e] at h4
  exact h4

end run
end Trento
