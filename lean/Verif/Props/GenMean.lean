import Verif.Lemmas.GenMean
import Verif.Props.Thickness

/-!
# C25, C26: the reduced thickness is the generalized mean

`Spec.powerMean p a b` is the documented generalized mean.  trento replaces it by the geometric mean for `|p| < 1e-12`
and by zero where `p < 0` and one thickness is below `1e-12`; `Spec.trentoMean` spells this out.
-/

namespace Trento.Spec
/-- The generalized mean with trento's two thresholds. -/
noncomputable def trentoMean (p a b : ℝ) : ℝ :=
  if |p| < 1e-12 then powerMean 0 a b
  else if p < 0 ∧ (a < 1e-12 ∨ b < 1e-12) then 0
  else powerMean p a b
end Trento.Spec

namespace Trento
open Spec Filter Topology

theorem powerMean_zero (a b : ℝ) : powerMean 0 a b = Real.sqrt (a * b) := if_pos rfl
theorem powerMean_pos {p : ℝ} (hp : 0 < p) (a b : ℝ) : powerMean p a b = pm p a b := by
  unfold powerMean; rw [if_neg hp.ne', if_neg (by intro h; linarith [h.1])]; rfl
theorem powerMean_neg {p a b : ℝ} (hp : p < 0) (ha : a ≠ 0) (hb : b ≠ 0) : powerMean p a b = pm p a b := by
  unfold powerMean; rw [if_neg hp.ne, if_neg (by simp [ha, hb])]; rfl

theorem genMean_real (p a b : ℝ) : genMean p a b = trentoMean p a b := by
  unfold genMean trentoMean
  have hz : (lit 0 : ℝ) = 0 := by simp
  simp only [lt_real, TINY_real, fabs_real, decide_eq_true_eq, hz]
  by_cases h1 : |p| < 1e-12
  · simp only [if_pos h1]; rw [powerMean_zero]; rfl
  · simp only [if_neg h1]
    by_cases h2 : 0 < p
    · simp only [if_pos h2]
      rw [positivePmean_real, if_neg (by intro h; linarith [h.1]), powerMean_pos h2]
    · simp only [if_neg h2]
      have h3 : p < 0 := by
        rcases lt_trichotomy p 0 with h | h | h
        · exact h
        · exfalso; apply h1; rw [h]; norm_num
        · exact absurd h h2
      unfold negativePmean
      simp only [lt_real, TINY_real, Bool.or_eq_true, decide_eq_true_eq, hz]
      by_cases h4 : a < 1e-12 ∨ b < 1e-12
      · rw [if_pos h4, if_pos ⟨h3, h4⟩]
      · rw [if_neg h4, if_neg (fun h => h4 h.2), positivePmean_real]
        push Not at h4
        rw [powerMean_neg h3 (by intro h; rw [h] at h4; norm_num at h4) (by intro h; rw [h] at h4; norm_num at h4)]

/-- **C25.** After a successful `compute`, every cell of the reduced thickness grid is `norm` times the generalized mean of
the two thicknesses in that cell. -/
theorem C25_reduced_thickness (c : EventCfg ℝ) (nc : NucleonCommon ℝ) (debug : Bool) (n : ℕ) (A B : List (NucleonData ℝ))
    (ev ev' : Event ℝ n) (h : Event.compute c nc debug ev A B = .ok ev') (iy ix : Fin n) :
    ev'.TR iy ix = c.norm * trentoMean c.p (ev'.TA iy ix) (ev'.TB iy ix) := by
  obtain ⟨TA, TB, npA, npB, _, _, rfl⟩ := compute_ok h
  rw [← genMean_real]
  exact computeReducedThickness_TR c _ iy ix

/-- **C25.** Away from the thresholds the mean is the documented one, and at `p = 0` it is the geometric mean. -/
theorem C25_trentoMean_eq (p a b : ℝ) (h : (1e-12 ≤ |p| ∧ (0 < p ∨ (1e-12 ≤ a ∧ 1e-12 ≤ b) ∨ a = 0 ∨ b = 0)) ∨ p = 0) :
    trentoMean p a b = powerMean p a b := by
  unfold trentoMean
  rcases h with ⟨h1, h2⟩ | rfl
  · rw [if_neg (not_lt.mpr h1)]
    split
    · rename_i h3
      rcases h2 with h | ⟨h4, h5⟩ | h
      · linarith [h3.1]
      · rcases h3.2 with h | h <;> linarith
      · unfold powerMean; rw [if_neg h3.1.ne, if_pos ⟨h3.1, h⟩]
    · rfl
  · simp

/-- **C25.** Equal thicknesses: the mean is the common value (for negative `p`, when it is at least `1e-12`). -/
theorem C25_equal (p a : ℝ) (ha : 0 ≤ a) (h : 0 ≤ p ∨ 1e-12 ≤ a) : trentoMean p a a = a := by
  unfold trentoMean
  split
  · rw [powerMean_zero, ← pow_two, Real.sqrt_sq ha]
  · rename_i h1
    have hp : p ≠ 0 := by rintro rfl; apply h1; norm_num
    split
    · rename_i h2
      rcases h with h | h
      · linarith [h2.1]
      · rcases h2.2 with h' | h' <;> linarith
    · rename_i h2
      rcases lt_or_gt_of_ne hp with hneg | hpos
      · have ha0 : a ≠ 0 := by rintro rfl; apply h2; exact ⟨hneg, .inl (by norm_num)⟩
        rw [powerMean_neg hneg ha0 ha0, pm_same ha hp]
      · rw [powerMean_pos hpos, pm_same ha hp]

/-- **C25.** The mean lies between the smaller and the larger thickness (below the smaller one by at most the
threshold `1e-12`, and by nothing unless `p < 0` and a thickness is below `1e-12`). -/
theorem C25_between (p a b : ℝ) (ha : 0 ≤ a) (hb : 0 ≤ b) :
    0 ≤ trentoMean p a b ∧ trentoMean p a b ≤ max a b ∧ min a b - 1e-12 ≤ trentoMean p a b ∧
    (0 ≤ p ∨ (1e-12 ≤ a ∧ 1e-12 ≤ b) → min a b ≤ trentoMean p a b) := by
  have hm0 : 0 ≤ min a b := le_min ha hb
  have hM0 : 0 ≤ max a b := le_max_of_le_left ha
  unfold trentoMean
  split
  · rw [powerMean_zero]
    have := min_le_geo ha hb
    exact ⟨Real.sqrt_nonneg _, geo_le_max ha hb, by linarith, fun _ => this⟩
  · rename_i h1
    have hp : p ≠ 0 := by rintro rfl; apply h1; norm_num
    split
    · rename_i h2
      refine ⟨le_rfl, hM0, ?_, ?_⟩
      · rcases h2.2 with h | h
        · have := min_le_left a b; linarith
        · have := min_le_right a b; linarith
      · rintro (h | h)
        · linarith [h2.1]
        · rcases h2.2 with h' | h' <;> linarith [h.1, h.2]
    · rename_i h2
      rcases lt_or_gt_of_ne hp with hneg | hpos
      · have h3 : 1e-12 ≤ a ∧ 1e-12 ≤ b := by
          constructor
          · by_contra h; exact h2 ⟨hneg, .inl (not_le.mp h)⟩
          · by_contra h; exact h2 ⟨hneg, .inr (not_le.mp h)⟩
        have ha' : 0 < a := lt_of_lt_of_le (by norm_num) h3.1
        have hb' : 0 < b := lt_of_lt_of_le (by norm_num) h3.2
        rw [powerMean_neg hneg ha'.ne' hb'.ne']
        have := min_le_pm_neg ha' hb' hneg
        exact ⟨pm_nonneg ha hb, (pm_neg_le_geo ha' hb' hneg).trans (geo_le_max ha hb), by linarith, fun _ => this⟩
      · rw [powerMean_pos hpos]
        have := (min_le_geo ha hb).trans (geo_le_pm ha hb hpos)
        exact ⟨pm_nonneg ha hb, pm_le_max ha hb hpos, by linarith, fun _ => this⟩

/-- **C25.** For `p ≤ 0` the mean vanishes wherever one thickness vanishes. -/
theorem C25_vanishes (p a b : ℝ) (hp : p ≤ 0) (h : a = 0 ∨ b = 0) : trentoMean p a b = 0 := by
  unfold trentoMean
  split
  · rw [powerMean_zero]; rcases h with rfl | rfl <;> simp
  · rename_i h1
    have hp' : p < 0 := lt_of_le_of_ne hp (by rintro rfl; apply h1; norm_num)
    rw [if_pos ⟨hp', by rcases h with rfl | rfl <;> [left; right] <;> norm_num⟩]

/-- Non-vacuity: the mean of thicknesses 1 and 4 for p = 1 is 2.5 and for p = 0 is 2. -/
example : trentoMean 1 1 4 = 2.5 ∧ trentoMean 0 1 4 = 2 := by
  constructor
  · rw [C25_trentoMean_eq 1 1 4 (.inl ⟨by norm_num, .inl one_pos⟩), powerMean_pos one_pos]
    unfold pm; norm_num
  · rw [C25_trentoMean_eq 0 1 4 (.inr rfl), powerMean_zero]
    rw [show (1:ℝ) * 4 = 2^2 by norm_num, Real.sqrt_sq (by norm_num)]

/-! ## C26 -/

/-- **C26.** For fixed thicknesses the generalized mean is non-decreasing in `p`, over the whole line and across both
thresholds. -/
theorem C26_monotone (p q a b : ℝ) (ha : 0 ≤ a) (hb : 0 ≤ b) (hpq : p ≤ q) : trentoMean p a b ≤ trentoMean q a b := by
  -- values: geometric region, negative region, positive region
  have hgeo_pos : ∀ q, 1e-12 ≤ q → trentoMean q a b = pm q a b := by
    intro q hq
    have hq0 : 0 < q := lt_of_lt_of_le (by norm_num) hq
    rw [C25_trentoMean_eq q a b (.inl ⟨by rw [abs_of_pos hq0]; exact hq, .inl hq0⟩), powerMean_pos hq0]
  have hgeo : ∀ q, |q| < 1e-12 → trentoMean q a b = Real.sqrt (a*b) := by
    intro q hq; unfold trentoMean; rw [if_pos hq, powerMean_zero]
  have hneg : ∀ q, q ≤ -1e-12 → trentoMean q a b = 0 ∨
      ((0 < a ∧ 0 < b) ∧ ∀ r, r ≤ -1e-12 → trentoMean r a b = pm r a b) := by
    intro q hq
    have hn : ∀ r : ℝ, r ≤ -1e-12 → r < 0 ∧ ¬ |r| < 1e-12 := by
      intro r hr
      have hr0 : r < 0 := lt_of_le_of_lt hr (by norm_num)
      exact ⟨hr0, by rw [abs_of_neg hr0]; linarith⟩
    by_cases h : a < 1e-12 ∨ b < 1e-12
    · left; unfold trentoMean; rw [if_neg (hn q hq).2, if_pos ⟨(hn q hq).1, h⟩]
    · right
      push Not at h
      have ha' : 0 < a := lt_of_lt_of_le (by norm_num) h.1
      have hb' : 0 < b := lt_of_lt_of_le (by norm_num) h.2
      refine ⟨⟨ha', hb'⟩, fun r hr => ?_⟩
      unfold trentoMean
      rw [if_neg (hn r hr).2, if_neg (by intro h'; rcases h'.2 with h'' | h'' <;> linarith [h.1, h.2]),
        powerMean_neg (hn r hr).1 ha'.ne' hb'.ne']
  have hregion : ∀ r : ℝ, r ≤ -1e-12 ∨ |r| < 1e-12 ∨ 1e-12 ≤ r := by
    intro r
    by_cases h : |r| < 1e-12
    · exact .inr (.inl h)
    · rw [abs_lt, not_and_or] at h
      rcases h with h | h
      · left; linarith
      · right; right; linarith
  rcases hregion p with hp | hp | hp <;> rcases hregion q with hq | hq | hq
  · rcases hneg p hp with h | ⟨⟨ha', hb'⟩, h⟩
    · rw [h]; exact (C25_between q a b ha hb).1
    · rw [h p hp, h q hq]; exact pm_mono_neg ha' hb' (lt_of_le_of_lt hq (by norm_num)) hpq
  · rcases hneg p hp with h | ⟨⟨ha', hb'⟩, h⟩
    · rw [h]; exact (C25_between q a b ha hb).1
    · rw [h p hp, hgeo q hq]; exact pm_neg_le_geo ha' hb' (lt_of_le_of_lt hp (by norm_num))
  · rcases hneg p hp with h | ⟨⟨ha', hb'⟩, h⟩
    · rw [h]; exact (C25_between q a b ha hb).1
    · rw [h p hp, hgeo_pos q hq]
      exact (pm_neg_le_geo ha' hb' (lt_of_le_of_lt hp (by norm_num))).trans
        (geo_le_pm ha hb (lt_of_lt_of_le (by norm_num) hq))
  · rw [abs_lt] at hp; linarith [hp.1]
  · rw [hgeo p hp, hgeo q hq]
  · rw [hgeo p hp, hgeo_pos q hq]; exact geo_le_pm ha hb (lt_of_lt_of_le (by norm_num) hq)
  · linarith
  · rw [abs_lt] at hq; linarith [hq.2]
  · rw [hgeo_pos p hp, hgeo_pos q hq]; exact pm_mono_pos ha hb (lt_of_lt_of_le (by norm_num) hp) hpq

theorem depositAll_change_p (c : EventCfg ℝ) (p : ℝ) (nc : NucleonCommon ℝ) (debug : Bool) {n : ℕ}
    (A : List (NucleonData ℝ)) (s : Grid ℝ n × ℕ) :
    depositAll { c with p := p } nc debug A s = depositAll c nc debug A s := by
  induction A generalizing s with
  | nil => rfl
  | cons a A ih =>
    obtain ⟨g, j⟩ := s
    unfold depositAll
    have : depositNucleon { c with p := p } nc debug a g = depositNucleon c nc debug a g := rfl
    rw [this]
    split
    · split
      · rfl
      · exact ih _
    · exact ih _

/-- **C26, whole event.** For the same nucleons and `norm ≥ 0`, increasing the parameter `p` does not decrease any reduced
thickness cell nor the multiplicity. -/
theorem C26_event_monotone (w v : ℝ) (m : ℕ) (σ : ℝ) (ncoll : Bool) (k : ℝ) (hv : 0 < v)
    (c : EventCfg ℝ) (hd : 0 < c.dxy) (hnorm : 0 ≤ c.norm) (q : ℝ) (hpq : c.p ≤ q) (debug : Bool) (n : ℕ)
    (hn : c.nsteps = n) (A B : List (NucleonData ℝ))
    (hA : ∀ a ∈ A, a.isParticipant = true → ∀ q ∈ a.constituents, 0 ≤ q.fluctuation)
    (hB : ∀ b ∈ B, b.isParticipant = true → ∀ q ∈ b.constituents, 0 ≤ q.fluctuation) (ev e1 e2 : Event ℝ n)
    (h1 : Event.compute c (NucleonCommon.make w v m σ ncoll k) debug ev A B = .ok e1)
    (h2 : Event.compute { c with p := q } (NucleonCommon.make w v m σ ncoll k) debug ev A B = .ok e2) :
    (∀ iy ix, e1.TR iy ix ≤ e2.TR iy ix) ∧ e1.multiplicity ≤ e2.multiplicity := by
  have hcell : ∀ iy ix, e1.TR iy ix ≤ e2.TR iy ix := by
    intro iy ix
    rw [C25_reduced_thickness c _ debug n A B ev e1 h1 iy ix,
      C25_reduced_thickness { c with p := q } _ debug n A B ev e2 h2 iy ix]
    obtain ⟨a1, b1⟩ := C21_thickness_is_direct_sum w v m σ ncoll k hv c hd debug n hn A B hA hB ev e1 h1 iy ix
    obtain ⟨a2, b2⟩ := C21_thickness_is_direct_sum w v m σ ncoll k hv { c with p := q } hd debug n hn A B hA hB ev e2 h2 iy ix
    obtain ⟨p1, p2⟩ := C21_thickness_nonneg w v m σ ncoll k hv c hd debug n hn A B hA hB ev e1 h1 iy ix
    have ea : e2.TA iy ix = e1.TA iy ix := by rw [a1, a2]; rfl
    have eb : e2.TB iy ix = e1.TB iy ix := by rw [b1, b2]; rfl
    rw [ea, eb]
    exact mul_le_mul_of_nonneg_left (C26_monotone _ _ _ _ p1 p2 hpq) hnorm
  refine ⟨hcell, ?_⟩
  obtain ⟨TA, TB, npA, npB, _, _, rfl⟩ := compute_ok h1
  obtain ⟨TA2, TB2, npA2, npB2, _, _, rfl⟩ := compute_ok h2
  have m1 := (computeReducedThickness_scalars c { ev with TA := TA, TB := TB, npart := npB }).1
  have m2 := (computeReducedThickness_scalars { c with p := q } { ev with TA := TA2, TB := TB2, npart := npB2 }).1
  show (computeReducedThickness _ _).multiplicity ≤ (computeReducedThickness _ _).multiplicity
  rw [m1, m2]
  apply mul_le_mul_of_nonneg_left _ (by positivity)
  exact Finset.sum_le_sum fun iy _ => Finset.sum_le_sum fun ix _ => hcell iy ix

/-- **C26, continuity.** For all thicknesses, including zero, the documented mean is continuous at `p = 0`: as `p` tends to
zero from either side it tends to the geometric mean used at `p = 0`. -/
theorem C26_continuous_at_zero (a b : ℝ) (ha : 0 ≤ a) (hb : 0 ≤ b) : ContinuousAt (fun p => powerMean p a b) 0 := by
  unfold ContinuousAt
  show Tendsto (fun p => powerMean p a b) (𝓝 0) (𝓝 (powerMean 0 a b))
  by_cases h : a = 0 ∨ b = 0
  · -- one thickness vanishes: everything is small
    have hz : powerMean 0 a b = 0 := by rw [powerMean_zero]; rcases h with rfl | rfl <;> simp
    rw [hz]
    -- M_p ≤ max a b * (1/2)^(1/p) for p > 0
    have hbound : ∀ p : ℝ, 0 < p → powerMean p a b ≤ max a b * Real.exp (-(Real.log 2 / p)) := by
      intro p hp
      rw [powerMean_pos hp]
      have key : ∀ x : ℝ, 0 ≤ x → ((x^p)/2)^(1/p) = x * Real.exp (-(Real.log 2 / p)) := by
        intro x hx
        rw [div_eq_mul_inv, Real.mul_rpow (Real.rpow_nonneg hx _) (by norm_num), ← Real.rpow_mul hx,
          mul_one_div_cancel hp.ne', Real.rpow_one, Real.rpow_def_of_pos (by norm_num), Real.log_inv]
        congr 2; ring
      unfold pm
      rcases h with rfl | rfl
      · rw [Real.zero_rpow hp.ne', zero_add, key b hb]
        exact mul_le_mul_of_nonneg_right (le_max_right _ _) (Real.exp_pos _).le
      · rw [Real.zero_rpow hp.ne', add_zero, key a ha]
        exact mul_le_mul_of_nonneg_right (le_max_left _ _) (Real.exp_pos _).le
    have hlim : Tendsto (fun p : ℝ => max a b * Real.exp (-(Real.log 2 / p))) (𝓝[>] 0) (𝓝 0) := by
      have h1 : Tendsto (fun p : ℝ => Real.log 2 / p) (𝓝[>] 0) atTop := by
        simp only [div_eq_mul_inv]
        exact (tendsto_inv_nhdsGT_zero).const_mul_atTop (Real.log_pos (by norm_num))
      have h2 := Real.tendsto_exp_neg_atTop_nhds_zero.comp h1
      have h3 := h2.const_mul (max a b)
      simpa using h3
    have hpos : Tendsto (fun p => powerMean p a b) (𝓝[>] 0) (𝓝 0) := by
      apply squeeze_zero' _ _ hlim
      · filter_upwards [self_mem_nhdsWithin] with p hp
        rw [powerMean_pos hp]; exact pm_nonneg ha hb
      · filter_upwards [self_mem_nhdsWithin] with p hp using hbound p hp
    have hneg : Tendsto (fun p => powerMean p a b) (𝓝[≤] 0) (𝓝 0) := by
      apply tendsto_const_nhds.congr'
      filter_upwards [self_mem_nhdsWithin] with p hp
      rcases eq_or_lt_of_le (Set.mem_Iic.mp hp) with rfl | hp
      · exact hz.symm
      · unfold powerMean; rw [if_neg hp.ne, if_pos ⟨hp, h⟩]
    have hs := hneg.sup hpos
    rwa [nhdsLE_sup_nhdsGT] at hs
  · push Not at h
    have ha' : 0 < a := lt_of_le_of_ne ha (Ne.symm h.1)
    have hb' : 0 < b := lt_of_le_of_ne hb (Ne.symm h.2)
    rw [powerMean_zero]
    have hG : 0 ≤ Real.sqrt (a*b) := Real.sqrt_nonneg _
    have hup : Tendsto (fun p : ℝ => Real.sqrt (a*b) * Real.exp (|p| * (Real.log a - Real.log b)^2 / 8)) (𝓝 0)
        (𝓝 (Real.sqrt (a*b))) := by
      have : Continuous fun p : ℝ => Real.sqrt (a*b) * Real.exp (|p| * (Real.log a - Real.log b)^2 / 8) := by fun_prop
      have := this.tendsto 0
      simpa using this
    have hlo : Tendsto (fun p : ℝ => Real.sqrt (a*b) * Real.exp (-(|p| * (Real.log a - Real.log b)^2 / 8))) (𝓝 0)
        (𝓝 (Real.sqrt (a*b))) := by
      have : Continuous fun p : ℝ => Real.sqrt (a*b) * Real.exp (-(|p| * (Real.log a - Real.log b)^2 / 8)) := by fun_prop
      have := this.tendsto 0
      simpa using this
    apply tendsto_of_tendsto_of_tendsto_of_le_of_le hlo hup
    · intro p
      have he : Real.exp (-(|p| * (Real.log a - Real.log b)^2 / 8)) ≤ 1 :=
        Real.exp_le_one_iff.mpr (neg_nonpos.mpr (by positivity))
      rcases lt_trichotomy p 0 with hp | rfl | hp
      · have := geo_mul_exp_le_pm ha' hb' hp
        rw [← powerMean_neg hp h.1 h.2] at this
        refine le_trans (le_of_eq ?_) this
        simp only [abs_of_neg hp]; congr 2; ring
      · simp [powerMean_zero]
      · have := geo_le_pm ha hb hp
        rw [← powerMean_pos hp] at this
        exact (mul_le_of_le_one_right hG he).trans this
    · intro p
      have he : 1 ≤ Real.exp (|p| * (Real.log a - Real.log b)^2 / 8) := Real.one_le_exp (by positivity)
      rcases lt_trichotomy p 0 with hp | rfl | hp
      · have := pm_neg_le_geo ha' hb' hp
        rw [← powerMean_neg hp h.1 h.2] at this
        exact this.trans (le_mul_of_one_le_right hG he)
      · simp [powerMean_zero]
      · have := pm_le_geo_mul_exp ha' hb' hp
        rw [← powerMean_pos hp] at this
        refine this.trans (le_of_eq ?_)
        simp only [abs_of_pos hp]

/-- **C26, size of the switch.** Replacing the mean by the geometric mean for `|p| < 1e-12` changes it by at most the
factor `exp(1e-12·ln²(a/b)/8)`. -/
theorem C26_switch_is_small (p a b : ℝ) (ha : 0 < a) (hb : 0 < b) (hp : |p| < 1e-12) :
    trentoMean p a b * Real.exp (-(1e-12 * (Real.log a - Real.log b)^2 / 8)) ≤ powerMean p a b ∧
    powerMean p a b ≤ trentoMean p a b * Real.exp (1e-12 * (Real.log a - Real.log b)^2 / 8) := by
  have ht : trentoMean p a b = Real.sqrt (a*b) := by unfold trentoMean; rw [if_pos hp, powerMean_zero]
  rw [ht]
  have hG : 0 ≤ Real.sqrt (a*b) := Real.sqrt_nonneg _
  have hL : 0 ≤ (Real.log a - Real.log b)^2 := sq_nonneg _
  rw [abs_lt] at hp
  constructor
  · rcases lt_trichotomy p 0 with h | rfl | h
    · rw [powerMean_neg h ha.ne' hb.ne']
      refine le_trans ?_ (geo_mul_exp_le_pm ha hb h)
      apply mul_le_mul_of_nonneg_left _ hG
      apply Real.exp_le_exp.mpr
      nlinarith [hp.1]
    · rw [powerMean_zero]
      exact mul_le_of_le_one_right hG (Real.exp_le_one_iff.mpr (neg_nonpos.mpr (by positivity)))
    · rw [powerMean_pos h]
      exact (mul_le_of_le_one_right hG (Real.exp_le_one_iff.mpr (neg_nonpos.mpr (by positivity)))).trans
        (geo_le_pm ha.le hb.le h)
  · rcases lt_trichotomy p 0 with h | rfl | h
    · rw [powerMean_neg h ha.ne' hb.ne']
      exact (pm_neg_le_geo ha hb h).trans (le_mul_of_one_le_right hG (Real.one_le_exp (by positivity)))
    · rw [powerMean_zero]
      exact le_mul_of_one_le_right hG (Real.one_le_exp (by positivity))
    · rw [powerMean_pos h]
      refine (pm_le_geo_mul_exp ha hb h).trans ?_
      apply mul_le_mul_of_nonneg_left _ hG
      apply Real.exp_le_exp.mpr
      nlinarith [hp.2]

end Trento
