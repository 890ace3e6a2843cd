import Verif.Lemmas.RoundedMean
import Verif.Props.RoundedGrid

/-! # C81: accuracy of the reduced thickness in rounded arithmetic -/

namespace Trento
open Spec
variable {M : Machine}

theorem sqrt_near {x q : ℝ} (hx : 0 ≤ x) (hq : |q - x| ≤ 1.2e-16 * x + 1e-250) : |Real.sqrt q - Real.sqrt x| ≤ 1.2e-16 * Real.sqrt x + 1e-125 := by
  have hq := abs_le.1 hq
  have hs := Real.sqrt_nonneg x
  have hsq := Real.sq_sqrt hx
  have hr := Real.sqrt_nonneg q
  generalize hy : Real.sqrt x = y at *
  rw [abs_le]
  constructor
  · -- √x (1-ε) ≤ √q + δ'
    by_contra hc
    push Not at hc
    have h1 : Real.sqrt q < y * (1 - 1.2e-16) - 1e-125 := by linarith
    have h3 : q < (y * (1 - 1.2e-16) - 1e-125)^2 := by
      by_cases hq0 : 0 ≤ q
      · rw [← Real.sq_sqrt hq0]; exact pow_lt_pow_left₀ h1 hr (by norm_num)
      · push Not at hq0
        have : 0 < y * (1 - 1.2e-16) - 1e-125 := lt_of_le_of_lt hr h1
        exact lt_of_lt_of_le hq0 (by positivity)
    have hpos : 0 < y * (1 - 1.2e-16) - 1e-125 := lt_of_le_of_lt hr h1
    have e : (y * (1 - 1.2e-16) - 1e-125)^2 + 2 * 1e-125 * (y * (1 - 1.2e-16) - 1e-125) + 1e-250 = y^2 * (1 - 1.2e-16)^2 := by ring
    have e2 : y^2 * (1 - 1.2e-16)^2 ≤ y^2 * (1 - 1.2e-16) := mul_le_mul_of_nonneg_left (by norm_num) (sq_nonneg y)
    have e3 : 0 < 2 * 1e-125 * (y * (1 - 1.2e-16) - 1e-125) := by positivity
    have : (1e-250:ℝ) > 0 := by norm_num
    nlinarith
  · have h2 : Real.sqrt q ≤ y * (1 + 1.2e-16) + 1e-125 := by
      apply Real.sqrt_le_iff.2
      refine ⟨by positivity, ?_⟩
      have e : (y * (1 + 1.2e-16) + 1e-125)^2 = y^2 * (1 + 1.2e-16)^2 + 2 * 1e-125 * (y * (1 + 1.2e-16)) + 1e-250 := by ring
      have e2 : y^2 * (1 + 1.2e-16) ≤ y^2 * (1 + 1.2e-16)^2 := mul_le_mul_of_nonneg_left (by norm_num) (sq_nonneg y)
      have e3 : 0 ≤ 2 * 1e-125 * (y * (1 + 1.2e-16)) := by positivity
      nlinarith
    linarith

theorem geometric_fl (a b : Fl M) (ha : 0 ≤ a.val) (hb : 0 ≤ b.val) :
    |(geometricMean a b).val - Real.sqrt (a.val * b.val)| ≤ 3e-16 * Real.sqrt (a.val * b.val) + 2e-125 := by
  unfold geometricMean
  rw [Fl.sqrt_val, Fl.mul_val]
  have h0 := mul_nonneg ha hb
  have h1 := M.fl_near (a.val * b.val)
  rw [abs_of_nonneg h0] at h1
  have h2 := sqrt_near h0 h1
  have h3 := M.fl_near (Real.sqrt (M.fl (a.val * b.val)))
  rw [abs_of_nonneg (Real.sqrt_nonneg _)] at h3
  have hs := Real.sqrt_nonneg (a.val * b.val)
  generalize M.fl (Real.sqrt (M.fl (a.val * b.val))) = r at *
  generalize Real.sqrt (M.fl (a.val * b.val)) = q at *
  generalize Real.sqrt (a.val * b.val) = y at *
  have h2 := abs_le.1 h2
  have h3 := abs_le.1 h3
  have : (1e-250:ℝ) ≤ 1e-126 := by norm_num
  rw [abs_le]; constructor <;> linarith

theorem scale_numeric {N g G ε δ t : ℝ} (hN : 0 ≤ N) (hG : 0 ≤ G) (hε : 0 ≤ ε) (hε2 : ε ≤ 1) (hδ : 0 ≤ δ) (hg : |g - G| ≤ ε * G + δ)
    (ht : |t - N * g| ≤ 1.2e-16 * |N * g| + 1e-250) : |t - N * G| ≤ (ε + 2.5e-16) * (N * G) + 2 * δ * N + 1e-250 := by
  have hg' : |N * g - N * G| ≤ ε * (N * G) + δ * N := by
    rw [← mul_sub, abs_mul, abs_of_nonneg hN]
    have := mul_le_mul_of_nonneg_left hg hN
    linarith
  have p1 : 0 ≤ N * G := mul_nonneg hN hG
  have p2 : 0 ≤ δ * N := mul_nonneg hδ hN
  have p3 : ε * (N * G) ≤ 1 * (N * G) := mul_le_mul_of_nonneg_right hε2 p1
  have p4 : 0 ≤ ε * (N * G) := mul_nonneg hε p1
  have hg' := abs_le.1 hg'
  have e1 : (ε + 2.5e-16) * (N * G) = ε * (N * G) + 2.5e-16 * (N * G) := by ring
  have e2 : 2 * δ * N = 2 * (δ * N) := by ring
  rw [e1, e2]
  generalize N * G = P at *
  generalize N * g = Q at *
  generalize δ * N = R at *
  generalize ε * P = S at *
  have hQ : |Q| ≤ 2 * P + R := by rw [abs_le]; constructor <;> linarith
  have ht : |t - Q| ≤ 1.2e-16 * (2 * P + R) + 1e-250 := by linarith
  have ht := abs_le.1 ht
  rw [abs_le]; constructor <;> linarith

theorem tiny_fl : |(TINY : Fl M).val - 1e-12| ≤ 1e-27 := by
  show |M.fl ((1e-12 : ℚ) : ℝ) - 1e-12| ≤ 1e-27
  have h := M.fl_near ((1e-12 : ℚ) : ℝ)
  have e : ((1e-12 : ℚ) : ℝ) = 1e-12 := by norm_num
  rw [e] at h ⊢
  rw [abs_of_pos (by norm_num : (0:ℝ) < 1e-12)] at h
  refine h.trans (by norm_num)

/-- How the reduced thickness `t`, computed with normalisation `N` and parameter `p` from thicknesses `a`, `b`, relates to the documented generalized mean. -/
structure Spec.AccurateReduced (N p a b t : ℝ) : Prop where
  /-- `p` indistinguishable from zero: the geometric mean -/
  geometric : |p| ≤ 9.99e-13 → |t - N * Real.sqrt (a * b)| ≤ 6e-16 * (N * Real.sqrt (a * b)) + 4e-125 * N + 1e-250
  /-- positive `p`: relative error `1e-14 (1 + 1/p)` -/
  positive : 1.001e-12 ≤ p → p ≤ 10 → 1e-12 ≤ max a b → max a b ≤ 1e12 →
    |t - N * powerMean p a b| ≤ 1e-14 * (1 + 1 / p) * (N * powerMean p a b) + 4e-250 * N + 1e-250
  /-- both thicknesses negligible -/
  negligible : 1.001e-12 ≤ p → p ≤ 10 → max a b < 1e-12 → t ≤ 2e-12 * N + 1e-250 ∧ powerMean p a b ≤ 1e-12
  /-- negative `p`: the same error -/
  negative : p ≤ -1.001e-12 → -10 ≤ p → 1.001e-12 ≤ min a b → max a b ≤ 1e12 →
    |t - N * powerMean p a b| ≤ 1e-14 * (1 + 1 / |p|) * (N * powerMean p a b) + 4e-250 * N + 1e-250
  /-- negative `p` without overlap: exactly zero, never the infinity of a division by zero -/
  zero : p ≤ -1.001e-12 → min a b ≤ 9.99e-13 → t = 0

theorem powerMean_of_ne {p a b : ℝ} (hp : p ≠ 0) (h : ¬ (p < 0 ∧ (a = 0 ∨ b = 0))) : powerMean p a b = ((a ^ p + b ^ p) / 2) ^ (1 / p) := by
  unfold powerMean; rw [if_neg hp, if_neg h]

theorem reduced_fl (norm p a b : Fl M) (hN : 0 ≤ norm.val) (ha : 0 ≤ a.val) (hb : 0 ≤ b.val) :
    AccurateReduced norm.val p.val a.val b.val (norm * genMean p a b).val := by
  have hT := abs_le.1 (tiny_fl (M := M))
  have hrel : ∀ x : ℝ, 9e-13 ≤ x → 9e-15 * (1 + 1 / x) + 2.5e-16 ≤ 1e-14 * (1 + 1 / x) ∧ 0 ≤ 9e-15 * (1 + 1 / x) ∧ 9e-15 * (1 + 1 / x) ≤ 1 := by
    intro x hx
    have hx0 : 0 < x := by linarith
    have h1 : 0 < 1 / x := by positivity
    have h2 : 1 / x ≤ 1.2e12 := by rw [div_le_iff₀ hx0]; norm_num at hx ⊢; linarith
    refine ⟨by linarith, by positivity, by linarith⟩
  have finish : ∀ {G x : ℝ}, 0 ≤ G → 9e-13 ≤ x → |(genMean p a b).val - G| ≤ 9e-15 * (1 + 1 / x) * G + 2e-250 →
      |(norm * genMean p a b).val - norm.val * G| ≤ 1e-14 * (1 + 1 / x) * (norm.val * G) + 4e-250 * norm.val + 1e-250 := by
    intro G x hG hx h
    obtain ⟨r1, r2, r3⟩ := hrel x hx
    have := scale_numeric hN hG r2 r3 (by norm_num) h (t := (norm * genMean p a b).val) (by rw [Fl.mul_val]; exact M.fl_near _)
    have k := mul_le_mul_of_nonneg_right r1 (mul_nonneg hN hG)
    have e : (2:ℝ) * 2e-250 * norm.val = 4e-250 * norm.val := by ring
    rw [e] at this
    linarith
  have hgen : ∀ {q : ℝ}, p.val = q → 1.001e-12 ≤ q → genMean p a b = positivePmean p a b := by
    intro q hq h
    subst hq
    unfold genMean
    rw [Fl.lt_eq, Fl.fabs_val, abs_of_pos (by linarith), decide_eq_false (by linarith), Fl.lt_eq, M.lit_zero, decide_eq_true (by linarith)]
    simp
  have hgneg : p.val ≤ -1.001e-12 → genMean p a b = negativePmean p a b := by
    intro h
    unfold genMean
    rw [Fl.lt_eq, Fl.fabs_val, abs_of_neg (by linarith), decide_eq_false (by linarith), Fl.lt_eq, M.lit_zero, decide_eq_false (by linarith)]
    simp
  refine ⟨?_, ?_, ?_, ?_, ?_⟩
  · intro hp
    have hg : genMean p a b = geometricMean a b := by
      unfold genMean
      rw [Fl.lt_eq, Fl.fabs_val, decide_eq_true (by linarith)]
      simp
    rw [hg]
    have := scale_numeric hN (Real.sqrt_nonneg (a.val * b.val)) (by norm_num) (by norm_num) (by norm_num) (geometric_fl a b ha hb)
      (t := (norm * geometricMean a b).val) (by rw [Fl.mul_val]; exact M.fl_near _)
    have k := mul_nonneg hN (Real.sqrt_nonneg (a.val * b.val))
    linarith
  · intro h1 h2 h3 h4
    have hp : 0 < p.val := by linarith
    have habs : |p.val| = p.val := abs_of_pos hp
    have e : powerMean p.val a.val b.val = ((a.val ^ p.val + b.val ^ p.val) / 2) ^ (1 / p.val) := powerMean_of_ne hp.ne' (by intro h; linarith [h.1])
    obtain ⟨s1, s2⟩ := rpow_sum_pos ha hb hp
    have hS : 0 ≤ (a.val ^ p.val + b.val ^ p.val) / 2 := by
      have p1 := Real.rpow_nonneg ha p.val
      have p2 := Real.rpow_nonneg hb p.val
      positivity
    have := pmean_fl p a b (by rw [habs]; linarith) (by rw [habs]; exact h2) ha hb (.inl hp) (max a.val b.val) (by linarith) h4 s1 s2
    rw [habs, ← hgen rfl h1] at this
    rw [e]
    exact finish (Real.rpow_nonneg hS _) (by linarith) this
  · intro h1 h2 h3
    have hp : 0 < p.val := by linarith
    have ha1 : a.val ≤ 1e-12 := (le_max_left _ _).trans h3.le
    have hb1 : b.val ≤ 1e-12 := (le_max_right _ _).trans h3.le
    have := pmean_fl_tiny p a b (by linarith) h2 ha hb ha1 hb1
    rw [hgen rfl h1, Fl.mul_val]
    have h0 : 0 ≤ (positivePmean p a b).val := by
      have := genMean_fl_nonneg p a b ha hb
      rwa [hgen rfl h1] at this
    constructor
    · have k1 := M.fl_near (norm.val * (positivePmean p a b).val)
      have k2 : norm.val * (positivePmean p a b).val ≤ norm.val * 1.1e-12 := mul_le_mul_of_nonneg_left this hN
      have k3 := mul_nonneg hN h0
      rw [abs_of_nonneg k3] at k1
      generalize norm.val * (positivePmean p a b).val = z at *
      linarith [(abs_le.1 k1).2]
    · rw [powerMean_of_ne hp.ne' (by intro h; linarith [h.1])]
      have u1 : a.val ^ p.val ≤ (1e-12:ℝ) ^ p.val := Real.rpow_le_rpow ha ha1 hp.le
      have u2 : b.val ^ p.val ≤ (1e-12:ℝ) ^ p.val := Real.rpow_le_rpow hb hb1 hp.le
      have p1 := Real.rpow_nonneg ha p.val
      have p2 := Real.rpow_nonneg hb p.val
      calc ((a.val ^ p.val + b.val ^ p.val) / 2) ^ (1 / p.val) ≤ ((1e-12:ℝ) ^ p.val) ^ (1 / p.val) :=
            Real.rpow_le_rpow (by positivity) (by linarith) (by positivity)
        _ = 1e-12 := by rw [← Real.rpow_mul (by norm_num), mul_one_div_cancel hp.ne', Real.rpow_one]
  · intro h1 h2 h3 h4
    have hp : p.val < 0 := by linarith
    have habs : |p.val| = -p.val := abs_of_neg hp
    have ha1 : 1.001e-12 ≤ a.val := h3.trans (min_le_left _ _)
    have hb1 : 1.001e-12 ≤ b.val := h3.trans (min_le_right _ _)
    have e : powerMean p.val a.val b.val = ((a.val ^ p.val + b.val ^ p.val) / 2) ^ (1 / p.val) := powerMean_of_ne hp.ne (by
      rintro ⟨-, h | h⟩ <;> linarith)
    obtain ⟨s1, s2⟩ := rpow_sum_neg (a := a.val) (b := b.val) (by linarith) (by linarith) hp
    have hS : 0 ≤ (a.val ^ p.val + b.val ^ p.val) / 2 := by
      have p1 := Real.rpow_nonneg ha p.val
      have p2 := Real.rpow_nonneg hb p.val
      positivity
    have := pmean_fl p a b (by rw [habs]; linarith) (by rw [habs]; linarith) ha hb (.inr ⟨by linarith, by linarith⟩) (min a.val b.val) (by linarith)
      ((min_le_left _ _).trans ((le_max_left _ _).trans h4)) s1 s2
    have hg : genMean p a b = positivePmean p a b := by
      rw [hgneg h1]
      unfold negativePmean
      rw [Fl.lt_eq, Fl.lt_eq, decide_eq_false (by linarith), decide_eq_false (by linarith)]
      simp
    rw [← hg] at this
    rw [e]
    exact finish (Real.rpow_nonneg hS _) (by rw [habs]; linarith) this
  · intro h1 h2
    rw [hgneg h1]
    have : (negativePmean p a b) = lit 0 := by
      unfold negativePmean
      rcases min_choice a.val b.val with h | h <;> rw [h] at h2
      · rw [Fl.lt_eq, decide_eq_true (by linarith)]; simp
      · rw [Fl.lt_eq b, decide_eq_true (by linarith)]; simp
    rw [this, Fl.mul_val, M.lit_zero, mul_zero, M.fl_zero]

/-- Lead-like thicknesses 2 and 3, `p = -1` (harmonic mean 2.4): the bound applies and pins the result down to 5e-14. -/
example (norm p a b : Fl M) (hn : norm.val = 1) (hp : p.val = -1) (ha : a.val = 2) (hb : b.val = 3) : |(norm * genMean p a b).val - 2.4| ≤ 5e-14 := by
  have h := (reduced_fl norm p a b (by rw [hn]; norm_num) (by rw [ha]; norm_num) (by rw [hb]; norm_num)).negative
    (by rw [hp]; norm_num) (by rw [hp]; norm_num) (by rw [ha, hb]; norm_num) (by rw [ha, hb]; norm_num)
  rw [hn, hp, ha, hb] at h
  have e : powerMean (-1) 2 3 = 2.4 := by
    rw [powerMean_of_ne (by norm_num) (by norm_num)]
    norm_num [Real.rpow_neg_one]
  rw [e, one_mul] at h
  refine h.trans ?_
  norm_num [abs_of_neg]

section run
variable {E D : Type} [Rng (Fl M) E D]

/-- **C81.** In rounded arithmetic, in every cell of every record of a run (release build, any projectiles and random numbers): the reduced thickness is the
normalisation times the documented generalized mean of the two reported thicknesses, with relative error `1e-14 (1 + 1/|p|)`; for negative `p` a cell
without overlap is exactly zero. -/
theorem C81_reduced_thickness [LawfulRngFl M E D] (o : Options (Fl M)) (sigma : Fl M) (hA : NucleusHistory E D o.projectileA)
    (hB : NucleusHistory E D o.projectileB) (hv : 1e-10 ≤ o.constitWidth.val) (hnorm : 0 ≤ o.normalization.val)
    (rfuel fuel : Nat) (ev0 : (n : Nat) → Event (Fl M) n) (w : Rand E D) (n : ℕ) (rs : List (EventRecord (Fl M) n))
    (h : runAll rfuel fuel o sigma false ev0 w = .ok ⟨n, rs⟩) :
    ∀ rec ∈ rs, ∀ iy ix, AccurateReduced o.normalization.val o.reducedThickness.val (rec.event.TA iy ix).val (rec.event.TB iy ix).val (rec.event.TR iy ix).val := by
  obtain ⟨ec, hec, hns, key⟩ := runAll_records_inv o sigma false (P := fun _ => True) (E := E) (D := D) ⟨fun _ _ _ => trivial, fun _ _ _ => trivial⟩
    (fun _ _ _ => trivial) hA hB rfuel fuel ev0 w n rs h
  have hnn := C77_nonnegative o sigma hA hB hv hnorm rfuel fuel ev0 w n rs h
  have hcfg : ec.norm = o.normalization ∧ ec.p = o.reducedThickness := by
    unfold EventCfg.make at hec
    split at hec
    · cases hec
    · split at hec
      · cases hec
      · cases hec; exact ⟨rfl, rfl⟩
  intro rec hrec iy ix
  obtain ⟨A, B, -, -, -, -, -, hcomp⟩ := key rec hrec
  obtain ⟨TA, TB, npA, npB, -, -, hev⟩ := compute_ok (hcomp (ev0 n))
  obtain ⟨-, hc, -⟩ := hnn rec hrec
  obtain ⟨h1, h2, -⟩ := hc iy ix
  have e : rec.event.TR iy ix = o.normalization * genMean o.reducedThickness (rec.event.TA iy ix) (rec.event.TB iy ix) := by
    rw [hev]
    show (computeReducedThickness ec _).TR iy ix = _
    rw [computeReducedThickness_TR, hcfg.1, hcfg.2]
    rfl
  rw [e]
  exact reduced_fl _ _ _ _ hnorm h1 h2

/-- The run of `example_run_fl` meets the hypotheses, on every machine. -/
example (ev0 : (n : Nat) → Event (Fl M) n) : ∃ n r1 r2, runAll 0 1 (exampleOptionsFl M) ⟨100⟩ false ev0 halfTape = .ok ⟨n, [r1, r2]⟩ ∧
    ∀ iy ix, |(r2.event.TR iy ix).val - Real.sqrt ((r2.event.TA iy ix).val * (r2.event.TB iy ix).val)| ≤
      6e-16 * Real.sqrt ((r2.event.TA iy ix).val * (r2.event.TB iy ix).val) + 1e-124 := by
  obtain ⟨n, r1, r2, h⟩ := example_run_fl (M := M) ev0
  have hh : NucleusHistory Tape Unit (mkProton : Nucleus (Fl M)) := .create false (fun _ => .missing) "p" (lit 0) _ rfl
  refine ⟨n, r1, r2, h, fun iy ix => ?_⟩
  have e1 : (exampleOptionsFl M).normalization.val = 1 := M.lit_one
  have e0 : (exampleOptionsFl M).reducedThickness.val = 0 := M.lit_zero
  have := (C81_reduced_thickness (E := Tape) (D := Unit) (exampleOptionsFl M) ⟨100⟩ hh hh (by show 1e-10 ≤ (lit 1 : Fl M).val; rw [M.lit_one]; norm_num)
    (by rw [e1]; norm_num) 0 1 ev0 halfTape n _ h r2 (by simp) iy ix).geometric (by rw [e0]; norm_num)
  rw [e1, one_mul] at this
  refine this.trans ?_
  have : (4e-125:ℝ) * 1 + 1e-250 ≤ 1e-124 := by norm_num
  linarith

end run
end Trento
