import Verif.Props.MinDistance
import Mathlib.Analysis.SpecialFunctions.Integrals.Basic
import Mathlib.MeasureTheory.Integral.IntervalIntegral.IntegrationByParts

/-!
# C17: deuteron geometry and Hulthén rejection sampling
-/

namespace Trento
open MeasureTheory Spec

section
variable {E D : Type} [Rng ℝ E D]

/-- The `k`-th pair of uniform numbers read from random state `w`, and the state after it. -/
def Spec.uniformPair (w : Rand E D) : Nat → (ℝ × ℝ) × Rand E D
  | 0 => (((canonical (F := ℝ) w).1, (canonical (F := ℝ) (canonical (F := ℝ) w).2).1), (canonical (F := ℝ) (canonical (F := ℝ) w).2).2)
  | k+1 => Spec.uniformPair (canonical (F := ℝ) (canonical (F := ℝ) w).2).2 k

/-- Hulthén acceptance: the proposal `r = -log u / (2a)` is accepted for `v` iff `v ≤ (e^{-ar} - e^{-br})² / u`. -/
def Spec.Accepted (a b : ℝ) (uv : ℝ × ℝ) : Prop :=
  uv.2 ≤ (Real.exp (-a * (-Real.log uv.1 / (2*a))) - Real.exp (-b * (-Real.log uv.1 / (2*a))))^2 / uv.1

theorem deuteronProb_real (a b u r : ℝ) : deuteronProb a b u r = (Real.exp (-a*r) - Real.exp (-b*r))^2 / u := by
  unfold deuteronProb
  simp only [pow_real, exp_real, lit_real]
  norm_num

theorem deuteronRadius_real (a u : ℝ) : deuteronRadius a u = -Real.log u / (2*a) := by
  unfold deuteronRadius; simp

/-- **C17, rejection loop.** The loop returns `r` exactly if for some `k` the first `k` proposals are rejected and
proposal `k` is accepted, `r` being the radius of that proposal. -/
theorem C17_rejection_loop (a b r : ℝ) (fuel : Nat) (w w' : Rand E D) :
    deuteronLoop a b fuel w = .ok (r, w') ↔
      ∃ k < fuel, (∀ i < k, ¬ Accepted a b (uniformPair w i).1) ∧ Accepted a b (uniformPair w k).1 ∧
        r = -Real.log (uniformPair w k).1.1 / (2*a) ∧ w' = (uniformPair w k).2 := by
  induction fuel generalizing w with
  | zero => simp [deuteronLoop]
  | succ fuel ih =>
    rw [deuteronLoop]
    simp only [deuteronProb_real, deuteronRadius_real, lt_real, decide_eq_true_eq]
    split
    · rename_i h
      have hrej : ¬ Accepted a b (uniformPair w 0).1 := not_le.mpr h
      rw [ih]
      constructor
      · rintro ⟨k, hk, h1, h2, h3, h4⟩
        refine ⟨k+1, by omega, ?_, h2, h3, h4⟩
        intro i hi
        cases i with
        | zero => exact hrej
        | succ i => exact h1 i (by omega)
      · rintro ⟨k, hk, h1, h2, h3, h4⟩
        cases k with
        | zero => exact absurd h2 hrej
        | succ k => exact ⟨k, by omega, fun i hi => h1 (i+1) (by omega), h2, h3, h4⟩
    · rename_i h
      have hacc : Accepted a b (uniformPair w 0).1 := not_lt.mp h
      simp only [Except.ok.injEq, Prod.mk.injEq]
      constructor
      · rintro ⟨rfl, rfl⟩
        exact ⟨0, by omega, by simp, hacc, rfl, rfl⟩
      · rintro ⟨k, hk, h1, h2, h3, h4⟩
        cases k with
        | zero => exact ⟨h3.symm, h4.symm⟩
        | succ k => exact absurd hacc (h1 0 (by omega))

/-- **C17, geometry.** A sampled deuteron consists of two nucleons at opposite points about `(b, 0, 0)`, at a distance from it
equal to the accepted radius. -/
theorem C17_antipodal [LawfulRng E D] (α β : ℝ) (nuc nuc' : Nucleus ℝ) (hk : nuc.kind = .deuteron α β)
    (hh : NucleusHistory E D nuc) (fuel : Nat) (b : ℝ) (w w' : Rand E D)
    (h : nuc.sampleNucleons fuel b w = .ok (nuc', w')) :
    ∃ (n1 n2 : NucleonData ℝ) (x y z r : ℝ) (w1 : Rand E D), nuc'.nucleons = [n1, n2] ∧
      pos n1 = (b + x, y, z) ∧ pos n2 = (b - x, -y, -z) ∧
      deuteronLoop α β fuel w = .ok (r, w1) ∧ x^2 + y^2 + z^2 = r^2 := by
  have hw := hh.wf
  unfold Nucleus.WF at hw
  unfold Nucleus.sampleNucleons at h
  rw [hk] at h hw
  obtain ⟨m1, m2, hm⟩ := List.length_eq_two.mp hw
  simp only [sampleDeuteron, hm] at h
  cases hl : deuteronLoop α β fuel w with
  | error e => rw [hl] at h; cases h
  | ok r =>
    obtain ⟨r, w1⟩ := r
    rw [hl] at h
    simp only [Except.ok.injEq, Prod.mk.injEq] at h
    obtain ⟨h, -⟩ := h
    subst h
    refine ⟨_, _, (spherical r (cosTheta w1).1 (phi (F := ℝ) (cosTheta (F := ℝ) w1).2).1).1,
      (spherical r (cosTheta w1).1 (phi (F := ℝ) (cosTheta (F := ℝ) w1).2).1).2.1,
      (spherical r (cosTheta w1).1 (phi (F := ℝ) (cosTheta (F := ℝ) w1).2).1).2.2, r, w1, rfl, ?_, ?_, rfl,
      spherical_norm _ _ _ (cosTheta_sq_le _)⟩
    · simp [pos, setNucleonPosition, NucleonData.setPosition, add_comm]
    · simp [pos, setNucleonPosition, NucleonData.setPosition]; ring

/-- The two parameters are interchangeable. -/
theorem C17_exchange (a b : ℝ) : mkDeuteron a b = mkDeuteron b a := by
  unfold mkDeuteron
  simp only [fmin_real, fmax_real, min_comm a b, max_comm a b]

/-- In closed form the acceptance probability is `(1 - u^((b-a)/2a))²`. -/
theorem hulthen_prob_eq {a b u : ℝ} (ha : 0 < a) (hu : 0 < u) :
    (Real.exp (-a * (-Real.log u / (2*a))) - Real.exp (-b * (-Real.log u / (2*a))))^2 / u =
      (1 - Real.exp ((b-a)/(2*a) * Real.log u))^2 := by
  have h1 : Real.exp (-b * (-Real.log u / (2*a))) = Real.exp (-a * (-Real.log u / (2*a))) *
      Real.exp ((b-a)/(2*a) * Real.log u) := by
    rw [← Real.exp_add]; congr 1; field_simp; ring
  have h2 : Real.exp (-a * (-Real.log u / (2*a)))^2 = u := by
    rw [← Real.exp_nat_mul]
    have : ((2:ℕ):ℝ) * (-a * (-Real.log u / (2*a))) = Real.log u := by push_cast; field_simp
    rw [this, Real.exp_log hu]
  rw [h1]
  have : (Real.exp (-a * (-Real.log u / (2*a))) - Real.exp (-a * (-Real.log u / (2*a))) * Real.exp ((b-a)/(2*a) * Real.log u))^2
    = Real.exp (-a * (-Real.log u / (2*a)))^2 * (1 - Real.exp ((b-a)/(2*a) * Real.log u))^2 := by ring
  rw [this, h2]
  field_simp

/-- **C17, probability.** For every uniform `u` in (0,1) the acceptance probability lies in [0, 1). -/
theorem C17_probability_range {a b u : ℝ} (ha : 0 < a) (hab : a ≤ b) (hu : 0 < u) (hu1 : u < 1) :
    0 ≤ deuteronProb a b u (deuteronRadius a u) ∧ deuteronProb a b u (deuteronRadius a u) < 1 := by
  rw [deuteronProb_real, deuteronRadius_real, hulthen_prob_eq ha hu]
  refine ⟨sq_nonneg _, ?_⟩
  have h1 : 0 < Real.exp ((b-a)/(2*a) * Real.log u) := Real.exp_pos _
  have h2 : Real.exp ((b-a)/(2*a) * Real.log u) ≤ 1 := by
    apply Real.exp_le_one_iff.mpr
    exact mul_nonpos_of_nonneg_of_nonpos (div_nonneg (by linarith) (by linarith)) (Real.log_nonpos hu.le hu1.le)
  nlinarith

/-- A proposal has radius at most `ρ` exactly if `u ≥ e^{-2aρ}`. -/
theorem C17_radius_le {a u ρ : ℝ} (ha : 0 < a) (hu : 0 < u) : -Real.log u / (2*a) ≤ ρ ↔ Real.exp (-(2*a*ρ)) ≤ u := by
  rw [div_le_iff₀ (by linarith), ← Real.le_log_iff_exp_le hu]
  constructor <;> intro h <;> linarith

/-- For a proposal `u` in (0,1), the probability over the second uniform number that it is accepted. -/
theorem C17_acceptance_measure {a b u : ℝ} (ha : 0 < a) (hab : a ≤ b) (hu : 0 < u) (hu1 : u < 1) :
    (volume {v : ℝ | v ∈ Set.Ico (0:ℝ) 1 ∧ Accepted a b (u, v)}).toReal =
      (Real.exp (-a * (-Real.log u / (2*a))) - Real.exp (-b * (-Real.log u / (2*a))))^2 / u := by
  have h := C17_probability_range ha hab hu hu1
  rw [deuteronProb_real, deuteronRadius_real] at h
  have : {v : ℝ | v ∈ Set.Ico (0:ℝ) 1 ∧ Accepted a b (u, v)} = Set.Icc 0
      ((Real.exp (-a * (-Real.log u / (2*a))) - Real.exp (-b * (-Real.log u / (2*a))))^2 / u) := by
    ext v
    simp only [Set.mem_ofPred_eq, Set.mem_Ico, Set.mem_Icc, Accepted]
    constructor
    · rintro ⟨⟨h1, _⟩, h2⟩; exact ⟨h1, h2⟩
    · rintro ⟨h1, h2⟩; exact ⟨⟨h1, lt_of_le_of_lt h2 h.2⟩, h2⟩
  rw [this, Real.volume_Icc, sub_zero, ENNReal.toReal_ofReal h.1]

/-- **C17, Hulthén distribution.** For independent uniform `u`, `v`, the probability that a proposal is accepted with a radius
at most `ρ` is `2a ∫₀^ρ (e^{-as} - e^{-bs})² ds`: accepted radii follow the Hulthén density `∝ (e^{-as} - e^{-bs})²`. -/
theorem C17_hulthen_distribution {a b ρ : ℝ} (ha : 0 < a) (hab : a ≤ b) (hρ : 0 ≤ ρ) :
    ∫ u in Real.exp (-(2*a*ρ))..1, (volume {v : ℝ | v ∈ Set.Ico (0:ℝ) 1 ∧ Accepted a b (u, v)}).toReal =
      2 * a * ∫ s in (0:ℝ)..ρ, (Real.exp (-a*s) - Real.exp (-b*s))^2 := by
  have hle : Real.exp (-(2*a*ρ)) ≤ 1 := Real.exp_le_one_iff.mpr (by have := mul_nonneg ha.le hρ; linarith)
  -- replace the measure by its value
  have h1 : ∫ u in Real.exp (-(2*a*ρ))..1, (volume {v : ℝ | v ∈ Set.Ico (0:ℝ) 1 ∧ Accepted a b (u, v)}).toReal =
      ∫ u in Real.exp (-(2*a*ρ))..1,
        (Real.exp (-a * (-Real.log u / (2*a))) - Real.exp (-b * (-Real.log u / (2*a))))^2 / u := by
    apply intervalIntegral.integral_congr_ae
    have hne : ∀ᵐ u : ℝ, u ≠ 1 := by
      rw [ae_iff]; simp
    filter_upwards [hne] with u hu hm
    rw [Set.uIoc_of_le hle] at hm
    exact C17_acceptance_measure ha hab (lt_trans (Real.exp_pos _) hm.1) (lt_of_le_of_ne hm.2 hu)
  rw [h1]
  -- substitution u = exp(-2 a s)
  have hder : ∀ s : ℝ, HasDerivAt (fun s => Real.exp (-(2*a*s))) (Real.exp (-(2*a*s)) * (-(2*a))) s := by
    intro s
    have h : HasDerivAt (fun s => -(2*a*s)) (-(2*a)) s := by
      have := (hasDerivAt_id s).const_mul (-(2*a))
      simpa using this
    exact h.exp
  have hsub := intervalIntegral.integral_comp_mul_deriv_of_deriv_nonpos (a := ρ) (b := 0) (f := fun s => Real.exp (-(2*a*s)))
    (f' := fun s => Real.exp (-(2*a*s)) * (-(2*a)))
    (g := fun u => (Real.exp (-a * (-Real.log u / (2*a))) - Real.exp (-b * (-Real.log u / (2*a))))^2 / u)
    (by fun_prop) (fun s _ => hder s)
    (fun s _ => mul_nonpos_of_nonneg_of_nonpos (Real.exp_pos _).le (by linarith))
  simp only [mul_zero, neg_zero, Real.exp_zero] at hsub
  rw [← hsub, intervalIntegral.integral_symm, ← intervalIntegral.integral_const_mul, ← intervalIntegral.integral_neg]
  apply intervalIntegral.integral_congr
  intro s _
  simp only [Function.comp, Real.log_exp]
  have h2 : -(-(2*a*s)) / (2*a) = s := by field_simp
  rw [h2]
  have h3 := (Real.exp_pos (-(2*a*s))).ne'
  field_simp

/-- The radius used for the deuteron in the default maximum impact parameter bounds 99 % of all proposals. -/
theorem C17_radius_quantile {α β : ℝ} (ha : 0 < α) :
    (volume {u : ℝ | u ∈ Set.Ioo (0:ℝ) 1 ∧ -Real.log u / (2*α) ≤ (Kind.deuteron α β).radius}).toReal = 99/100 := by
  have : {u : ℝ | u ∈ Set.Ioo (0:ℝ) 1 ∧ -Real.log u / (2*α) ≤ (Kind.deuteron α β).radius} = Set.Ico (1/100) 1 := by
    ext u
    simp only [Set.mem_ofPred_eq, Set.mem_Ioo, Set.mem_Ico]
    have hrad : (Kind.deuteron α β).radius = -Real.log (1/100) / (2*α) := by
      simp only [Kind.radius, log_real, lit_real]; norm_num
    constructor
    · rintro ⟨⟨h0, h1⟩, h2⟩
      rw [C17_radius_le ha h0, hrad] at h2
      have h3 : -(2 * α * (-Real.log (1/100) / (2*α))) = Real.log (1/100) := by field_simp
      rw [h3, Real.exp_log (by norm_num)] at h2
      exact ⟨h2, h1⟩
    · rintro ⟨h2, h1⟩
      have h0 : 0 < u := by linarith
      refine ⟨⟨h0, h1⟩, ?_⟩
      rw [C17_radius_le ha h0, hrad]
      have h3 : -(2 * α * (-Real.log (1/100) / (2*α))) = Real.log (1/100) := by field_simp
      rw [h3, Real.exp_log (by norm_num)]
      exact h2
  rw [this, Real.volume_Ico, ENNReal.toReal_ofReal (by norm_num)]
  norm_num

/-- Non-vacuity: with a tape that is constantly 1/100 the first proposal of the documented deuteron is accepted, so a sampled
deuteron exists. -/
example : ∃ (nuc' : Nucleus ℝ) (w' : Rand Tape Unit),
    (mkDeuteron (lit 0.457) (lit 2.35) : Nucleus ℝ).sampleNucleons 1 5 ⟨Tape.const (1/100) (by norm_num), ()⟩ = .ok (nuc', w') := by
  have hacc : Accepted (0.457:ℝ) 2.35 (1/100, 1/100) := by
    unfold Accepted
    rw [hulthen_prob_eq (by norm_num) (by norm_num)]
    dsimp only
    have h1 : Real.exp ((2.35-0.457)/(2*0.457) * Real.log (1/100)) ≤ 1/100 := by
      rw [← Real.le_log_iff_exp_le (by norm_num)]
      have : Real.log (1/100) < 0 := Real.log_neg (by norm_num) (by norm_num)
      nlinarith
    have h2 := Real.exp_pos ((2.35-0.457)/(2*0.457) * Real.log (1/100))
    nlinarith
  have hloop : ∃ r, deuteronLoop (0.457:ℝ) 2.35 1 (⟨Tape.const (1/100) (by norm_num), ()⟩ : Rand Tape Unit) = .ok r :=
    ⟨_, (C17_rejection_loop (E := Tape) (D := Unit) 0.457 2.35 _ 1 _ _).mpr ⟨0, by omega, by simp, hacc, rfl, rfl⟩⟩
  obtain ⟨⟨r, w1⟩, hr⟩ := hloop
  have hk : (mkDeuteron (lit 0.457) (lit 2.35) : Nucleus ℝ) = Nucleus.ofKind (.deuteron 0.457 2.35) 2 := by
    unfold mkDeuteron
    simp only [fmin_real, fmax_real, lit_real]
    norm_num
  rw [hk]
  unfold Nucleus.sampleNucleons
  simp only [Nucleus.ofKind, sampleDeuteron, hr, List.replicate]
  exact ⟨_, _, rfl⟩

end
end Trento
