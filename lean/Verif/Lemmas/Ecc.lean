import Verif.Lemmas.Event
import Verif.Spec.Event
import Mathlib.Analysis.Complex.Basic

/-! The accumulators of `compute_observables` in terms of complex sums. -/

namespace Trento
open Spec

/-- `re`, `im`, `wt` contributions per cell for a harmonic -/
noncomputable def wterm {n : Nat} (T : Grid ℝ n) (f : Fin n → Fin n → ℝ) (i : Fin n × Fin n) : ℝ :=
  if T i.1 i.2 < 1e-12 then 0 else T i.1 i.2 * f i.1 i.2

/-- The polynomials accumulated per cell, as functions of the relative position. -/
noncomputable def eccPoly (x y : ℝ) : EccAccs ℝ :=
  { e2 := ⟨y^2 - x^2, 2*x*y, x^2+y^2⟩
    e3 := ⟨y^3 - 3*y*x^2, 3*x*y^2 - x^3, (x^2+y^2) * Real.sqrt (x^2+y^2)⟩
    e4 := ⟨x^4 + y^4 - 6*x^2*y^2, 4*x*y*(y^2-x^2), (x^2+y^2)^2⟩
    e5 := ⟨y*(5*x^4 - 10*x^2*y^2 + y^4), x*(x^4 - 10*x^2*y^2 + 5*y^4), (x^2+y^2)^2 * Real.sqrt (x^2+y^2)⟩ }

noncomputable def EccAcc.add (a b : EccAcc ℝ) : EccAcc ℝ := ⟨a.re + b.re, a.im + b.im, a.wt + b.wt⟩
noncomputable def EccAcc.smul (t : ℝ) (b : EccAcc ℝ) : EccAcc ℝ := ⟨t * b.re, t * b.im, t * b.wt⟩
noncomputable def EccAccs.add (a b : EccAccs ℝ) : EccAccs ℝ :=
  ⟨a.e2.add b.e2, a.e3.add b.e3, a.e4.add b.e4, a.e5.add b.e5⟩
noncomputable def EccAccs.smul (t : ℝ) (b : EccAccs ℝ) : EccAccs ℝ :=
  ⟨b.e2.smul t, b.e3.smul t, b.e4.smul t, b.e5.smul t⟩

theorem obsStep_eq {n : Nat} (T : Grid ℝ n) (cx cy : ℝ) (s : EccAccs ℝ) (i : Fin n × Fin n) :
    obsStep T cx cy s i = if T i.1 i.2 < 1e-12 then s
      else s.add (EccAccs.smul (T i.1 i.2) (eccPoly ((i.2.val:ℝ) - cx) ((i.1.val:ℝ) - cy))) := by
  unfold obsStep
  simp only [lt_real, TINY_real, decide_eq_true_eq]
  by_cases h : T i.1 i.2 < 1e-12
  · simp only [if_pos h]
  · simp only [if_neg h]
    simp only [EccAccs.add, EccAcc.add, EccAccs.smul, EccAcc.smul, eccPoly, ofInt_real, lit_real, sqrt_real,
      EccAccs.mk.injEq, EccAcc.mk.injEq]
    push_cast
    have hsq : ∀ a b : ℝ, a * a + b * b = a^2 + b^2 := fun a b => by ring
    simp only [hsq]
    refine ⟨⟨?_, ?_, ?_⟩, ⟨?_, ?_, ?_⟩, ⟨?_, ?_, ?_⟩, ⟨?_, ?_, ?_⟩⟩ <;> first | trivial | ring

/-- projections of the fold: each accumulator is the sum of its per-cell contributions -/
theorem obs_foldl_re {n : Nat} (T : Grid ℝ n) (cx cy : ℝ) (proj : EccAccs ℝ → ℝ)
    (hadd : ∀ a b, proj (a.add b) = proj a + proj b) (hsmul : ∀ t b, proj (EccAccs.smul t b) = t * proj b)
    (l : List (Fin n × Fin n)) (s : EccAccs ℝ) :
    proj (l.foldl (obsStep T cx cy) s) =
      proj s + (l.map (wterm T fun iy ix => proj (eccPoly ((ix.val:ℝ) - cx) ((iy.val:ℝ) - cy)))).sum := by
  induction l generalizing s with
  | nil => simp
  | cons i l ih =>
    rw [List.foldl_cons, ih, obsStep_eq, List.map_cons, List.sum_cons]
    unfold wterm
    by_cases h : T i.1 i.2 < 1e-12
    · simp [h]
    · simp only [if_neg h, hadd, hsmul]; ring

/-- One finished accumulator equals the complex expression. -/
theorem finish_eq {n : Nat} (T : Grid ℝ n) (cx cy : ℝ) (k : ℕ) (proj : EccAccs ℝ → EccAcc ℝ)
    (hadd : ∀ a b, proj (a.add b) = (proj a).add (proj b))
    (hsmul : ∀ t b, proj (EccAccs.smul t b) = (proj b).smul t)
    (hzero : proj EccAccs.zero = ⟨0, 0, 0⟩)
    (hwt : ∀ x y : ℝ, (proj (eccPoly x y)).wt = ‖(⟨x, y⟩ : ℂ)‖^k)
    (c : ℂ) (hc : ‖c‖ = 1)
    (conj : ℂ → ℂ) (hconj : conj = id ∨ conj = starRingEnd ℂ)
    (hre : ∀ x y : ℝ, (⟨(proj (eccPoly x y)).re, (proj (eccPoly x y)).im⟩ : ℂ) = c * conj ((⟨x, y⟩ : ℂ)^k)) :
    (proj ((cells n).foldl (obsStep T cx cy) EccAccs.zero)).finish = eccentricityAbout cx cy T k := by
  have h1 := obs_foldl_re T cx cy (fun a => (proj a).re) (fun a b => by rw [hadd]; rfl)
    (fun t b => by rw [hsmul]; rfl) (cells n) EccAccs.zero
  have h2 := obs_foldl_re T cx cy (fun a => (proj a).im) (fun a b => by rw [hadd]; rfl)
    (fun t b => by rw [hsmul]; rfl) (cells n) EccAccs.zero
  have h3 := obs_foldl_re T cx cy (fun a => (proj a).wt) (fun a b => by rw [hadd]; rfl)
    (fun t b => by rw [hsmul]; rfl) (cells n) EccAccs.zero
  rw [hzero] at h1 h2 h3
  simp only [zero_add, sum_cells] at h1 h2 h3
  unfold EccAcc.finish eccentricityAbout
  rw [h3, TINY_real, fmax_real, sqrt_real]
  congr 1
  · -- numerator
    have hnorm : ∀ a b : ℝ, Real.sqrt (a*a + b*b) = ‖(⟨a, b⟩ : ℂ)‖ := by
      intro a b; rw [Complex.norm_def, Complex.normSq_mk]
    rw [hnorm, h1, h2]
    have hcj : ∀ z, ‖conj z‖ = ‖z‖ := by
      intro z; rcases hconj with rfl | rfl
      · rfl
      · exact Complex.norm_conj z
    have hadd' : ∀ z w, conj (z + w) = conj z + conj w := by
      intro z w; rcases hconj with rfl | rfl
      · rfl
      · exact map_add _ _ _
    have hzero' : conj 0 = 0 := by rcases hconj with rfl | rfl <;> simp
    have hsm : ∀ (t : ℝ) z, conj ((t:ℂ) * z) = t * conj z := by
      intro t z; rcases hconj with rfl | rfl
      · rfl
      · simp
    have hsum : ∀ (f : Fin n → ℂ), conj (∑ i, f i) = ∑ i, conj (f i) := by
      intro f; rcases hconj with rfl | rfl
      · rfl
      · exact map_sum _ _ _
    have key : (⟨∑ iy, ∑ ix, wterm T (fun iy ix => (proj (eccPoly ((ix.val:ℝ) - cx) ((iy.val:ℝ) - cy))).re) (iy, ix),
        ∑ iy, ∑ ix, wterm T (fun iy ix => (proj (eccPoly ((ix.val:ℝ) - cx) ((iy.val:ℝ) - cy))).im) (iy, ix)⟩ : ℂ) =
        c * conj (∑ iy, ∑ ix, if T iy ix < 1e-12 then 0 else (T iy ix : ℂ) * (cellZ cx cy iy ix)^k) := by
      rw [hsum, Finset.mul_sum]
      apply Complex.ext
      · simp only [Complex.re_sum]
        apply Finset.sum_congr rfl; intro iy _
        rw [hsum, Finset.mul_sum, Complex.re_sum]
        apply Finset.sum_congr rfl; intro ix _
        unfold wterm
        by_cases h : T iy ix < 1e-12
        · simp [h, hzero']
        · simp only [if_neg h]
          rw [hsm, mul_left_comm]
          have := hre ((ix.val:ℝ) - cx) ((iy.val:ℝ) - cy)
          unfold cellZ
          rw [← this]
          simp
      · simp only [Complex.im_sum]
        apply Finset.sum_congr rfl; intro iy _
        rw [hsum, Finset.mul_sum, Complex.im_sum]
        apply Finset.sum_congr rfl; intro ix _
        unfold wterm
        by_cases h : T iy ix < 1e-12
        · simp [h, hzero']
        · simp only [if_neg h]
          rw [hsm, mul_left_comm]
          have := hre ((ix.val:ℝ) - cx) ((iy.val:ℝ) - cy)
          unfold cellZ
          rw [← this]
          simp
    rw [key, norm_mul, hc, one_mul, hcj]
  · -- weight
    congr 1
    apply Finset.sum_congr rfl; intro iy _
    apply Finset.sum_congr rfl; intro ix _
    unfold wterm
    simp only [hwt]
    rfl

theorem norm_mk_sq (x y : ℝ) : ‖(⟨x, y⟩ : ℂ)‖^2 = x^2 + y^2 := by
  rw [Complex.sq_norm, Complex.normSq_mk]; ring

theorem norm_mk (x y : ℝ) : ‖(⟨x, y⟩ : ℂ)‖ = Real.sqrt (x^2 + y^2) := by
  rw [← norm_mk_sq, Real.sqrt_sq (norm_nonneg _)]

theorem finish2 {n : Nat} (T : Grid ℝ n) (cx cy : ℝ) :
    ((cells n).foldl (obsStep T cx cy) EccAccs.zero).e2.finish = eccentricityAbout cx cy T 2 := by
  apply finish_eq T cx cy 2 (·.e2) (fun _ _ => rfl) (fun _ _ => rfl) (by simp [EccAccs.zero])
    (fun x y => by rw [norm_mk_sq]; rfl) (-1) (by simp) (starRingEnd ℂ) (.inr rfl)
  intro x y
  apply Complex.ext <;> simp [eccPoly, pow_two] <;> ring

theorem finish3 {n : Nat} (T : Grid ℝ n) (cx cy : ℝ) :
    ((cells n).foldl (obsStep T cx cy) EccAccs.zero).e3.finish = eccentricityAbout cx cy T 3 := by
  apply finish_eq T cx cy 3 (·.e3) (fun _ _ => rfl) (fun _ _ => rfl) (by simp [EccAccs.zero])
    (fun x y => by rw [pow_succ, norm_mk_sq, norm_mk]; rfl) (-Complex.I) (by simp) (starRingEnd ℂ) (.inr rfl)
  intro x y
  apply Complex.ext <;> simp [eccPoly, pow_succ] <;> ring

theorem finish4 {n : Nat} (T : Grid ℝ n) (cx cy : ℝ) :
    ((cells n).foldl (obsStep T cx cy) EccAccs.zero).e4.finish = eccentricityAbout cx cy T 4 := by
  apply finish_eq T cx cy 4 (·.e4) (fun _ _ => rfl) (fun _ _ => rfl) (by simp [EccAccs.zero])
    (fun x y => by rw [show 4 = 2*2 by rfl, pow_mul, norm_mk_sq]; rfl) 1 (by simp) (starRingEnd ℂ) (.inr rfl)
  intro x y
  apply Complex.ext <;> simp [eccPoly, pow_succ] <;> ring

theorem finish5 {n : Nat} (T : Grid ℝ n) (cx cy : ℝ) :
    ((cells n).foldl (obsStep T cx cy) EccAccs.zero).e5.finish = eccentricityAbout cx cy T 5 := by
  apply finish_eq T cx cy 5 (·.e5) (fun _ _ => rfl) (fun _ _ => rfl) (by simp [EccAccs.zero])
    (fun x y => by rw [pow_succ, show 4 = 2*2 by rfl, pow_mul, norm_mk_sq, norm_mk]; rfl) (Complex.I) (by simp)
    (starRingEnd ℂ) (.inr rfl)
  intro x y
  apply Complex.ext <;> simp [eccPoly, pow_succ] <;> ring

end Trento
