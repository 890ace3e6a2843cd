import Mathlib.Analysis.Real.Pi.Bounds
import Mathlib.Analysis.SpecialFunctions.Gaussian.PoissonSummation
import Mathlib.NumberTheory.ModularForms.JacobiTheta.OneVariable
import Mathlib.Analysis.Complex.ExponentialBounds

/-!
# Sums of a Gaussian over an equidistant lattice (Poisson summation)
-/

namespace Trento.LatticeGauss
open Real

theorem summable_shift {t : ℝ} (ht : 0 < t) (s : ℝ) :
    Summable fun n : ℤ => Real.exp (-π / t * ((n:ℝ) - s)^2) := by
  have him : 0 < (Complex.I * ((1/t : ℝ) : ℂ)).im := by
    rw [Complex.I_mul_im, Complex.ofReal_re]; positivity
  have h := ((hasSum_jacobiTheta₂_term (-Complex.I * ((s/t : ℝ) : ℂ)) him).summable.norm).mul_left
    (Real.exp (-π / t * s^2))
  refine h.congr fun n => ?_
  unfold jacobiTheta₂_term
  rw [Complex.norm_exp, ← Real.exp_add]
  congr 1
  have e : (2 * (π:ℂ) * Complex.I * n * (-Complex.I * ((s/t : ℝ) : ℂ)) +
      π * Complex.I * n^2 * (Complex.I * ((1/t : ℝ) : ℂ))) = ((2 * π * n * (s/t) - π * n^2 * (1/t) : ℝ) : ℂ) := by
    push_cast
    have : Complex.I * Complex.I = -1 := Complex.I_mul_I
    linear_combination (-2 * (π:ℂ) * n * (s/t) + π * n^2 * (1/t)) * this
  rw [e, Complex.ofReal_re]
  field_simp
  ring

/-- Poisson summation with an explicit error: the lattice sum of a Gaussian differs from its integral by at most the
first theta correction. -/
theorem lattice_error {t : ℝ} (ht : 0 < t) (s : ℝ) :
    |(1 / Real.sqrt t) * (∑' n : ℤ, Real.exp (-π / t * ((n:ℝ) - s)^2)) - 1| ≤
      2 / (1 - Real.exp (-π * t)) * Real.exp (-π * t) := by
  have hre : 0 < ((t:ℝ):ℂ).re := by simpa using ht
  have hP := Complex.tsum_exp_neg_quadratic hre (Complex.I * (s:ℂ))
  have him : 0 < (Complex.I * (t : ℂ)).im := by
    rw [Complex.I_mul_im, Complex.ofReal_re]; exact ht
  -- the right side is the real lattice sum
  have hR : (∑' n : ℤ, Complex.exp (-π / (t:ℂ) * (n + Complex.I * (Complex.I * (s:ℂ)))^2)) =
      ((∑' n : ℤ, Real.exp (-π / t * ((n:ℝ) - s)^2) : ℝ) : ℂ) := by
    rw [Complex.ofReal_tsum]
    refine tsum_congr fun n => ?_
    rw [Complex.ofReal_exp]
    congr 1
    push_cast
    rw [← mul_assoc, Complex.I_mul_I]
    ring
  have hS : (1 / (t:ℂ) ^ (1/2 : ℂ)) = ((1 / Real.sqrt t : ℝ) : ℂ) := by
    rw [Real.sqrt_eq_rpow]
    push_cast
    rw [Complex.ofReal_cpow ht.le]
    norm_num
  rw [hR, hS, ← Complex.ofReal_mul] at hP
  -- the left side minus its central term
  set f : ℤ → ℂ := fun n => Complex.exp (-π * (t:ℂ) * n^2 + 2 * π * (Complex.I * (s:ℂ)) * n) with hf
  have hn : ∀ n : ℤ, ‖f n‖ = Real.exp (-π * t * (n:ℝ)^2) := by
    intro n
    rw [hf, Complex.norm_exp]
    congr 1
    have e : (-π * (t:ℂ) * n^2 + 2 * π * (Complex.I * (s:ℂ)) * n) =
        ((-π * t * (n:ℝ)^2 : ℝ) : ℂ) + ((2 * π * s * n : ℝ) : ℂ) * Complex.I := by
      push_cast; ring
    rw [e, Complex.add_re, Complex.re_ofReal_mul, Complex.I_re, Complex.ofReal_re]
    ring
  have hj := hasSum_jacobiTheta₂_term 0 him
  have hjt : ∀ n : ℤ, jacobiTheta₂_term n 0 (Complex.I * (t:ℂ)) = ((Real.exp (-π * t * (n:ℝ)^2) : ℝ) : ℂ) := by
    intro n
    unfold jacobiTheta₂_term
    rw [Complex.ofReal_exp]
    congr 1
    push_cast
    have : Complex.I * Complex.I = -1 := Complex.I_mul_I
    linear_combination (π * (n:ℂ)^2 * t) * this
  have hj' : HasSum (fun n : ℤ => ((Real.exp (-π * t * (n:ℝ)^2) : ℝ) : ℂ)) (jacobiTheta (Complex.I * t)) := by
    rw [jacobiTheta_eq_jacobiTheta₂]
    convert hj using 2
    rename_i n
    exact (hjt n).symm
  have hsr : Summable fun n : ℤ => Real.exp (-π * t * (n:ℝ)^2) := by
    have := hj'.summable
    exact_mod_cast this
  have hval : jacobiTheta (Complex.I * t) = ((∑' n : ℤ, Real.exp (-π * t * (n:ℝ)^2) : ℝ) : ℂ) := by
    rw [Complex.ofReal_tsum]; exact hj'.tsum_eq.symm
  have hsf : Summable f := Summable.of_norm (by simpa only [hn] using hsr)
  have h0 : f 0 = 1 := by simp [hf]
  have e0 : Real.exp (-π * t * ((0:ℤ):ℝ)^2) = 1 := by simp
  have hsplit := hsf.tsum_eq_add_tsum_ite 0
  have hsplit2 := hsr.tsum_eq_add_tsum_ite 0
  rw [h0] at hsplit
  rw [e0] at hsplit2
  have hbound : ‖(∑' n, f n) - 1‖ ≤ ‖jacobiTheta (Complex.I * t) - 1‖ := by
    rw [hsplit, add_sub_cancel_left, hval, hsplit2]
    push_cast
    rw [add_sub_cancel_left]
    have hs2 : Summable fun n : ℤ => if n = 0 then (0:ℝ) else Real.exp (-π * t * (n:ℝ)^2) := by
      refine Summable.of_nonneg_of_le (fun n => ?_) (fun n => ?_) hsr
      · split
        · exact le_rfl
        · exact (Real.exp_pos _).le
      · split
        · exact (Real.exp_pos _).le
        · exact le_rfl
    have hle : ‖∑' n : ℤ, (if n = 0 then (0:ℂ) else f n)‖ ≤
        ∑' n : ℤ, (if n = 0 then (0:ℝ) else Real.exp (-π * t * (n:ℝ)^2)) := by
      refine tsum_of_norm_bounded hs2.hasSum fun n => ?_
      split
      · simp
      · exact (hn n).le
    refine hle.trans ?_
    rw [← Complex.ofReal_tsum, Complex.norm_real]
    exact Real.le_norm_self _
  have hfin := hbound.trans (norm_jacobiTheta_sub_one_le him)
  rw [hP, ← Complex.ofReal_one, ← Complex.ofReal_sub, Complex.norm_real, Real.norm_eq_abs, Complex.I_mul_im,
    Complex.ofReal_re] at hfin
  exact hfin

/-- For a lattice step not above the width, the error is below `1e-8`. -/
theorem lattice_error_small {t : ℝ} (ht : 2 * π ≤ t) (s : ℝ) :
    |(1 / Real.sqrt t) * (∑' n : ℤ, Real.exp (-π / t * ((n:ℝ) - s)^2)) - 1| ≤ 1e-8 := by
  have hpi := Real.pi_gt_d4
  have ht0 : 0 < t := by linarith
  refine (lattice_error ht0 s).trans ?_
  have h1 : Real.exp (-π * t) ≤ 4e-9 := by
    have h2 : -π * t ≤ -(19.6) := by nlinarith
    have h3 : Real.exp (-π * t) ≤ Real.exp (-(19.6)) := Real.exp_le_exp.mpr h2
    have h4 : Real.exp (-(19.6:ℝ)) = (Real.exp (-1))^19 * Real.exp (-(0.6)) := by
      rw [← Real.exp_nat_mul, ← Real.exp_add]; congr 1; norm_num
    have h5 : Real.exp (-1) < 0.3678794412 := Real.exp_neg_one_lt_d9.trans_le (by norm_num)
    have h6 : Real.exp (-(0.6:ℝ)) ≤ 0.66 := by
      have := Real.add_one_le_exp (0.6:ℝ)
      rw [Real.exp_neg]
      rw [inv_le_comm₀ (Real.exp_pos _) (by norm_num)]
      refine le_trans ?_ this
      norm_num
    have h7 : (Real.exp (-1))^19 ≤ 0.3678794412^19 := by gcongr
    have : (Real.exp (-1))^19 * Real.exp (-(0.6)) ≤ 0.3678794412^19 * 0.66 := by gcongr
    rw [← h4] at this
    refine h3.trans (this.trans ?_)
    norm_num
  have hp := Real.exp_pos (-π * t)
  generalize Real.exp (-π * t) = q at h1 hp
  have : 2 / (1 - q) ≤ 2.1 := by
    rw [div_le_iff₀ (by linarith)]; linarith
  nlinarith

/-- A Gaussian of width `v` centred at `a`, without its prefactor. -/
noncomputable def bell (v a x : ℝ) : ℝ := Real.exp (-(x - a)^2 / (2 * v^2))

theorem bell_nonneg (v a x : ℝ) : 0 ≤ bell v a x := (Real.exp_pos _).le

/-- Centre of cell `i` of a grid with step `h` whose left edge is at `-X`. -/
noncomputable def node (h X : ℝ) (i : ℤ) : ℝ := ((i:ℝ) + 1/2) * h - X

theorem bell_node {h v : ℝ} (hh : 0 < h) (hv : 0 < v) (X a : ℝ) (i : ℤ) :
    bell v a (node h X i) = Real.exp (-π / (2 * π * v^2 / h^2) * ((i:ℝ) - ((X + a) / h - 1/2))^2) := by
  have := Real.pi_pos
  unfold bell node
  congr 1
  field_simp
  ring

theorem summable_bell {h v : ℝ} (hh : 0 < h) (hv : 0 < v) (X a : ℝ) :
    Summable fun i : ℤ => bell v a (node h X i) := by
  have := Real.pi_pos
  simp only [bell_node hh hv]
  exact summable_shift (by positivity) _

theorem lattice_bell {h v : ℝ} (hh : 0 < h) (hhv : h ≤ v) (X a : ℝ) :
    |h / (v * Real.sqrt (2 * π)) * (∑' i : ℤ, bell v a (node h X i)) - 1| ≤ 1e-8 := by
  have hpi := Real.pi_pos
  have hv : 0 < v := by linarith
  simp only [bell_node hh hv]
  have h1 : h / (v * Real.sqrt (2 * π)) = 1 / Real.sqrt (2 * π * v^2 / h^2) := by
    rw [show 2 * π * v^2 / h^2 = 2 * π * (v / h)^2 by ring,
      Real.sqrt_mul (show (0:ℝ) ≤ 2 * π by positivity) ((v / h)^2), Real.sqrt_sq (show 0 ≤ v / h by positivity)]
    field_simp
  rw [h1]
  apply lattice_error_small
  rw [le_div_iff₀ (by positivity)]
  have : h^2 ≤ v^2 := by gcongr
  nlinarith

/-- The cell indices of a grid with `n` cells, as integers. -/
def cells (n : ℕ) : Finset ℤ := (Finset.univ : Finset (Fin n)).image fun i => (i.val : ℤ)

theorem mem_cells {n : ℕ} {i : ℤ} : i ∈ cells n ↔ 0 ≤ i ∧ i < n := by
  simp only [cells, Finset.mem_image, Finset.mem_univ, true_and]
  constructor
  · rintro ⟨j, rfl⟩; have := j.isLt; omega
  · rintro ⟨h0, h1⟩
    exact ⟨⟨i.toNat, by omega⟩, by dsimp only; omega⟩

theorem sum_cells {n : ℕ} (f : ℤ → ℝ) : ∑ i ∈ cells n, f i = ∑ i : Fin n, f i.val := by
  rw [cells, Finset.sum_image]
  intro i _ j _ hij
  exact Fin.ext (by simpa using hij)

/-- The grid sum of a Gaussian, normalised to its integral. -/
noncomputable def mass (h X v a : ℝ) (n : ℕ) : ℝ :=
  h / (v * Real.sqrt (2 * π)) * ∑ i : Fin n, bell v a (node h X i.val)

theorem mass_nonneg {h v : ℝ} (hh : 0 < h) (hv : 0 < v) (X a : ℝ) (n : ℕ) : 0 ≤ mass h X v a n := by
  unfold mass
  have := Real.pi_pos
  have : 0 ≤ ∑ i : Fin n, bell v a (node h X i.val) := Finset.sum_nonneg fun i _ => bell_nonneg _ _ _
  positivity

theorem mass_le {h v : ℝ} (hh : 0 < h) (hhv : h ≤ v) (X a : ℝ) (n : ℕ) : mass h X v a n ≤ 1 + 1e-8 := by
  have hpi := Real.pi_pos
  have hv : 0 < v := by linarith
  have h1 := (abs_le.mp (lattice_bell hh hhv X a)).2
  have h2 := (summable_bell hh hv X a).sum_le_tsum (cells n) fun i _ => bell_nonneg _ _ _
  rw [sum_cells (fun i => bell v a (node h X i))] at h2
  have h3 : 0 ≤ h / (v * Real.sqrt (2 * π)) := by positivity
  have := mul_le_mul_of_nonneg_left h2 h3
  unfold mass
  linarith

/-- Width of the comparison Gaussian: `0.08` of the exponent is kept. -/
noncomputable def wide (v : ℝ) : ℝ := v / Real.sqrt 0.08

theorem wide_ge {v : ℝ} (hv : 0 < v) : v ≤ wide v := by
  unfold wide
  have h0 : 0 < Real.sqrt 0.08 := Real.sqrt_pos.mpr (by norm_num)
  rw [le_div_iff₀ h0]
  have : Real.sqrt 0.08 ≤ 1 := Real.sqrt_le_one.mpr (by norm_num)
  nlinarith

theorem wide_sq (v : ℝ) : (wide v)^2 = v^2 / 0.08 := by
  unfold wide; rw [div_pow, Real.sq_sqrt (by norm_num)]

theorem wide_le {v : ℝ} (hv : 0 < v) : wide v ≤ 3.5356 * v := by
  have h := wide_sq v
  have h1 : (wide v)^2 ≤ (3.5356 * v)^2 := by
    rw [h, div_le_iff₀ (by norm_num)]; nlinarith [sq_nonneg v]
  exact le_of_sq_le_sq h1 (by positivity)

theorem exp_bound : Real.exp (-(11.5:ℝ)) ≤ 1.03e-5 := by
  have h4 : Real.exp (-(11.5:ℝ)) = (Real.exp (-1))^11 * Real.exp (-(0.5)) := by
    rw [← Real.exp_nat_mul, ← Real.exp_add]; congr 1; norm_num
  have h5 : Real.exp (-1) < 0.3678794412 := Real.exp_neg_one_lt_d9.trans_le (by norm_num)
  have h6 : Real.exp (-(0.5:ℝ)) ≤ 0.6154 := by
    have := Real.quadratic_le_exp_of_nonneg (x := 0.5) (by norm_num)
    rw [Real.exp_neg, inv_le_comm₀ (Real.exp_pos _) (by norm_num)]
    refine le_trans ?_ this
    norm_num
  have h7 : (Real.exp (-1))^11 ≤ 0.3678794412^11 := by gcongr
  rw [h4]
  calc (Real.exp (-1))^11 * Real.exp (-(0.5)) ≤ 0.3678794412^11 * 0.6154 := by gcongr
    _ ≤ 1.03e-5 := by norm_num

/-- Five widths from the centre a Gaussian is far below the wide comparison Gaussian. -/
theorem far_exp {u : ℝ} (hu : 12.5 ≤ u) : Real.exp (-u) ≤ 1.03e-5 * Real.exp (-(0.08 * u)) := by
  have : Real.exp (-u) = Real.exp (-(0.92 * u)) * Real.exp (-(0.08 * u)) := by
    rw [← Real.exp_add]; congr 1; ring
  rw [this]
  have h1 : Real.exp (-(0.92 * u)) ≤ Real.exp (-(11.5)) := Real.exp_le_exp.mpr (by linarith)
  have := h1.trans exp_bound
  gcongr

theorem bell_wide {v : ℝ} (hv : 0 < v) (a x : ℝ) :
    bell (wide v) a x = Real.exp (-(0.08 * ((x - a)^2 / (2 * v^2)))) := by
  unfold bell; rw [wide_sq]; congr 1; field_simp

theorem bell_far {v : ℝ} (hv : 0 < v) {a x : ℝ} (hf : 5 * v ≤ |x - a|) : bell v a x ≤ 1.03e-5 * bell (wide v) a x := by
  rw [bell_wide hv]
  unfold bell
  rw [show -(x - a)^2 / (2 * v^2) = -((x - a)^2 / (2 * v^2)) by ring]
  apply far_exp
  rw [le_div_iff₀ (by positivity), ← sq_abs (x - a)]
  have : (5 * v)^2 ≤ |x - a|^2 := by gcongr
  nlinarith

/-- Normalising the comparison Gaussian. -/
theorem wide_tsum {h v : ℝ} (hh : 0 < h) (hhv : h ≤ v) (X a : ℝ) :
    h / (v * Real.sqrt (2 * π)) * (∑' i : ℤ, bell (wide v) a (node h X i)) ≤ 3.5357 := by
  have hpi := Real.pi_pos
  have hv : 0 < v := by linarith
  have hw := wide_ge hv
  have h1 := (abs_le.mp (lattice_bell hh (hhv.trans hw) X a)).2
  have hw0 : 0 < wide v := by linarith
  have e : h / (v * Real.sqrt (2 * π)) = wide v / v * (h / (wide v * Real.sqrt (2 * π))) := by field_simp
  rw [e, mul_assoc]
  have h2 : wide v / v ≤ 3.5356 := by rw [div_le_iff₀ hv]; exact wide_le hv
  have h3 : 0 ≤ wide v / v := by positivity
  generalize h / (wide v * Real.sqrt (2 * π)) * (∑' i : ℤ, bell (wide v) a (node h X i)) = q at h1 ⊢
  nlinarith

theorem wide_mass_le {h v : ℝ} (hh : 0 < h) (hhv : h ≤ v) (X a : ℝ) (n : ℕ) :
    h / (v * Real.sqrt (2 * π)) * (∑ i : Fin n, bell (wide v) a (node h X i.val)) ≤ 3.5357 := by
  have hpi := Real.pi_pos
  have hv : 0 < v := by linarith
  have hw0 : 0 < wide v := lt_of_lt_of_le hv (wide_ge hv)
  have h2 := (summable_bell hh hw0 X a).sum_le_tsum (cells n) fun i _ => bell_nonneg _ _ _
  rw [sum_cells (fun i => bell (wide v) a (node h X i))] at h2
  have h3 : 0 ≤ h / (v * Real.sqrt (2 * π)) := by positivity
  exact (mul_le_mul_of_nonneg_left h2 h3).trans (wide_tsum hh hhv X a)

/-- A Gaussian at least five widths inside the grid keeps its integral. -/
theorem mass_ge {h v : ℝ} (hh : 0 < h) (hhv : h ≤ v) {X a : ℝ} {n : ℕ} (hX : 2 * X = n * h) (ha : |a| + 5 * v ≤ X) :
    1 - 3.7e-5 ≤ mass h X v a n := by
  have hpi := Real.pi_pos
  have hv : 0 < v := by linarith
  have h1 := (abs_le.mp (lattice_bell hh hhv X a)).1
  have hw0 : 0 < wide v := lt_of_lt_of_le hv (wide_ge hv)
  have hs := summable_bell hh hv X a
  have hsw := (summable_bell hh hw0 X a).mul_left 1.03e-5
  have hsplit := hs.sum_add_tsum_compl (s := cells n)
  have hsplitw := hsw.sum_add_tsum_compl (s := cells n)
  have hle : ∑' i : ↑((cells n : Set ℤ)ᶜ), bell v a (node h X i) ≤
      ∑' i : ↑((cells n : Set ℤ)ᶜ), 1.03e-5 * bell (wide v) a (node h X i) := by
    refine Summable.tsum_le_tsum (fun i => ?_) (hs.subtype _) (hsw.subtype _)
    apply bell_far hv
    have hi := i.2
    simp only [Set.mem_compl_iff, Finset.mem_coe, mem_cells, not_and, not_lt] at hi
    have ha' := abs_le.mp (le_of_add_le_of_nonneg_left ha (by positivity))
    have h3 := neg_abs_le a
    have h4 := le_abs_self a
    unfold node
    by_cases h0 : 0 ≤ i.1
    · have h5 : (n:ℝ) ≤ i.1 := by exact_mod_cast hi h0
      refine le_trans ?_ (le_abs_self _)
      nlinarith
    · have h5 : (i.1:ℝ) + 1 ≤ 0 := by exact_mod_cast (by omega : i.1 + 1 ≤ 0)
      refine le_trans ?_ (neg_le_abs _)
      nlinarith
  have hle2 : ∑' i : ↑((cells n : Set ℤ)ᶜ), 1.03e-5 * bell (wide v) a (node h X i) ≤
      1.03e-5 * ∑' i : ℤ, bell (wide v) a (node h X i) := by
    rw [← tsum_mul_left, ← hsplitw]
    have : 0 ≤ ∑ i ∈ cells n, 1.03e-5 * bell (wide v) a (node h X i) :=
      Finset.sum_nonneg fun i _ => mul_nonneg (by norm_num) (bell_nonneg _ _ _)
    linarith
  have h6 := wide_tsum hh hhv X a
  rw [sum_cells (fun i => bell v a (node h X i))] at hsplit
  have h7 : 0 ≤ h / (v * Real.sqrt (2 * π)) := by positivity
  unfold mass
  rw [← hsplit] at h1
  have h8 := mul_le_mul_of_nonneg_left (hle.trans hle2) h7
  nlinarith

/-- Grid sum of a Gaussian cut off at five widths, normalised to the integral of the uncut Gaussian. -/
noncomputable def disc (h X v a b : ℝ) (n : ℕ) : ℝ :=
  h^2 / (2 * π * v^2) * ∑ iy : Fin n, ∑ ix : Fin n,
    if (node h X ix.val - a)^2 + (node h X iy.val - b)^2 < (5 * v)^2 then
      Real.exp (-((node h X ix.val - a)^2 + (node h X iy.val - b)^2) / (2 * v^2)) else 0

theorem bell_mul (v a b x y : ℝ) : bell v a x * bell v b y = Real.exp (-((x - a)^2 + (y - b)^2) / (2 * v^2)) := by
  unfold bell; rw [← Real.exp_add]; congr 1; ring

theorem prefactor_sq {h v : ℝ} (hv : 0 < v) :
    h^2 / (2 * π * v^2) = (h / (v * Real.sqrt (2 * π))) * (h / (v * Real.sqrt (2 * π))) := by
  have hpi := Real.pi_pos
  have : Real.sqrt (2 * π) * Real.sqrt (2 * π) = 2 * π := Real.mul_self_sqrt (by positivity)
  have hs : 0 < Real.sqrt (2 * π) := Real.sqrt_pos.mpr (by positivity)
  rw [div_mul_div_comm, show v * Real.sqrt (2 * π) * (v * Real.sqrt (2 * π)) =
    (Real.sqrt (2 * π) * Real.sqrt (2 * π)) * v^2 by ring, this, pow_two h]

theorem double_sum {n : ℕ} (f g : Fin n → ℝ) (c : ℝ) :
    c * c * ∑ iy, ∑ ix, f ix * g iy = (c * ∑ ix, f ix) * (c * ∑ iy, g iy) := by
  have : ∑ iy, ∑ ix, f ix * g iy = (∑ ix, f ix) * ∑ iy, g iy := by
    rw [Finset.mul_sum]
    exact Finset.sum_congr rfl fun iy _ => by rw [Finset.sum_mul]
  rw [this]; ring

theorem disc_le {h v : ℝ} (hh : 0 < h) (hhv : h ≤ v) (X a b : ℝ) (n : ℕ) : disc h X v a b n ≤ 1 + 2.1e-8 := by
  have hpi := Real.pi_pos
  have hv : 0 < v := by linarith
  have h1 : disc h X v a b n ≤ mass h X v a n * mass h X v b n := by
    unfold disc mass
    rw [← double_sum (fun i => bell v a (node h X i.val)) (fun i => bell v b (node h X i.val)), prefactor_sq hv]
    have : 0 ≤ (h / (v * Real.sqrt (2 * π))) := by positivity
    refine mul_le_mul_of_nonneg_left ?_ (by positivity)
    refine Finset.sum_le_sum fun iy _ => Finset.sum_le_sum fun ix _ => ?_
    rw [bell_mul]
    split
    · exact le_rfl
    · exact (Real.exp_pos _).le
  have h2 := mass_le hh hhv X a n
  have h3 := mass_le hh hhv X b n
  have h4 := mass_nonneg hh hv X a n
  have h5 := mass_nonneg hh hv X b n
  have : mass h X v a n * mass h X v b n ≤ (1 + 1e-8) * (1 + 1e-8) := by gcongr
  linarith

theorem disc_ge {h v : ℝ} (hh : 0 < h) (hhv : h ≤ v) {X a b : ℝ} {n : ℕ} (hX : 2 * X = n * h)
    (ha : |a| + 5 * v ≤ X) (hb : |b| + 5 * v ≤ X) : 1 - 2.1e-4 ≤ disc h X v a b n := by
  have hpi := Real.pi_pos
  have hv : 0 < v := by linarith
  set c := h / (v * Real.sqrt (2 * π)) with hc
  have hc0 : 0 ≤ c := by positivity
  have h1 : mass h X v a n * mass h X v b n - 1.03e-5 *
      ((c * ∑ i : Fin n, bell (wide v) a (node h X i.val)) * (c * ∑ i : Fin n, bell (wide v) b (node h X i.val))) ≤
      disc h X v a b n := by
    unfold disc mass
    rw [← double_sum (fun i => bell v a (node h X i.val)) (fun i => bell v b (node h X i.val)), prefactor_sq hv,
      ← double_sum (fun i => bell (wide v) a (node h X i.val)) (fun i => bell (wide v) b (node h X i.val)), ← hc,
      mul_left_comm, ← mul_sub, Finset.mul_sum, ← Finset.sum_sub_distrib]
    refine mul_le_mul_of_nonneg_left ?_ (by positivity)
    refine Finset.sum_le_sum fun iy _ => ?_
    rw [Finset.mul_sum, ← Finset.sum_sub_distrib]
    refine Finset.sum_le_sum fun ix _ => ?_
    rw [bell_mul]
    have hw : 0 ≤ bell (wide v) a (node h X ix.val) * bell (wide v) b (node h X iy.val) :=
      mul_nonneg (bell_nonneg _ _ _) (bell_nonneg _ _ _)
    split
    · linarith
    · rename_i hfar
      rw [sub_nonpos, bell_wide hv, bell_wide hv, ← Real.exp_add]
      set r := (node h X ix.val - a)^2 + (node h X iy.val - b)^2 with hr
      rw [show -r / (2 * v^2) = -(r / (2 * v^2)) by ring]
      have h12 : 12.5 ≤ r / (2 * v^2) := by
        rw [le_div_iff₀ (by positivity)]
        have := not_lt.mp hfar
        nlinarith
      refine (far_exp h12).trans (le_of_eq ?_)
      congr 2
      rw [hr]; ring
  have h2 := mass_ge hh hhv hX ha
  have h3 := mass_ge hh hhv hX hb
  have h4 := wide_mass_le hh hhv X a n
  have h5 := wide_mass_le hh hhv X b n
  have h6 : 0 ≤ c * ∑ i : Fin n, bell (wide v) b (node h X i.val) :=
    mul_nonneg hc0 (Finset.sum_nonneg fun i _ => bell_nonneg _ _ _)
  have h7 : (c * ∑ i : Fin n, bell (wide v) a (node h X i.val)) * (c * ∑ i : Fin n, bell (wide v) b (node h X i.val)) ≤
      3.5357 * 3.5357 := by gcongr
  have h8 : (1 - 3.7e-5) * (1 - 3.7e-5) ≤ mass h X v a n * mass h X v b n := by
    gcongr
  linarith

end Trento.LatticeGauss
