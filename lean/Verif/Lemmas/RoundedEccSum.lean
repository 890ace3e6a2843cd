import Verif.Lemmas.RoundedEcc

/-! Eccentricities accumulated in rounded arithmetic against the exact formula. -/

namespace Trento

/-- Eccentricity harmonic `k` about `(cx, cy)` with threshold `τ`: `|Σ t z^k| / max(Σ t |z|^k, τ)`, sums over the cells with
`t ≥ τ`.  The documented formula is the case `τ = 1e-12`. -/
noncomputable def Spec.eccentricityCut {n : ℕ} (τ cx cy : ℝ) (T : Fin n → Fin n → ℝ) (k : ℕ) : ℝ :=
  ‖∑ iy, ∑ ix, if T iy ix < τ then 0 else (T iy ix : ℂ) * (Spec.cellZ cx cy iy ix)^k‖ /
    max (∑ iy, ∑ ix, if T iy ix < τ then 0 else T iy ix * ‖Spec.cellZ cx cy iy ix‖^k) τ

theorem Spec.eccentricityCut_documented {n : ℕ} (cx cy : ℝ) (T : Fin n → Fin n → ℝ) (k : ℕ) :
    Spec.eccentricityCut 1e-12 cx cy T k = Spec.eccentricityAbout cx cy T k := rfl

open Spec
variable {M : Machine}

/-- The contributions of one cell to one harmonic are accurate. -/
structure StepNear (M : Machine) (proj : EccAccs (Fl M) → EccAcc (Fl M)) (polyp : EccAccs ℝ → EccAcc ℝ) (k n : ℕ) (TR : Grid (Fl M) n) (cx cy : Fl M)
    (s : EccAccs (Fl M)) (i : Fin n × Fin n) : Prop where
  re : ∃ a, Near ((TR i.1 i.2).val * ‖cellZ cx.val cy.val i.1 i.2‖ ^ k) 1.1e-13 1e-38 a
      ((TR i.1 i.2).val * (polyp (eccPoly ((i.2.val:ℝ) - cx.val) ((i.1.val:ℝ) - cy.val))).re) ∧
      (proj (obsStep TR cx cy s i)).re.val = M.fl ((proj s).re.val + a)
  im : ∃ a, Near ((TR i.1 i.2).val * ‖cellZ cx.val cy.val i.1 i.2‖ ^ k) 1.1e-13 1e-38 a
      ((TR i.1 i.2).val * (polyp (eccPoly ((i.2.val:ℝ) - cx.val) ((i.1.val:ℝ) - cy.val))).im) ∧
      (proj (obsStep TR cx cy s i)).im.val = M.fl ((proj s).im.val + a)
  wt : ∃ a, Near ((TR i.1 i.2).val * ‖cellZ cx.val cy.val i.1 i.2‖ ^ k) 1.1e-13 1e-38 a
      ((TR i.1 i.2).val * ‖cellZ cx.val cy.val i.1 i.2‖ ^ k) ∧
      (proj (obsStep TR cx cy s i)).wt.val = M.fl ((proj s).wt.val + a)

theorem lit_nat (k : ℕ) (hk : k < 100) : M.fl ((k:ℚ):ℝ) = k := by
  have := M.exact_int (k:ℤ) (by rw [abs_of_nonneg (by positivity)]; have : (k:ℤ) < 100 := by exact_mod_cast hk
                                linarith [show (100:ℤ) ≤ 2^53 by norm_num])
  simpa using this

theorem near_relax {W δ a x : ℝ} {ε : ℝ} (h : Near W ε δ a x) (h1 : ε ≤ 1.1e-13) (h2 : δ ≤ 1e-38) : Near W 1.1e-13 1e-38 a x := h.mono h1 h2

theorem ofInt_idx {n : ℕ} (hn : n ≤ 10000) (i : Fin n) : (ofInt (i.val : ℤ) : Fl M).val = (i.val : ℝ) := by
  have h := M.ofInt_exact (i.val : ℤ) (by
    rw [abs_of_nonneg (by positivity)]
    have : (i.val : ℤ) < 10000 := by have := i.isLt; omega
    linarith [show (10000:ℤ) ≤ 2^53 by norm_num])
  rw [h]; simp

section step
variable {n : ℕ} (hn : n ≤ 10000) (TR : Grid (Fl M) n) (cx cy : Fl M) (s : EccAccs (Fl M)) (i : Fin n × Fin n)
    (ht0 : 0 ≤ (TR i.1 i.2).val) (ht : (TR i.1 i.2).val ≤ 1e60) (hc : ‖cellZ cx.val cy.val i.1 i.2‖ ≤ 1e5)
    (hlt : lt (TR i.1 i.2) TINY = false)
include hn ht0 ht hc hlt

theorem obsStep_near : StepNear M (·.e2) (·.e2) 2 n TR cx cy s i ∧ StepNear M (·.e3) (·.e3) 3 n TR cx cy s i ∧
    StepNear M (·.e4) (·.e4) 4 n TR cx cy s i ∧ StepNear M (·.e5) (·.e5) 5 n TR cx cy s i := by
  have hρ : ‖cellZ cx.val cy.val i.1 i.2‖ ^ 2 = ((i.2.val:ℝ) - cx.val) ^ 2 + ((i.1.val:ℝ) - cy.val) ^ 2 := norm_mk_sq _ _
  have c := cell_near (M := M) (norm_nonneg _) hc hρ
  have l2 : M.fl ((2:ℚ):ℝ) = 2 := by exact_mod_cast lit_nat (M := M) 2 (by norm_num)
  have l3 : M.fl ((3:ℚ):ℝ) = 3 := by exact_mod_cast lit_nat (M := M) 3 (by norm_num)
  have l4 : M.fl ((4:ℚ):ℝ) = 4 := by exact_mod_cast lit_nat (M := M) 4 (by norm_num)
  have l5 : M.fl ((5:ℚ):ℝ) = 5 := by exact_mod_cast lit_nat (M := M) 5 (by norm_num)
  have l6 : M.fl ((6:ℚ):ℝ) = 6 := by exact_mod_cast lit_nat (M := M) 6 (by norm_num)
  have l10 : M.fl ((10:ℚ):ℝ) = 10 := by exact_mod_cast lit_nat (M := M) 10 (by norm_num)
  have e1 := ofInt_idx (M := M) hn i.1
  have e2 := ofInt_idx (M := M) hn i.2
  refine ⟨⟨⟨_, near_relax (c.tre2 hρ ht0 ht) (by norm_num) (by norm_num), ?_⟩, ⟨_, near_relax (c.tim2 hρ ht0 ht) (by norm_num) (by norm_num), ?_⟩,
      ⟨_, near_relax (c.twt2 ht0 ht) (by norm_num) (by norm_num), ?_⟩⟩,
    ⟨⟨_, near_relax (c.tre3 hρ ht0 ht) (by norm_num) (by norm_num), ?_⟩, ⟨_, near_relax (c.tim3 hρ ht0 ht) (by norm_num) (by norm_num), ?_⟩,
      ⟨_, near_relax (c.twt3 ht0 ht) (by norm_num) (by norm_num), ?_⟩⟩,
    ⟨⟨_, near_relax (c.tre4 hρ ht0 ht) (by norm_num) (by norm_num), ?_⟩, ⟨_, near_relax (c.tim4 hρ ht0 ht) (by norm_num) (by norm_num), ?_⟩,
      ⟨_, near_relax (c.twt4 ht0 ht) (by norm_num) (by norm_num), ?_⟩⟩,
    ⟨⟨_, near_relax (c.tre5 hρ ht0 ht) (by norm_num) (by norm_num), ?_⟩, ⟨_, near_relax (c.tim5 hρ ht0 ht) (by norm_num) (by norm_num), ?_⟩,
      ⟨_, near_relax (c.twt5 ht0 ht) (by norm_num) (by norm_num), ?_⟩⟩⟩ <;>
  · simp only [obsStep, hlt, Bool.false_eq_true, if_false, Fl.add_val, Fl.mul_val, Fl.sub_val, Fl.sqrt_val, Fl.lit_val, e1, e2, l2, l3, l4, l5, l6, l10]

end step

theorem sqrt_add_eq_norm (a b : ℝ) : Real.sqrt (a ^ 2 + b ^ 2) = ‖(⟨a, b⟩ : ℂ)‖ := (norm_mk a b).symm

theorem norm_mk_le (a b : ℝ) : ‖(⟨a, b⟩ : ℂ)‖ ≤ |a| + |b| := by
  have := Complex.norm_le_abs_re_add_abs_im (⟨a, b⟩ : ℂ)
  simpa using this

/-- Quotient of perturbed quantities. -/
theorem quotient_near {N N' D D' g : ℝ} (hg0 : 0 ≤ g) (hg : g ≤ 2e-8) (hD : 0 < D) (hN0 : 0 ≤ N) (hN : N ≤ D) (h1 : |N' - N| ≤ (2 * g + 8e-16) * D)
    (h2 : |D' - D| ≤ g * D) : |N' / D' - N / D| ≤ 3.05 * g + 1e-15 := by
  have a1 := abs_le.1 h1
  have a2 := abs_le.1 h2
  have hD' : (1 - 2e-8) * D ≤ D' := by nlinarith
  have hDp : 0 < D' := by nlinarith
  have e : N' / D' - N / D = ((N' - N) * D - N * (D' - D)) / (D' * D) := by field_simp; ring
  rw [e, abs_div, abs_of_pos (mul_pos hDp hD), div_le_iff₀ (mul_pos hDp hD)]
  have h3 : |(N' - N) * D - N * (D' - D)| ≤ (2 * g + 8e-16) * D * D + D * (g * D) := by
    refine (abs_sub _ _).trans (add_le_add ?_ ?_)
    · rw [abs_mul, abs_of_pos hD]; exact mul_le_mul_of_nonneg_right h1 hD.le
    · rw [abs_mul, abs_of_nonneg hN0]; exact mul_le_mul hN h2 (abs_nonneg _) hD.le
  refine h3.trans ?_
  have h4 : (3.05 * g + 1e-15) * ((1 - 2e-8) * D * D) ≤ (3.05 * g + 1e-15) * (D' * D) :=
    mul_le_mul_of_nonneg_left (mul_le_mul_of_nonneg_right hD' hD.le) (by positivity)
  refine le_trans ?_ h4
  have hDD : 0 < D * D := mul_pos hD hD
  have : (3 * g + 8e-16) * (D * D) ≤ (3.05 * g + 1e-15) * (1 - 2e-8) * (D * D) :=
    mul_le_mul_of_nonneg_right (by nlinarith) hDD.le
  nlinarith

theorem tiny_val : 0.99e-12 ≤ (TINY : Fl M).val ∧ (TINY : Fl M).val ≤ 1.01e-12 := by
  have h := abs_le.1 (M.fl_near ((1e-12 : ℚ) : ℝ))
  have e : (((1e-12 : ℚ)) : ℝ) = 1e-12 := by norm_num
  have hv : (TINY : Fl M).val = M.fl ((1e-12 : ℚ) : ℝ) := rfl
  rw [e, abs_of_pos (show (0:ℝ) < 1e-12 by norm_num)] at h
  rw [hv, e]
  constructor <;> [have := h.1; have := h.2] <;> norm_num at this ⊢ <;> linarith

theorem norm_err {N N' D g E : ℝ} (hg : g ≤ 2e-8) (hD : 0.99e-12 ≤ D) (hN : N ≤ D) (n1 : |N' - N| ≤ 2 * g * D)
    (s : E ≤ 4e-16 * N' + 2e-124) : E + |N' - N| ≤ (2 * g + 8e-16) * D := by
  have h1 := (abs_le.1 n1).2
  have h2 : 2 * g * D ≤ 2 * 2e-8 * D := mul_le_mul_of_nonneg_right (by linarith) (by linarith)
  have h3 : N' ≤ 1.5 * D := by linarith
  have h4 : (2e-124:ℝ) ≤ 1e-30 * 0.99e-12 := by norm_num
  have h5 : 1e-30 * 0.99e-12 ≤ 1e-30 * D := mul_le_mul_of_nonneg_left hD (by norm_num)
  linarith

/-- Finishing one harmonic. -/
theorem finish_near (a : EccAcc (Fl M)) {A B W g κ : ℝ} (hg0 : 0 ≤ g) (hg : g ≤ 1.9e-8) (hκ : κ ≤ 3e-30) (hAB : ‖(⟨A, B⟩ : ℂ)‖ ≤ W)
    (h1 : Near W g κ a.re.val A) (h2 : Near W g κ a.im.val B) (h3 : Near W g κ a.wt.val W) :
    |a.finish.val - ‖(⟨A, B⟩ : ℂ)‖ / max W (TINY : Fl M).val| ≤ 3.1 * g + 2e-15 := by
  obtain ⟨t1, t2⟩ := tiny_val (M := M)
  have hval : a.finish.val = M.fl (M.fl (Real.sqrt (M.fl (M.fl (a.re.val * a.re.val) + M.fl (a.im.val * a.im.val)))) / max a.wt.val (TINY : Fl M).val) := rfl
  rw [hval]
  generalize (TINY : Fl M).val = τ at t1 t2 ⊢
  have hW0 : 0 ≤ W := h1.nonneg
  set D := max W τ with hDdef
  have hDτ : τ ≤ D := le_max_right _ _
  have hWD : W ≤ D := le_max_left _ _
  have hD : 0 < D := by linarith
  have hN0 : 0 ≤ ‖(⟨A, B⟩ : ℂ)‖ := norm_nonneg _
  generalize hNdef : ‖(⟨A, B⟩ : ℂ)‖ = N at hAB hN0 ⊢
  -- errors relative to the denominator
  have hκD : κ ≤ 4e-18 * D := by nlinarith
  have hgW : g * W ≤ g * D := mul_le_mul_of_nonneg_left hWD hg0
  set g1 := g + 4e-18 with hg1
  have r1 : |a.re.val - A| ≤ g1 * D := h1.err.trans (by nlinarith)
  have r2 : |a.im.val - B| ≤ g1 * D := h2.err.trans (by nlinarith)
  have r3 : |max a.wt.val τ - D| ≤ g1 * D := by
    refine (abs_max_sub_max_le_abs _ _ _).trans (h3.err.trans (by nlinarith))
  -- the norm
  have n1 : |‖(⟨a.re.val, a.im.val⟩ : ℂ)‖ - N| ≤ 2 * g1 * D := by
    rw [← hNdef]
    refine (abs_norm_sub_norm_le _ _).trans ?_
    have e : ((⟨a.re.val, a.im.val⟩ : ℂ) - ⟨A, B⟩) = ⟨a.re.val - A, a.im.val - B⟩ := by apply Complex.ext <;> simp
    rw [e]
    exact (norm_mk_le _ _).trans (by linarith)
  have hn2 := norm_mk_sq a.re.val a.im.val
  have hn0 : 0 ≤ ‖(⟨a.re.val, a.im.val⟩ : ℂ)‖ := norm_nonneg _
  generalize ‖(⟨a.re.val, a.im.val⟩ : ℂ)‖ = N' at n1 hn2 hn0
  have s1 : Near (a.re.val ^ 2) 1.2e-16 1e-250 (M.fl (a.re.val * a.re.val)) (a.re.val ^ 2) := by
    rw [← pow_two]; exact (Near.exact (by rw [abs_of_nonneg (sq_nonneg _)])).round le_rfl (by norm_num) (by norm_num)
  have s2 : Near (a.im.val ^ 2) 1.2e-16 1e-250 (M.fl (a.im.val * a.im.val)) (a.im.val ^ 2) := by
    rw [← pow_two]; exact (Near.exact (by rw [abs_of_nonneg (sq_nonneg _)])).round le_rfl (by norm_num) (by norm_num)
  have s3 : Near (N' ^ 2) 2.5e-16 1e-248 (M.fl (M.fl (a.re.val * a.re.val) + M.fl (a.im.val * a.im.val))) (N' ^ 2) := by
    rw [hn2]; exact s1.add s2 le_rfl (by norm_num) (by norm_num)
  have s4 : Near N' 4e-16 2e-124 (M.fl (Real.sqrt (M.fl (M.fl (a.re.val * a.re.val) + M.fl (a.im.val * a.im.val))))) N' :=
    Near.sqrt hn0 s3 (η := 1e-124) (by norm_num) (by norm_num) (by norm_num) (by norm_num) (by norm_num)
  have s5 := s4.err
  generalize M.fl (Real.sqrt (M.fl (M.fl (a.re.val * a.re.val) + M.fl (a.im.val * a.im.val)))) = N'' at s5 ⊢
  have hg1' : g1 ≤ 2e-8 := by rw [hg1]; linarith
  have hg10 : 0 ≤ g1 := by rw [hg1]; linarith
  have n2 : |N'' - N| ≤ (2 * g1 + 8e-16) * D := by
    have h := abs_sub_le N'' N' N
    exact h.trans (norm_err hg1' (t1.trans hDτ) (hAB.trans hWD) n1 s5)
  have q := quotient_near hg10 hg1' hD hN0 (hAB.trans hWD) n2 r3
  have hq1 : N / D ≤ 1 := by rw [div_le_one hD]; exact hAB.trans hWD
  have hq0 : 0 ≤ N / D := div_nonneg hN0 hD.le
  generalize N'' / max a.wt.val τ = Q at q ⊢
  generalize N / D = Z at q hq1 hq0 ⊢
  have f := M.fl_near Q
  have f1 := abs_le.1 q
  have hQ : |Q| ≤ 1.1 := by rw [abs_le]; constructor <;> nlinarith
  have f2 := abs_sub_le (M.fl Q) Q Z
  have : 1.2e-16 * |Q| ≤ 1.2e-16 * 1.1 := mul_le_mul_of_nonneg_left hQ (by norm_num)
  have f3 : (1e-250:ℝ) ≤ 1e-18 := by norm_num
  have f4 : 3.05 * g1 = 3.05 * g + 3.05 * 4e-18 := by rw [hg1]; ring
  linarith


/-! ### The whole loop -/

/-- Value of a cell in the sums of the specification. -/
noncomputable def cutTerm {n : ℕ} (τ : ℝ) (T : Fin n → Fin n → ℝ) (f : Fin n → Fin n → ℝ) (i : Fin n × Fin n) : ℝ :=
  if T i.1 i.2 < τ then 0 else T i.1 i.2 * f i.1 i.2

theorem length_cells (n : ℕ) : (cells n).length = n * n := by
  unfold cells
  simp [List.length_flatMap]

/-- The complex sum of the specification in terms of the accumulated polynomials. -/
theorem cut_sum_norm {n : ℕ} (τ cx cy : ℝ) (T : Fin n → Fin n → ℝ) (k : ℕ) (re im : ℝ → ℝ → ℝ) (c : ℂ) (hc : ‖c‖ = 1)
    (hre : ∀ x y : ℝ, (⟨re x y, im x y⟩ : ℂ) = c * (starRingEnd ℂ) ((⟨x, y⟩ : ℂ)^k)) :
    ‖(⟨((cells n).map (cutTerm τ T fun iy ix => re ((ix.val:ℝ) - cx) ((iy.val:ℝ) - cy))).sum,
        ((cells n).map (cutTerm τ T fun iy ix => im ((ix.val:ℝ) - cx) ((iy.val:ℝ) - cy))).sum⟩ : ℂ)‖ =
      ‖∑ iy, ∑ ix, if T iy ix < τ then 0 else (T iy ix : ℂ) * (cellZ cx cy iy ix)^k‖ := by
  rw [sum_cells, sum_cells]
  have key : (⟨∑ iy, ∑ ix, cutTerm τ T (fun iy ix => re ((ix.val:ℝ) - cx) ((iy.val:ℝ) - cy)) (iy, ix),
      ∑ iy, ∑ ix, cutTerm τ T (fun iy ix => im ((ix.val:ℝ) - cx) ((iy.val:ℝ) - cy)) (iy, ix)⟩ : ℂ) =
      c * (starRingEnd ℂ) (∑ iy, ∑ ix, if T iy ix < τ then 0 else (T iy ix : ℂ) * (cellZ cx cy iy ix)^k) := by
    rw [map_sum, Finset.mul_sum]
    have hcell : ∀ iy ix : Fin n, c * (starRingEnd ℂ) (if T iy ix < τ then 0 else (T iy ix : ℂ) * (cellZ cx cy iy ix)^k) =
        ⟨cutTerm τ T (fun iy ix => re ((ix.val:ℝ) - cx) ((iy.val:ℝ) - cy)) (iy, ix),
         cutTerm τ T (fun iy ix => im ((ix.val:ℝ) - cx) ((iy.val:ℝ) - cy)) (iy, ix)⟩ := by
      intro iy ix
      unfold cutTerm
      by_cases h : T iy ix < τ
      · simp only [if_pos h, map_zero, mul_zero]; rfl
      · simp only [if_neg h]
        rw [map_mul, Complex.conj_ofReal, mul_left_comm]
        have := hre ((ix.val:ℝ) - cx) ((iy.val:ℝ) - cy)
        unfold cellZ
        rw [← this]
        apply Complex.ext <;> simp
    apply Complex.ext
    · rw [Complex.re_sum]
      dsimp only
      apply Finset.sum_congr rfl; intro iy _
      rw [map_sum, Finset.mul_sum, Complex.re_sum]
      apply Finset.sum_congr rfl; intro ix _
      rw [hcell]
    · rw [Complex.im_sum]
      dsimp only
      apply Finset.sum_congr rfl; intro iy _
      rw [map_sum, Finset.mul_sum, Complex.im_sum]
      apply Finset.sum_congr rfl; intro ix _
      rw [hcell]
  rw [key, norm_mul, hc, one_mul, Complex.norm_conj]

theorem cutNorm_le {n : ℕ} (τ cx cy : ℝ) (T : Fin n → Fin n → ℝ) (hT : ∀ iy ix, 0 ≤ T iy ix) (k : ℕ) :
    ‖∑ iy, ∑ ix, if T iy ix < τ then 0 else (T iy ix : ℂ) * (cellZ cx cy iy ix)^k‖ ≤
      ∑ iy, ∑ ix, if T iy ix < τ then 0 else T iy ix * ‖cellZ cx cy iy ix‖^k := by
  refine (norm_sum_le _ _).trans (Finset.sum_le_sum fun iy _ => (norm_sum_le _ _).trans (Finset.sum_le_sum fun ix _ => ?_))
  by_cases h : T iy ix < τ
  · simp [h]
  · simp only [if_neg h]
    rw [norm_mul, norm_pow, Complex.norm_real, Real.norm_eq_abs, abs_of_nonneg (hT iy ix)]

/-- With any threshold the exact eccentricity is at most one. -/
theorem eccentricityCut_le_one {n : ℕ} {τ : ℝ} (hτ : 0 < τ) (cx cy : ℝ) (T : Fin n → Fin n → ℝ) (hT : ∀ iy ix, 0 ≤ T iy ix) (k : ℕ) :
    eccentricityCut τ cx cy T k ≤ 1 := by
  unfold eccentricityCut
  rw [div_le_one (lt_max_of_lt_right hτ)]
  exact (cutNorm_le τ cx cy T hT k).trans (le_max_left _ _)

theorem harmonic_near {n : ℕ} (hn : n ≤ 10000) (TR : Grid (Fl M) n) (cx cy : Fl M) (ht0 : ∀ iy ix, 0 ≤ (TR iy ix).val)
    (proj : EccAccs (Fl M) → EccAcc (Fl M)) (polyp : EccAccs ℝ → EccAcc ℝ) (k : ℕ)
    (hzero : proj EccAccs.zero = ⟨lit 0, lit 0, lit 0⟩)
    (hstep : ∀ s, ∀ i : Fin n × Fin n, lt (TR i.1 i.2) TINY = false → StepNear M proj polyp k n TR cx cy s i)
    (c : ℂ) (hc : ‖c‖ = 1)
    (hre : ∀ x y : ℝ, (⟨(polyp (eccPoly x y)).re, (polyp (eccPoly x y)).im⟩ : ℂ) = c * (starRingEnd ℂ) ((⟨x, y⟩ : ℂ)^k)) :
    |(proj ((cells n).foldl (obsStep TR cx cy) EccAccs.zero)).finish.val -
      eccentricityCut (TINY : Fl M).val cx.val cy.val (fun iy ix => (TR iy ix).val) k| ≤ 4.1e-16 * n^2 + 4e-13 := by
  set T : Fin n → Fin n → ℝ := fun iy ix => (TR iy ix).val with hT
  set τ := (TINY : Fl M).val with hτ
  have hnn : (n:ℝ)^2 ≤ 1e8 := by
    have h : (n:ℝ) ≤ 10000 := by exact_mod_cast hn
    have := pow_le_pow_left₀ (Nat.cast_nonneg n) h 2
    norm_num at this ⊢; exact this
  have hlen : (((cells n).length : ℕ) : ℝ) = (n:ℝ)^2 := by rw [length_cells]; push_cast; ring
  have hskip : ∀ i : Fin n × Fin n, T i.1 i.2 < τ → ∀ s, obsStep TR cx cy s i = s := by
    intro i hi s
    unfold obsStep
    have : lt (TR i.1 i.2) TINY = true := by rw [Fl.lt_eq, decide_eq_true_eq]; exact hi
    simp only [this, if_true]
  have hkeep : ∀ i : Fin n × Fin n, ¬ T i.1 i.2 < τ → lt (TR i.1 i.2) TINY = false := by
    intro i hi
    rw [Fl.lt_eq, decide_eq_false_iff_not]; exact hi
  have fold : ∀ (q : EccAcc (Fl M) → Fl M) (f : Fin n → Fin n → ℝ), (q ⟨lit 0, lit 0, lit 0⟩).val = 0 →
      (∀ s, ∀ i : Fin n × Fin n, lt (TR i.1 i.2) TINY = false → ∃ a, Near (T i.1 i.2 * ‖cellZ cx.val cy.val i.1 i.2‖ ^ k) 1.1e-13 1e-38 a
        (T i.1 i.2 * f i.1 i.2) ∧ (q (proj (obsStep TR cx cy s i))).val = M.fl ((q (proj s)).val + a)) →
      Near ((cells n).map (cutTerm τ T fun iy ix => ‖cellZ cx.val cy.val iy ix‖ ^ k)).sum (1.1e-13 + n^2 * 1.3e-16) (2 * n^2 * (1e-38 + 1e-250))
        (q (proj ((cells n).foldl (obsStep TR cx cy) EccAccs.zero))).val ((cells n).map (cutTerm τ T f)).sum := by
    intro q f hq h
    have := fold_near (M := M) (obsStep TR cx cy) (fun s => (q (proj s)).val) (cutTerm τ T f)
      (cutTerm τ T fun iy ix => ‖cellZ cx.val cy.val iy ix‖ ^ k) 1.1e-13 1e-38 (by norm_num) (by norm_num) (cells n) ?_ EccAccs.zero 0 0 0
      (by rw [hlen]; norm_num; linarith) (by norm_num) (by rw [hzero, hq]; exact ⟨by simp, by norm_num, by norm_num, by norm_num⟩)
    · rw [hlen] at this
      simpa using this
    · intro s i _
      by_cases hi : T i.1 i.2 < τ
      · left
        refine ⟨by rw [hskip i hi], ?_, ?_⟩ <;> simp [cutTerm, hi]
      · right
        obtain ⟨a, h1, h2⟩ := h s i (hkeep i hi)
        refine ⟨a, ?_, h2⟩
        simpa [cutTerm, hi] using h1
  have z : (lit 0 : Fl M).val = 0 := M.lit_zero
  have f1 := fold (·.re) (fun iy ix => (polyp (eccPoly ((ix.val:ℝ) - cx.val) ((iy.val:ℝ) - cy.val))).re) z
    (fun s i h => (hstep s i h).re)
  have f2 := fold (·.im) (fun iy ix => (polyp (eccPoly ((ix.val:ℝ) - cx.val) ((iy.val:ℝ) - cy.val))).im) z
    (fun s i h => (hstep s i h).im)
  have f3 := fold (·.wt) (fun iy ix => ‖cellZ cx.val cy.val iy ix‖ ^ k) z (fun s i h => (hstep s i h).wt)
  have hnorm := cut_sum_norm τ cx.val cy.val T k _ _ c hc hre
  have hle := cutNorm_le τ cx.val cy.val T ht0 k
  have hW : ((cells n).map (cutTerm τ T fun iy ix => ‖cellZ cx.val cy.val iy ix‖ ^ k)).sum =
      ∑ iy, ∑ ix, if T iy ix < τ then 0 else T iy ix * ‖cellZ cx.val cy.val iy ix‖^k := by
    rw [sum_cells]; rfl
  have := finish_near _ (by positivity) (by linarith) (by
    have : 2 * (n:ℝ)^2 * (1e-38 + 1e-250) ≤ 2 * 1e8 * (1e-38 + 1e-250) := by
      apply mul_le_mul_of_nonneg_right _ (by norm_num); linarith
    refine this.trans ?_; norm_num) (by rw [hnorm, hW]; exact hle) f1 f2 f3
  rw [hnorm, hW] at this
  unfold eccentricityCut
  refine this.trans ?_
  linarith

end Trento
