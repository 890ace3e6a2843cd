import Verif.Lemmas.Rounded
import Verif.Lemmas.Event

/-! Error propagation in rounded arithmetic: products, sums, square roots and accumulation loops. -/

namespace Trento
namespace Machine
variable (M : Machine)

/-- The error of one rounding, with explicit constants. -/
theorem fl_near (x : ℝ) : |M.fl x - x| ≤ 1.2e-16 * |x| + 1e-250 := by
  refine (M.fl_err x).trans ?_
  have := mul_le_mul_of_nonneg_right uRound_le (abs_nonneg x)
  have := etaRound_tiny
  linarith

end Machine

/-- `a` approximates `x`, of magnitude at most `W`, with relative error `ε` and absolute error `δ`. -/
structure Near (W ε δ a x : ℝ) : Prop where
  size : |x| ≤ W
  err : |a - x| ≤ ε * W + δ
  he : 0 ≤ ε
  hd : 0 ≤ δ

namespace Near
variable {M : Machine}

theorem nonneg {W ε δ a x : ℝ} (h : Near W ε δ a x) : 0 ≤ W := (abs_nonneg x).trans h.size

theorem exact {W a : ℝ} (h : |a| ≤ W) : Near W 0 0 a a := ⟨h, by simp, le_rfl, le_rfl⟩

theorem mono {W ε δ ε' δ' a x : ℝ} (h : Near W ε δ a x) (h1 : ε ≤ ε') (h2 : δ ≤ δ') : Near W ε' δ' a x :=
  ⟨h.size, h.err.trans (by have := mul_le_mul_of_nonneg_right h1 h.nonneg; linarith), h.he.trans h1, h.hd.trans h2⟩

/-- A sharper bound of the magnitude trades against the relative error. -/
theorem sharpen {W W' C ε ε' δ a x : ℝ} (h : Near W ε δ a x) (hx : |x| ≤ W') (hW : W ≤ C * W') (hε : ε * C ≤ ε') (h0' : 0 ≤ ε') :
    Near W' ε' δ a x := by
  have h0 : 0 ≤ W' := (abs_nonneg x).trans hx
  have h1 := mul_le_mul_of_nonneg_left hW h.he
  have h2 := mul_le_mul_of_nonneg_right hε h0
  exact ⟨hx, h.err.trans (by nlinarith), h0', h.hd⟩

/-- Rounding an approximation. -/
theorem round {W W' ε ε' δ δ' a x : ℝ} (h : Near W ε δ a x) (hW : W ≤ W') (hε : ε * (1 + 1.2e-16) + 1.2e-16 ≤ ε')
    (hδ : δ * (1 + 1.2e-16) + 1e-250 ≤ δ') : Near W' ε' δ' (M.fl a) x := by
  have h0 := h.nonneg
  have h1 := M.fl_near a
  have h2 : |a| ≤ W + (ε * W + δ) := by
    have := abs_add_le (a - x) x
    rw [sub_add_cancel] at this
    linarith [h.err, h.size]
  have h3 : |M.fl a - x| ≤ |M.fl a - a| + |a - x| := abs_sub_le _ _ _
  have h4 := mul_le_mul_of_nonneg_right hε h0
  have he' : 0 ≤ ε' := by linarith [h.he]
  have h5 := mul_le_mul_of_nonneg_left hW he'
  refine ⟨h.size.trans hW, ?_, he', by linarith [h.hd]⟩
  have := h.err
  nlinarith

/-- Rounded product. -/
theorem mul {W1 W2 W ε1 ε2 ε δ1 δ2 δ a1 a2 x1 x2 : ℝ} (h1 : Near W1 ε1 δ1 a1 x1) (h2 : Near W2 ε2 δ2 a2 x2) (B1 B2 : ℝ)
    (hB1 : W1 ≤ B1) (hB2 : W2 ≤ B2) (hW : W1 * W2 ≤ W) (hε : (ε1 + ε2 + ε1 * ε2) * (1 + 1.2e-16) + 1.2e-16 ≤ ε)
    (hδ : (δ2 * (1 + ε1) * B1 + δ1 * (1 + ε2) * B2 + δ1 * δ2) * (1 + 1.2e-16) + 1e-250 ≤ δ) :
    Near W ε δ (M.fl (a1 * a2)) (x1 * x2) := by
  have p1 := h1.nonneg
  have p2 := h2.nonneg
  have n1 := h1.he
  have n2 := h2.he
  have m1 := h1.hd
  have m2 := h2.hd
  have h : Near (W1 * W2) (ε1 + ε2 + ε1 * ε2) (δ2 * (1 + ε1) * B1 + δ1 * (1 + ε2) * B2 + δ1 * δ2) (a1 * a2) (x1 * x2) := by
    refine ⟨by rw [abs_mul]; exact mul_le_mul h1.size h2.size (abs_nonneg _) p1, ?_, by positivity, ?_⟩
    · have e : a1 * a2 - x1 * x2 = (a1 - x1) * (a2 - x2) + (a1 - x1) * x2 + x1 * (a2 - x2) := by ring
      have k1 : |(a1 - x1) * (a2 - x2)| ≤ (ε1 * W1 + δ1) * (ε2 * W2 + δ2) := by
        rw [abs_mul]; exact mul_le_mul h1.err h2.err (abs_nonneg _) (by positivity)
      have k2 : |(a1 - x1) * x2| ≤ (ε1 * W1 + δ1) * W2 := by
        rw [abs_mul]; exact mul_le_mul h1.err h2.size (abs_nonneg _) (by positivity)
      have k3 : |x1 * (a2 - x2)| ≤ W1 * (ε2 * W2 + δ2) := by
        rw [abs_mul]; exact mul_le_mul h1.size h2.err (abs_nonneg _) (by positivity)
      rw [e]
      have k4 := abs_add_le ((a1 - x1) * (a2 - x2) + (a1 - x1) * x2) (x1 * (a2 - x2))
      have k5 := abs_add_le ((a1 - x1) * (a2 - x2)) ((a1 - x1) * x2)
      have k6 : δ2 * (1 + ε1) * W1 ≤ δ2 * (1 + ε1) * B1 := mul_le_mul_of_nonneg_left hB1 (by positivity)
      have k7 : δ1 * (1 + ε2) * W2 ≤ δ1 * (1 + ε2) * B2 := mul_le_mul_of_nonneg_left hB2 (by positivity)
      have k8 : (ε1 * W1 + δ1) * (ε2 * W2 + δ2) + (ε1 * W1 + δ1) * W2 + W1 * (ε2 * W2 + δ2)
        = (ε1 + ε2 + ε1 * ε2) * (W1 * W2) + (δ2 * (1 + ε1) * W1 + δ1 * (1 + ε2) * W2 + δ1 * δ2) := by ring
      linarith
    · have : 0 ≤ B1 := p1.trans hB1
      have : 0 ≤ B2 := p2.trans hB2
      positivity
  exact h.round hW hε hδ

/-- Rounded sum. -/
theorem add {W1 W2 W ε0 ε δ1 δ2 δ a1 a2 x1 x2 : ℝ} (h1 : Near W1 ε0 δ1 a1 x1) (h2 : Near W2 ε0 δ2 a2 x2)
    (hW : W1 + W2 ≤ W) (hε : ε0 * (1 + 1.2e-16) + 1.2e-16 ≤ ε) (hδ : (δ1 + δ2) * (1 + 1.2e-16) + 1e-250 ≤ δ) :
    Near W ε δ (M.fl (a1 + a2)) (x1 + x2) := by
  have h : Near (W1 + W2) ε0 (δ1 + δ2) (a1 + a2) (x1 + x2) := by
    refine ⟨(abs_add_le _ _).trans (add_le_add h1.size h2.size), ?_, h1.he, add_nonneg h1.hd h2.hd⟩
    rw [show a1 + a2 - (x1 + x2) = (a1 - x1) + (a2 - x2) by ring]
    have := abs_add_le (a1 - x1) (a2 - x2)
    have := h1.err
    have := h2.err
    nlinarith
  exact h.round hW hε hδ

theorem neg {W ε δ a x : ℝ} (h : Near W ε δ a x) : Near W ε δ (-a) (-x) :=
  ⟨by rw [abs_neg]; exact h.size, by rw [show -a - -x = -(a - x) by ring, abs_neg]; exact h.err, h.he, h.hd⟩

/-- Rounded difference. -/
theorem sub {W1 W2 W ε0 ε δ1 δ2 δ a1 a2 x1 x2 : ℝ} (h1 : Near W1 ε0 δ1 a1 x1) (h2 : Near W2 ε0 δ2 a2 x2)
    (hW : W1 + W2 ≤ W) (hε : ε0 * (1 + 1.2e-16) + 1.2e-16 ≤ ε) (hδ : (δ1 + δ2) * (1 + 1.2e-16) + 1e-250 ≤ δ) :
    Near W ε δ (M.fl (a1 - a2)) (x1 - x2) := by
  rw [sub_eq_add_neg, sub_eq_add_neg]
  exact h1.add h2.neg hW hε hδ

/-- Rounded square root of an approximation of `x ^ 2`. -/
theorem sqrt {ε ε' δ δ' η a x : ℝ} (hx : 0 ≤ x) (h : Near (x ^ 2) ε δ a (x ^ 2)) (hε1 : ε ≤ 1) (hη : 0 ≤ η) (hδη : δ ≤ η ^ 2)
    (hε : ε * (1 + 1.2e-16) + 1.2e-16 ≤ ε') (hδ : η * (1 + 1.2e-16) + 1e-250 ≤ δ') :
    Near x ε' δ' (M.fl (Real.sqrt a)) x := by
  have he := abs_le.1 h.err
  have h0 := h.he
  have h' : Near x ε η (Real.sqrt a) x := by
    refine ⟨by rw [abs_of_nonneg hx], ?_, h0, hη⟩
    rw [abs_le]
    constructor
    · have : (1 - ε) * x ≤ Real.sqrt a + η := by
        have hs := Real.sqrt_nonneg a
        apply le_of_sq_le_sq _ (by positivity)
        have h1 : a ≤ Real.sqrt a ^ 2 := by
          rcases le_total 0 a with h | h
          · rw [Real.sq_sqrt h]
          · exact h.trans (sq_nonneg _)
        have h2 : ((1 - ε) * x) ^ 2 ≤ (1 - ε) * x ^ 2 := by
          rw [mul_pow]
          exact mul_le_mul_of_nonneg_right (by nlinarith) (sq_nonneg x)
        nlinarith [mul_nonneg hs hη]
      linarith
    · have : Real.sqrt a ≤ (1 + ε) * x + η := by
        apply Real.sqrt_le_iff.2
        refine ⟨by positivity, ?_⟩
        have h2 : (1 + ε) * x ^ 2 ≤ ((1 + ε) * x) ^ 2 := by
          rw [mul_pow]
          exact mul_le_mul_of_nonneg_right (by nlinarith) (sq_nonneg x)
        have : 0 ≤ (1 + ε) * x * η := by positivity
        nlinarith
      linarith
  exact h'.round le_rfl hε hδ

end Near

/-! ## Accumulation loops -/

/-- Error of a loop `s += c_i` in rounded arithmetic, when `c_i` approximates `e_i`: the relative error grows by less than
`1.3e-16` per term. -/
theorem fold_near {M : Machine} {ι σ : Type} (step : σ → ι → σ) (proj : σ → ℝ) (e w : ι → ℝ) (ε δ : ℝ)
    (hε : 0 ≤ ε) (hδ : 0 ≤ δ) (l : List ι)
    (hstep : ∀ s, ∀ i ∈ l, (proj (step s i) = proj s ∧ e i = 0 ∧ 0 ≤ w i) ∨
      ∃ c, Near (w i) ε δ c (e i) ∧ proj (step s i) = M.fl (proj s + c))
    (s0 : σ) (E0 W0 : ℝ) (j : ℕ) (hj : (j:ℝ) + l.length ≤ 1e13) (hε1 : ε ≤ 1e-3)
    (h0 : Near W0 (ε + j * 1.3e-16) (2 * j * (δ + 1e-250)) (proj s0) E0) :
    Near (W0 + (l.map w).sum) (ε + (j + l.length) * 1.3e-16) (2 * (j + l.length) * (δ + 1e-250)) (proj (l.foldl step s0)) (E0 + (l.map e).sum) := by
  induction l generalizing s0 E0 W0 j with
  | nil => simpa using h0
  | cons i l ih =>
    have hlen : (j:ℝ) + ((i :: l).length : ℝ) = ((j + 1 : ℕ) : ℝ) + l.length := by push_cast [List.length_cons]; ring
    have hj1 : (j:ℝ) ≤ 1e13 := by
      have : (0:ℝ) ≤ ((i :: l).length : ℝ) := Nat.cast_nonneg _
      linarith
    have hj0 : (0:ℝ) ≤ j := Nat.cast_nonneg _
    have hW0 := h0.nonneg
    have key : Near (W0 + w i) (ε + ((j+1:ℕ):ℝ) * 1.3e-16) (2 * ((j+1:ℕ):ℝ) * (δ + 1e-250)) (proj (step s0 i)) (E0 + e i) := by
      rcases hstep s0 i (by simp) with ⟨h1, h2, h3⟩ | ⟨c, h1, h2⟩
      · rw [h1, h2, add_zero]
        have := h0.mono (ε' := ε + ((j+1:ℕ):ℝ) * 1.3e-16) (δ' := 2 * ((j+1:ℕ):ℝ) * (δ + 1e-250)) (by push_cast; linarith)
          (by push_cast; nlinarith)
        refine ⟨this.size.trans (by linarith), this.err.trans ?_, this.he, this.hd⟩
        have := mul_nonneg this.he h3
        linarith
      · rw [h2]
        have h1' := h1.mono (ε' := ε + j * 1.3e-16) (δ' := δ) (by nlinarith) le_rfl
        refine h0.add h1' le_rfl ?_ ?_
        · push_cast
          nlinarith
        · push_cast
          have : (j:ℝ) * (δ + 1e-250) ≤ 1e13 * (δ + 1e-250) := mul_le_mul_of_nonneg_right hj1 (by positivity)
          nlinarith
    have := ih (fun s i' hi' => hstep s i' (List.mem_cons_of_mem _ hi')) (step s0 i) (E0 + e i) (W0 + w i) (j + 1)
      (by rw [← hlen]; exact hj) key
    rw [hlen, List.map_cons, List.map_cons, List.sum_cons, List.sum_cons, ← add_assoc, ← add_assoc]
    exact this

end Trento
