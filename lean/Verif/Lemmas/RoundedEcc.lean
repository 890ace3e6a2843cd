import Verif.Lemmas.RoundedSum
import Verif.Lemmas.Ecc

/-! The terms accumulated by `compute_observables` in rounded arithmetic. -/

namespace Trento
open Spec
variable {M : Machine}

/-- Relative position of a cell, with the powers used by the program. -/
structure CellNear (M : Machine) (ρ X Y x y x2 y2 r2 : ℝ) : Prop where
  h0 : 0 ≤ ρ
  hρ : ρ ≤ 1e5
  hx : Near ρ 2e-16 1e-249 x X
  hy : Near ρ 2e-16 1e-249 y Y
  hx2 : Near (ρ ^ 2) 1e-15 1e-240 x2 (X ^ 2)
  hy2 : Near (ρ ^ 2) 1e-15 1e-240 y2 (Y ^ 2)
  hr2 : Near (ρ ^ 2) 4e-15 1e-239 r2 (ρ ^ 2)

theorem cell_near {ρ X Y : ℝ} (h0 : 0 ≤ ρ) (hρ : ρ ≤ 1e5) (h : ρ ^ 2 = X ^ 2 + Y ^ 2) :
    CellNear M ρ X Y (M.fl X) (M.fl Y) (M.fl (M.fl X * M.fl X)) (M.fl (M.fl Y * M.fl Y))
      (M.fl (M.fl (M.fl X * M.fl X) + M.fl (M.fl Y * M.fl Y))) := by
  have hX : |X| ≤ ρ := abs_le_of_sq_le_sq (by nlinarith [sq_nonneg Y]) h0
  have hY : |Y| ≤ ρ := abs_le_of_sq_le_sq (by nlinarith [sq_nonneg X]) h0
  have hx : Near ρ 2e-16 1e-249 (M.fl X) X := (Near.exact hX).round le_rfl (by norm_num) (by norm_num)
  have hy : Near ρ 2e-16 1e-249 (M.fl Y) Y := (Near.exact hY).round le_rfl (by norm_num) (by norm_num)
  have hx2 : Near (ρ ^ 2) 1e-15 1e-240 (M.fl (M.fl X * M.fl X)) (X ^ 2) := by
    rw [pow_two X]
    exact hx.mul hx 1e5 1e5 hρ hρ (le_of_eq (by ring)) (by norm_num) (by norm_num)
  have hy2 : Near (ρ ^ 2) 1e-15 1e-240 (M.fl (M.fl Y * M.fl Y)) (Y ^ 2) := by
    rw [pow_two Y]
    exact hy.mul hy 1e5 1e5 hρ hρ (le_of_eq (by ring)) (by norm_num) (by norm_num)
  refine ⟨h0, hρ, hx, hy, hx2, hy2, ?_⟩
  rw [h]
  have := hx2.add (M := M) hy2 (W := 2 * ρ ^ 2) (ε := 2e-15) (δ := 1e-239) (le_of_eq (by ring)) (by norm_num) (by norm_num)
  rw [← h] at this ⊢
  exact this.sharpen (C := 2) (by rw [abs_of_nonneg (by positivity)]) le_rfl (by norm_num) (by norm_num)

section terms
variable {ρ X Y x y x2 y2 r2 t : ℝ}

theorem CellNear.b2 (c : CellNear M ρ X Y x y x2 y2 r2) : ρ ^ 2 ≤ 1e10 := by
  have := pow_le_pow_left₀ c.h0 c.hρ 2; norm_num at this ⊢; exact this
theorem CellNear.b3 (c : CellNear M ρ X Y x y x2 y2 r2) : ρ ^ 3 ≤ 1e15 := by
  have := pow_le_pow_left₀ c.h0 c.hρ 3; norm_num at this ⊢; exact this
theorem CellNear.b4 (c : CellNear M ρ X Y x y x2 y2 r2) : ρ ^ 4 ≤ 1e20 := by
  have := pow_le_pow_left₀ c.h0 c.hρ 4; norm_num at this ⊢; exact this
theorem CellNear.b5 (c : CellNear M ρ X Y x y x2 y2 r2) : ρ ^ 5 ≤ 1e25 := by
  have := pow_le_pow_left₀ c.h0 c.hρ 5; norm_num at this ⊢; exact this

theorem CellNear.r (c : CellNear M ρ X Y x y x2 y2 r2) : Near ρ 5e-15 1e-119 (M.fl (Real.sqrt r2)) ρ :=
  Near.sqrt c.h0 c.hr2 (η := 4e-120) (by norm_num) (by norm_num) (by norm_num) (by norm_num) (by norm_num)

theorem CellNear.r4 (c : CellNear M ρ X Y x y x2 y2 r2) : Near (ρ ^ 4) 1e-14 1e-225 (M.fl (r2 * r2)) (ρ ^ 4) := by
  rw [show ρ ^ 4 = ρ ^ 2 * ρ ^ 2 by ring]
  exact c.hr2.mul c.hr2 1e10 1e10 c.b2 c.b2 le_rfl (by norm_num) (by norm_num)

theorem CellNear.x4 (c : CellNear M ρ X Y x y x2 y2 r2) : Near (ρ ^ 4) 3e-15 1e-225 (M.fl (x2 * x2)) (X ^ 4) := by
  rw [show X ^ 4 = X ^ 2 * X ^ 2 by ring]
  exact c.hx2.mul c.hx2 1e10 1e10 c.b2 c.b2 (le_of_eq (by ring)) (by norm_num) (by norm_num)

theorem CellNear.y4 (c : CellNear M ρ X Y x y x2 y2 r2) : Near (ρ ^ 4) 3e-15 1e-225 (M.fl (y2 * y2)) (Y ^ 4) := by
  rw [show Y ^ 4 = Y ^ 2 * Y ^ 2 by ring]
  exact c.hy2.mul c.hy2 1e10 1e10 c.b2 c.b2 (le_of_eq (by ring)) (by norm_num) (by norm_num)

theorem CellNear.x2y2 (c : CellNear M ρ X Y x y x2 y2 r2) : Near (ρ ^ 4) 3e-15 1e-225 (M.fl (x2 * y2)) (X ^ 2 * Y ^ 2) :=
  c.hx2.mul c.hy2 1e10 1e10 c.b2 c.b2 (le_of_eq (by ring)) (by norm_num) (by norm_num)

theorem CellNear.xy (c : CellNear M ρ X Y x y x2 y2 r2) : Near (ρ ^ 2) 1e-15 1e-240 (M.fl (x * y)) (X * Y) :=
  c.hx.mul c.hy 1e5 1e5 c.hρ c.hρ (le_of_eq (by ring)) (by norm_num) (by norm_num)

theorem CellNear.diff (c : CellNear M ρ X Y x y x2 y2 r2) : Near (2 * ρ ^ 2) 2e-15 1e-239 (M.fl (y2 - x2)) (Y ^ 2 - X ^ 2) :=
  c.hy2.sub c.hx2 (le_of_eq (by ring)) (by norm_num) (by norm_num)

theorem CellNear.x3 (c : CellNear M ρ X Y x y x2 y2 r2) : Near (ρ ^ 3) 2e-15 1e-233 (M.fl (x2 * x)) (X ^ 3) := by
  rw [show X ^ 3 = X ^ 2 * X by ring]
  exact c.hx2.mul c.hx 1e10 1e5 c.b2 c.hρ (le_of_eq (by ring)) (by norm_num) (by norm_num)

theorem CellNear.y3 (c : CellNear M ρ X Y x y x2 y2 r2) : Near (ρ ^ 3) 2e-15 1e-233 (M.fl (y2 * y)) (Y ^ 3) := by
  rw [show Y ^ 3 = Y ^ 2 * Y by ring]
  exact c.hy2.mul c.hy 1e10 1e5 c.b2 c.hρ (le_of_eq (by ring)) (by norm_num) (by norm_num)

/-- `n * v` with an exactly represented constant. -/
theorem Near.const {W ε ε' δ δ' a z : ℝ} (h : Near W ε δ a z) (k B : ℝ) (hk : 0 ≤ k) (hB : W ≤ B)
    (hε : ε * (1 + 1.2e-16) + 1.2e-16 ≤ ε') (hδ : δ * k * (1 + 1.2e-16) + 1e-250 ≤ δ') : Near (k * W) ε' δ' (M.fl (k * a)) (k * z) := by
  have := (Near.exact (le_of_eq (abs_of_nonneg hk))).mul (M := M) h k B le_rfl hB le_rfl (ε := ε') (δ := δ')
    (by linarith) (by linarith)
  exact this

/-- `3 * x * y2` -/
theorem three (c : CellNear M ρ X Y x y x2 y2 r2) {a A b B : ℝ} (ha : Near ρ 2e-16 1e-249 a A) (hb : Near (ρ ^ 2) 1e-15 1e-240 b B) :
    Near (3 * ρ ^ 3) 2e-15 1e-233 (M.fl (M.fl (3 * a) * b)) (3 * A * B) := by
  have h1 : Near (3 * ρ) 4e-16 1e-248 (M.fl (3 * a)) (3 * A) := ha.const 3 1e5 (by norm_num) c.hρ (by norm_num) (by norm_num)
  exact h1.mul hb 3e5 1e10 (by linarith [c.hρ]) c.b2 (le_of_eq (by ring)) (by norm_num) (by norm_num)

theorem CellNear.re3 (c : CellNear M ρ X Y x y x2 y2 r2) :
    Near (4 * ρ ^ 3) 3e-15 1e-230 (M.fl (M.fl (y2 * y) - M.fl (M.fl (3 * y) * x2))) (Y ^ 3 - 3 * Y * X ^ 2) :=
  c.y3.sub (three c c.hy c.hx2) (le_of_eq (by ring)) (by norm_num) (by norm_num)

theorem CellNear.im3 (c : CellNear M ρ X Y x y x2 y2 r2) :
    Near (4 * ρ ^ 3) 3e-15 1e-230 (M.fl (M.fl (M.fl (3 * x) * y2) - M.fl (x2 * x))) (3 * X * Y ^ 2 - X ^ 3) :=
  (three c c.hx c.hy2).sub c.x3 (le_of_eq (by ring)) (by norm_num) (by norm_num)

theorem CellNear.re4 (c : CellNear M ρ X Y x y x2 y2 r2) :
    Near (8 * ρ ^ 4) 5e-15 1e-220 (M.fl (M.fl (M.fl (x2 * x2) + M.fl (y2 * y2)) - M.fl (6 * M.fl (x2 * y2))))
      (X ^ 4 + Y ^ 4 - 6 * (X ^ 2 * Y ^ 2)) := by
  have h1 : Near (2 * ρ ^ 4) 4e-15 1e-224 (M.fl (M.fl (x2 * x2) + M.fl (y2 * y2))) (X ^ 4 + Y ^ 4) :=
    c.x4.add c.y4 (le_of_eq (by ring)) (by norm_num) (by norm_num)
  have h2 : Near (6 * ρ ^ 4) 4e-15 1e-223 (M.fl (6 * M.fl (x2 * y2))) (6 * (X ^ 2 * Y ^ 2)) :=
    c.x2y2.const 6 1e20 (by norm_num) c.b4 (by norm_num) (by norm_num)
  exact h1.sub h2 (le_of_eq (by ring)) (by norm_num) (by norm_num)

theorem poly5 {a A b B d D : ℝ} (h4 : ρ ^ 4 ≤ 1e20) (ha : Near (ρ ^ 4) 3e-15 1e-225 a A) (hb : Near (ρ ^ 4) 3e-15 1e-225 b B) (hd : Near (ρ ^ 4) 3e-15 1e-225 d D) :
    Near (16 * ρ ^ 4) 6e-15 1e-220 (M.fl (M.fl (M.fl (5 * a) - M.fl (10 * b)) + d)) (5 * A - 10 * B + D) := by
  have h1 : Near (5 * ρ ^ 4) 4e-15 1e-224 (M.fl (5 * a)) (5 * A) := ha.const 5 1e20 (by norm_num) h4 (by norm_num) (by norm_num)
  have h2 : Near (10 * ρ ^ 4) 4e-15 1e-223 (M.fl (10 * b)) (10 * B) := hb.const 10 1e20 (by norm_num) h4 (by norm_num) (by norm_num)
  have h3 : Near (15 * ρ ^ 4) 5e-15 1e-222 (M.fl (M.fl (5 * a) - M.fl (10 * b))) (5 * A - 10 * B) :=
    h1.sub h2 (le_of_eq (by ring)) (by norm_num) (by norm_num)
  exact h3.add (hd.mono (by norm_num) le_rfl) (le_of_eq (by ring)) (by norm_num) (by norm_num)

theorem poly5' {a A b B d D : ℝ} (h4 : ρ ^ 4 ≤ 1e20) (ha : Near (ρ ^ 4) 3e-15 1e-225 a A) (hb : Near (ρ ^ 4) 3e-15 1e-225 b B) (hd : Near (ρ ^ 4) 3e-15 1e-225 d D) :
    Near (16 * ρ ^ 4) 6e-15 1e-220 (M.fl (M.fl (a - M.fl (10 * b)) + M.fl (5 * d))) (A - 10 * B + 5 * D) := by
  have h1 : Near (5 * ρ ^ 4) 4e-15 1e-224 (M.fl (5 * d)) (5 * D) := hd.const 5 1e20 (by norm_num) h4 (by norm_num) (by norm_num)
  have h2 : Near (10 * ρ ^ 4) 4e-15 1e-223 (M.fl (10 * b)) (10 * B) := hb.const 10 1e20 (by norm_num) h4 (by norm_num) (by norm_num)
  have h3 : Near (11 * ρ ^ 4) 5e-15 1e-222 (M.fl (a - M.fl (10 * b))) (A - 10 * B) :=
    (ha.mono (by norm_num) le_rfl).sub h2 (le_of_eq (by ring)) (by norm_num) (by norm_num)
  exact h3.add (h1.mono (by norm_num) le_rfl) (le_of_eq (by ring)) (by norm_num) (by norm_num)

/-! ### With the weight -/

theorem abs_le_norm_of {a b W : ℝ} (hW : 0 ≤ W) (h : a ^ 2 + b ^ 2 = W ^ 2) : |a| ≤ W ∧ |b| ≤ W :=
  ⟨abs_le_of_sq_le_sq (by nlinarith [sq_nonneg b]) hW, abs_le_of_sq_le_sq (by nlinarith [sq_nonneg a]) hW⟩

/-- `t * v` -/
theorem weigh {W B ε ε' δ δ' a z : ℝ} (h : Near W ε δ a z) (ht0 : 0 ≤ t) (ht : t ≤ 1e60) (hB : W ≤ B)
    (hε : ε * (1 + 1.2e-16) + 1.2e-16 ≤ ε') (hδ : δ * 1e60 * (1 + 1.2e-16) + 1e-250 ≤ δ') : Near (t * W) ε' δ' (M.fl (t * a)) (t * z) :=
  (Near.exact (le_of_eq (abs_of_nonneg ht0))).mul (M := M) h 1e60 B ht hB le_rfl (by linarith) (by linarith)

/-- Final form of a term: the weight times a polynomial bounded by `ρ ^ k`. -/
theorem CellNear.fin {C ε δ a z V : ℝ} (h : Near (t * (C * V)) ε δ a (t * z)) (ht0 : 0 ≤ t) (hz : |z| ≤ V)
    (hε : ε * C ≤ 1e-13) (hδ : δ ≤ 1e-40) : Near (t * V) 1e-13 1e-40 a (t * z) :=
  (h.sharpen (C := C) (by rw [abs_mul, abs_of_nonneg ht0]; exact mul_le_mul_of_nonneg_left hz ht0) (le_of_eq (by ring)) hε
    (by norm_num)).mono le_rfl hδ

variable (c : CellNear M ρ X Y x y x2 y2 r2) (hρ : ρ ^ 2 = X ^ 2 + Y ^ 2) (ht0 : 0 ≤ t) (ht : t ≤ 1e60)
include c ht0 ht

theorem CellNear.twt2 : Near (t * ρ ^ 2) 1e-13 1e-40 (M.fl (t * r2)) (t * ρ ^ 2) :=
  (weigh (ε' := 1e-14) (δ' := 1e-178) c.hr2 ht0 ht c.b2 (by norm_num) (by norm_num)).mono (by norm_num) (by norm_num)

theorem CellNear.twt4 : Near (t * ρ ^ 4) 1e-13 1e-40 (M.fl (t * M.fl (r2 * r2))) (t * ρ ^ 4) :=
  (weigh (ε' := 2e-14) (δ' := 1e-160) c.r4 ht0 ht c.b4 (by norm_num) (by norm_num)).mono (by norm_num) (by norm_num)

theorem CellNear.twt3 : Near (t * ρ ^ 3) 1e-13 1e-40 (M.fl (M.fl (t * r2) * M.fl (Real.sqrt r2))) (t * ρ ^ 3) := by
  have h1 : Near (t * ρ ^ 2) 1e-14 1e-178 (M.fl (t * r2)) (t * ρ ^ 2) := weigh c.hr2 ht0 ht c.b2 (by norm_num) (by norm_num)
  have h2 : t * ρ ^ 2 ≤ 1e70 := by
    have := mul_le_mul ht c.b2 (sq_nonneg ρ) (by norm_num)
    norm_num at this ⊢; exact this
  rw [show t * ρ ^ 3 = t * ρ ^ 2 * ρ by ring]
  exact h1.mul c.r 1e70 1e5 h2 c.hρ le_rfl (by norm_num) (by norm_num)

theorem CellNear.twt5 : Near (t * ρ ^ 5) 1e-13 1e-38 (M.fl (M.fl (t * M.fl (r2 * r2)) * M.fl (Real.sqrt r2))) (t * ρ ^ 5) := by
  have h1 : Near (t * ρ ^ 4) 2e-14 1e-160 (M.fl (t * M.fl (r2 * r2))) (t * ρ ^ 4) := weigh c.r4 ht0 ht c.b4 (by norm_num) (by norm_num)
  have h2 : t * ρ ^ 4 ≤ 1e80 := by
    have := mul_le_mul ht c.b4 (by have := c.h0; positivity) (by norm_num)
    norm_num at this ⊢; exact this
  rw [show t * ρ ^ 5 = t * ρ ^ 4 * ρ by ring]
  exact h1.mul c.r 1e80 1e5 h2 c.hρ le_rfl (by norm_num) (by norm_num)

include hρ

theorem CellNear.tre2 : Near (t * ρ ^ 2) 1e-13 1e-40 (M.fl (t * M.fl (y2 - x2))) (t * (Y ^ 2 - X ^ 2)) := by
  have hb := abs_le_norm_of (a := Y ^ 2 - X ^ 2) (b := 2 * X * Y) (W := ρ ^ 2) (sq_nonneg _) (by rw [hρ]; ring)
  have h1 := weigh (M := M) (ε' := 1e-14) (δ' := 1e-178) c.diff ht0 ht (B := 2e10) (by linarith [c.b2]) (by norm_num) (by norm_num)
  exact CellNear.fin h1 ht0 hb.1 (by norm_num) (by norm_num)

theorem CellNear.tim2 : Near (t * ρ ^ 2) 1e-13 1e-40 (M.fl (M.fl (t * 2) * M.fl (x * y))) (t * (2 * X * Y)) := by
  have hb := abs_le_norm_of (a := Y ^ 2 - X ^ 2) (b := 2 * X * Y) (W := ρ ^ 2) (sq_nonneg _) (by rw [hρ]; ring)
  have h1 : Near (2 * t) 2e-16 1e-249 (M.fl (t * 2)) (2 * t) := by
    rw [mul_comm t 2]
    exact (Near.exact (W := 2 * t) (by rw [abs_of_nonneg (by linarith)])).round le_rfl (by norm_num) (by norm_num)
  have h2 := h1.mul (M := M) c.xy 2e60 1e10 (by linarith) c.b2 le_rfl (ε := 1e-14) (δ := 1e-178) (by norm_num) (by norm_num)
  rw [show 2 * t * (X * Y) = t * (2 * X * Y) by ring, show 2 * t * ρ ^ 2 = t * (2 * ρ ^ 2) by ring] at h2
  exact CellNear.fin h2 ht0 hb.2 (by norm_num) (by norm_num)

theorem CellNear.tre3 : Near (t * ρ ^ 3) 1e-13 1e-40 (M.fl (t * M.fl (M.fl (y2 * y) - M.fl (M.fl (3 * y) * x2)))) (t * (Y ^ 3 - 3 * Y * X ^ 2)) := by
  have h0 := c.h0
  have hb := abs_le_norm_of (a := Y ^ 3 - 3 * Y * X ^ 2) (b := 3 * X * Y ^ 2 - X ^ 3) (W := ρ ^ 3) (by positivity)
    (by rw [show (ρ ^ 3) ^ 2 = (ρ ^ 2) ^ 3 by ring, hρ]; ring)
  have h1 := weigh (M := M) (ε' := 1e-14) (δ' := 1e-165) c.re3 ht0 ht (B := 4e15) (by linarith [c.b3]) (by norm_num) (by norm_num)
  exact CellNear.fin h1 ht0 hb.1 (by norm_num) (by norm_num)

theorem CellNear.tim3 : Near (t * ρ ^ 3) 1e-13 1e-40 (M.fl (t * M.fl (M.fl (M.fl (3 * x) * y2) - M.fl (x2 * x)))) (t * (3 * X * Y ^ 2 - X ^ 3)) := by
  have h0 := c.h0
  have hb := abs_le_norm_of (a := Y ^ 3 - 3 * Y * X ^ 2) (b := 3 * X * Y ^ 2 - X ^ 3) (W := ρ ^ 3) (by positivity)
    (by rw [show (ρ ^ 3) ^ 2 = (ρ ^ 2) ^ 3 by ring, hρ]; ring)
  have h1 := weigh (M := M) (ε' := 1e-14) (δ' := 1e-165) c.im3 ht0 ht (B := 4e15) (by linarith [c.b3]) (by norm_num) (by norm_num)
  exact CellNear.fin h1 ht0 hb.2 (by norm_num) (by norm_num)

theorem CellNear.tre4 : Near (t * ρ ^ 4) 1e-13 1e-40 (M.fl (t * M.fl (M.fl (M.fl (x2 * x2) + M.fl (y2 * y2)) - M.fl (6 * M.fl (x2 * y2)))))
    (t * (X ^ 4 + Y ^ 4 - 6 * X ^ 2 * Y ^ 2)) := by
  have h0 := c.h0
  have hb := abs_le_norm_of (a := X ^ 4 + Y ^ 4 - 6 * X ^ 2 * Y ^ 2) (b := 4 * X * Y * (Y ^ 2 - X ^ 2)) (W := ρ ^ 4) (by positivity)
    (by rw [show (ρ ^ 4) ^ 2 = (ρ ^ 2) ^ 4 by ring, hρ]; ring)
  have h1 := weigh (M := M) (ε' := 1e-14) (δ' := 1e-155) c.re4 ht0 ht (B := 8e20) (by linarith [c.b4]) (by norm_num) (by norm_num)
  rw [show X ^ 4 + Y ^ 4 - 6 * (X ^ 2 * Y ^ 2) = X ^ 4 + Y ^ 4 - 6 * X ^ 2 * Y ^ 2 by ring] at h1
  exact CellNear.fin h1 ht0 hb.1 (by norm_num) (by norm_num)

theorem CellNear.tim4 : Near (t * ρ ^ 4) 1e-13 1e-40 (M.fl (M.fl (M.fl (t * 4) * M.fl (x * y)) * M.fl (y2 - x2)))
    (t * (4 * X * Y * (Y ^ 2 - X ^ 2))) := by
  have h0 := c.h0
  have hb := abs_le_norm_of (a := X ^ 4 + Y ^ 4 - 6 * X ^ 2 * Y ^ 2) (b := 4 * X * Y * (Y ^ 2 - X ^ 2)) (W := ρ ^ 4) (by positivity)
    (by rw [show (ρ ^ 4) ^ 2 = (ρ ^ 2) ^ 4 by ring, hρ]; ring)
  have h1 : Near (4 * t) 2e-16 1e-249 (M.fl (t * 4)) (4 * t) := by
    rw [mul_comm t 4]
    exact (Near.exact (W := 4 * t) (by rw [abs_of_nonneg (by linarith)])).round le_rfl (by norm_num) (by norm_num)
  have h2 := h1.mul (M := M) c.xy 4e60 1e10 (by linarith) c.b2 le_rfl (ε := 2e-15) (δ := 1e-178) (by norm_num) (by norm_num)
  have hW : 4 * t * ρ ^ 2 ≤ 4e70 := by
    have := mul_le_mul ht c.b2 (sq_nonneg ρ) (by norm_num)
    norm_num at this ⊢; linarith
  have h3 := h2.mul (M := M) c.diff 4e70 2e10 hW (by linarith [c.b2]) le_rfl (ε := 6e-15) (δ := 1e-160) (by norm_num) (by norm_num)
  rw [show 4 * t * (X * Y) * (Y ^ 2 - X ^ 2) = t * (4 * X * Y * (Y ^ 2 - X ^ 2)) by ring,
    show 4 * t * ρ ^ 2 * (2 * ρ ^ 2) = t * (8 * ρ ^ 4) by ring] at h3
  exact CellNear.fin h3 ht0 hb.2 (by norm_num) (by norm_num)

omit hρ in
theorem ty {a A : ℝ} (ha : Near ρ 2e-16 1e-249 a A) : Near (t * ρ) 4e-16 1e-188 (M.fl (t * a)) (t * A) ∧ t * ρ ≤ 1e65 := by
  refine ⟨weigh ha ht0 ht c.hρ (by norm_num) (by norm_num), ?_⟩
  have := mul_le_mul ht c.hρ c.h0 (by norm_num)
  norm_num at this ⊢; exact this

theorem CellNear.tre5 : Near (t * ρ ^ 5) 1.1e-13 1e-40 (M.fl (M.fl (t * y) * M.fl (M.fl (M.fl (5 * M.fl (x2 * x2)) - M.fl (10 * M.fl (x2 * y2))) + M.fl (y2 * y2))))
    (t * (Y * (5 * X ^ 4 - 10 * X ^ 2 * Y ^ 2 + Y ^ 4))) := by
  have h0 := c.h0
  have hb := abs_le_norm_of (a := Y * (5 * X ^ 4 - 10 * X ^ 2 * Y ^ 2 + Y ^ 4)) (b := X * (X ^ 4 - 10 * X ^ 2 * Y ^ 2 + 5 * Y ^ 4)) (W := ρ ^ 5)
    (by positivity) (by rw [show (ρ ^ 5) ^ 2 = (ρ ^ 2) ^ 5 by ring, hρ]; ring)
  have h1 := poly5 (M := M) c.b4 c.x4 c.x2y2 c.y4
  obtain ⟨h2, h3⟩ := ty (M := M) c ht0 ht c.hy
  have h4 := h2.mul (M := M) h1 1e65 2e21 h3 (by linarith [c.b4]) le_rfl (ε := 6.6e-15) (δ := 1e-150) (by norm_num) (by norm_num)
  rw [show t * Y * (5 * X ^ 4 - 10 * (X ^ 2 * Y ^ 2) + Y ^ 4) = t * (Y * (5 * X ^ 4 - 10 * X ^ 2 * Y ^ 2 + Y ^ 4)) by ring,
    show t * ρ * (16 * ρ ^ 4) = 16 * (t * ρ ^ 5) by ring] at h4
  exact (h4.sharpen (C := 16) (ε' := 1.1e-13) (by rw [abs_mul, abs_of_nonneg ht0]; exact mul_le_mul_of_nonneg_left hb.1 ht0) le_rfl (by norm_num)
    (by norm_num)).mono le_rfl (by norm_num)

theorem CellNear.tim5 : Near (t * ρ ^ 5) 1.1e-13 1e-40 (M.fl (M.fl (t * x) * M.fl (M.fl (M.fl (x2 * x2) - M.fl (10 * M.fl (x2 * y2))) + M.fl (5 * M.fl (y2 * y2)))))
    (t * (X * (X ^ 4 - 10 * X ^ 2 * Y ^ 2 + 5 * Y ^ 4))) := by
  have h0 := c.h0
  have hb := abs_le_norm_of (a := Y * (5 * X ^ 4 - 10 * X ^ 2 * Y ^ 2 + Y ^ 4)) (b := X * (X ^ 4 - 10 * X ^ 2 * Y ^ 2 + 5 * Y ^ 4)) (W := ρ ^ 5)
    (by positivity) (by rw [show (ρ ^ 5) ^ 2 = (ρ ^ 2) ^ 5 by ring, hρ]; ring)
  have h1 := poly5' (M := M) c.b4 c.x4 c.x2y2 c.y4
  obtain ⟨h2, h3⟩ := ty (M := M) c ht0 ht c.hx
  have h4 := h2.mul (M := M) h1 1e65 2e21 h3 (by linarith [c.b4]) le_rfl (ε := 6.6e-15) (δ := 1e-150) (by norm_num) (by norm_num)
  rw [show t * X * (X ^ 4 - 10 * (X ^ 2 * Y ^ 2) + 5 * Y ^ 4) = t * (X * (X ^ 4 - 10 * X ^ 2 * Y ^ 2 + 5 * Y ^ 4)) by ring,
    show t * ρ * (16 * ρ ^ 4) = 16 * (t * ρ ^ 5) by ring] at h4
  exact (h4.sharpen (C := 16) (ε' := 1.1e-13) (by rw [abs_mul, abs_of_nonneg ht0]; exact mul_le_mul_of_nonneg_left hb.2 ht0) le_rfl (by norm_num)
    (by norm_num)).mono le_rfl (by norm_num)

end terms
end Trento
