import Verif.Props.RoundedSafe

/-! # Deposition in rounded arithmetic: the cells skipped by the clipped index rectangle lie outside the cutoff -/

namespace Trento
open Spec
variable {M : Machine}

/-- The cutoff radius as used for the index rectangle. -/
theorem radius_lower (v : Fl M) (hv : 1e-10 ≤ v.val) : 5 * v.val * (1 - 1e-14) ≤ (sqrt (sqr (maxRadiusWidths * v) : Fl M)).val := by
  have e5 : (maxRadiusWidths : Fl M).val = 5 := M.lit_five
  rw [Fl.sqrt_val, Fl.sqr_val, Fl.mul_val, e5]
  have h1 := (abs_le.1 (M.radiusSq_err hv)).1
  generalize M.fl (M.fl (5 * v.val) * M.fl (5 * v.val)) = R at *
  have hs : 5 * v.val * (1 - 1e-15) ≤ Real.sqrt R := by
    apply Real.le_sqrt_of_sq_le
    nlinarith
  have h2 := M.fl_mono _ _ hs
  have hp : 0 < 5 * v.val * (1 - 1e-15) := by nlinarith
  have h3 := (abs_le.1 (M.fl_rel_err (x := 5 * v.val * (1 - 1e-15)) (by rw [abs_of_pos hp]; nlinarith))).1
  rw [abs_of_pos hp] at h3
  nlinarith

/-- Forward error of the index of a cell centre. -/
theorem index_numeric {n i : ℕ} {D X a1 c fc s q : ℝ} (hn : n ≤ 1000000) (hi : i < n) (hD : 1e-100 ≤ D) (hX : |X| ≤ n * D)
    (h1 : |a1 - (i + 1/2) * D| ≤ 1.2e-16 * |(i + 1/2) * D| + 1e-250) (h2 : |c - (a1 - X)| ≤ 1.2e-16 * |a1 - X| + 1e-250)
    (h3 : |fc - c| ≤ 1.2e-16 * |c| + 1e-250) (h4 : |s - (fc + X)| ≤ 1.2e-16 * |fc + X| + 1e-250)
    (h5 : |q - s / D| ≤ 1.2e-16 * |s / D| + 1e-250) : |q - (i + 1/2)| < 1/4 := by
  have hn1 : (n:ℝ) ≤ 1e6 := by
    have : (n:ℝ) ≤ ((1000000:ℕ):ℝ) := by exact_mod_cast hn
    norm_num at this ⊢; exact this
  have hin : (i:ℝ) + 1 ≤ n := by exact_mod_cast hi
  have hi0 : (0:ℝ) ≤ i := Nat.cast_nonneg i
  have hD0 : 0 < D := by linarith
  have hx := abs_le.1 hX
  obtain ⟨K, hK⟩ : ∃ K : ℝ, K = n * D := ⟨_, rfl⟩
  rw [← hK] at hx
  have hKD : D ≤ K := by rw [hK]; nlinarith
  have hc0 : 0 ≤ (i + 1/2) * D := by positivity
  have hcK : (i + 1/2) * D ≤ K := by rw [hK]; exact mul_le_mul_of_nonneg_right (by linarith) hD0.le
  have hη : (1e-250:ℝ) ≤ 1e-18 * K := by
    have : (1e-250:ℝ) ≤ 1e-18 * 1e-100 := by norm_num
    have h' : (1e-18:ℝ) * 1e-100 ≤ 1e-18 * K := mul_le_mul_of_nonneg_left (by linarith) (by norm_num)
    linarith
  obtain ⟨η, hηe⟩ : ∃ η : ℝ, η = 1e-250 := ⟨_, rfl⟩
  rw [← hηe] at h1 h2 h3 h4 h5 hη
  have hη1 : η ≤ 1e-20 := by rw [hηe]; norm_num
  clear hηe
  have hK0 : 0 < K := by linarith
  rw [abs_of_nonneg hc0] at h1
  have g1 := abs_le.1 h1
  have t1 : |a1 - X| ≤ 2.1 * K := abs_le.2 ⟨by linarith [hx.1, hx.2, g1.1, g1.2], by linarith [hx.1, hx.2, g1.1, g1.2]⟩
  have g2 := abs_le.1 (h2.trans (add_le_add_left (mul_le_mul_of_nonneg_left t1 (by norm_num)) _))
  have u1 := abs_le.1 t1
  have t2 : |c| ≤ 2.2 * K := abs_le.2 ⟨by linarith [g2.1, g2.2, u1.1, u1.2], by linarith [g2.1, g2.2, u1.1, u1.2]⟩
  have g3 := abs_le.1 (h3.trans (add_le_add_left (mul_le_mul_of_nonneg_left t2 (by norm_num)) _))
  have u2 := abs_le.1 t2
  have t3 : |fc + X| ≤ 3.3 * K := abs_le.2 ⟨by linarith [hx.1, hx.2, g3.1, g3.2, u2.1, u2.2], by linarith [hx.1, hx.2, g3.1, g3.2, u2.1, u2.2]⟩
  have g4 := abs_le.1 (h4.trans (add_le_add_left (mul_le_mul_of_nonneg_left t3 (by norm_num)) _))
  have hs : |s - (i + 1/2) * D| ≤ 1.2e-15 * K := abs_le.2
    ⟨by linarith [g1.1, g2.1, g3.1, g4.1], by linarith [g1.2, g2.2, g3.2, g4.2]⟩
  have hsd : |s / D - (i + 1/2)| ≤ 1.2e-15 * n := by
    have e : s / D - (i + 1/2) = (s - (i + 1/2) * D) / D := by field_simp
    rw [e, abs_div, abs_of_pos hD0, div_le_iff₀ hD0]
    rw [hK] at hs; linarith
  have g5 := abs_le.1 hsd
  have t5 : |s / D| ≤ 1.1 * n := abs_le.2 ⟨by linarith, by linarith⟩
  have g6 := abs_le.1 (h5.trans (add_le_add_left (mul_le_mul_of_nonneg_left t5 (by norm_num)) _))
  rw [abs_lt]
  constructor <;> linarith [g5.1, g5.2, g6.1, g6.2]

theorem Machine.fl_err' (x : ℝ) : |M.fl x - x| ≤ 1.2e-16 * |x| + 1e-250 :=
  (M.fl_err x).trans (add_le_add (mul_le_mul_of_nonneg_right Machine.uRound_le (abs_nonneg _)) Machine.etaRound_tiny)

theorem center_fl (c : EventCfg (Fl M)) {n i : ℕ} (hn : n ≤ 1000000) (hi : i < n) :
    (c.center (i:ℤ)).val = M.fl (M.fl (((i:ℝ) + 1/2) * c.dxy.val) - c.xymax.val) := by
  unfold EventCfg.center
  rw [Fl.sub_val, Fl.mul_val, Fl.add_val, M.lit_half, M.ofInt_exact _ (by rw [Nat.abs_cast]; omega)]
  rw [M.exact_dyadic (2 * i + 1) 1 (((i:ℤ):ℝ) + 1/2) (by push_cast; ring) (by
    have : (0:ℤ) ≤ 2 * i + 1 := by omega
    rw [abs_of_nonneg this]; omega) (by norm_num)]
  push_cast; rfl

/-- The quotient whose truncation is the index of a cell centre. -/
theorem center_index (c : EventCfg (Fl M)) {n i : ℕ} (hn : n ≤ 1000000) (hi : i < n) (hD : 1e-100 ≤ c.dxy.val) (hX : |c.xymax.val| ≤ n * c.dxy.val) :
    |M.fl (M.fl (M.fl (c.center (i:ℤ)).val + c.xymax.val) / c.dxy.val) - (i + 1/2)| < 1/4 := by
  rw [center_fl c hn hi]
  exact index_numeric hn hi hD hX (M.fl_err' _) (M.fl_err' _) (M.fl_err' _) (M.fl_err' _) (M.fl_err' _)

theorem castInt_fl_inv {x : Fl M} {k : ℤ} (h : castInt x = .ok k) : k = if 0 ≤ x.val then ⌊x.val⌋ else ⌈x.val⌉ := by
  apply castInt_eq_ok
  rw [← h]
  unfold castInt
  rw [Fl.trunc_eq, trunc_real]

/-- A cell below the index rectangle has its centre below the box. -/
theorem center_below_fl {c : EventCfg (Fl M)} {n i : ℕ} (hn : n ≤ 1000000) (hi : i < n) (hD : 1e-100 ≤ c.dxy.val) (hX : |c.xymax.val| ≤ n * c.dxy.val)
    {b r : Fl M} {k : ℤ} (hk : c.index (b - r) = .ok k) (h : (i:ℤ) < clip k 0 ((n:ℤ)-1)) : (c.center (i:ℤ)).val ≤ b.val - r.val := by
  by_contra hlt
  push Not at hlt
  have hD0 : 0 < c.dxy.val := by linarith
  have hq := center_index c hn hi hD hX
  have h1 := M.fl_mono _ _ hlt.le
  have h2 := M.fl_mono _ _ (add_le_add_left h1 c.xymax.val)
  have h3 := M.fl_mono _ _ (div_le_div_of_nonneg_right h2 hD0.le)
  have hk' := castInt_fl_inv hk
  have e : ((b - r + c.xymax) / c.dxy).val = M.fl (M.fl (M.fl (b.val - r.val) + c.xymax.val) / c.dxy.val) := rfl
  rw [e] at hk'
  generalize M.fl (M.fl (M.fl (b.val - r.val) + c.xymax.val) / c.dxy.val) = q at *
  generalize M.fl (M.fl (M.fl (c.center (i:ℤ)).val + c.xymax.val) / c.dxy.val) = q' at *
  have hq' := (abs_lt.1 hq).2
  have hqi : q < (i:ℝ) + 1 := by linarith
  have hki : (i:ℤ) + 1 ≤ k := by
    unfold clip at h
    split at h
    · omega
    · split at h <;> omega
  split at hk'
  · have : ⌊q⌋ < (i:ℤ) + 1 := Int.floor_lt.2 (by push_cast; exact hqi)
    omega
  · rename_i hneg
    have : ⌈q⌉ ≤ 0 := Int.ceil_le.2 (by push_cast; linarith)
    omega

/-- A cell above the index rectangle has its centre above the box. -/
theorem center_above_fl {c : EventCfg (Fl M)} {n i : ℕ} (hn : n ≤ 1000000) (hi : i < n) (hD : 1e-100 ≤ c.dxy.val) (hX : |c.xymax.val| ≤ n * c.dxy.val)
    {b r : Fl M} {k : ℤ} (hk : c.index (b + r) = .ok k) (h : clip k 0 ((n:ℤ)-1) < (i:ℤ)) : b.val + r.val ≤ (c.center (i:ℤ)).val := by
  by_contra hlt
  push Not at hlt
  have hD0 : 0 < c.dxy.val := by linarith
  have hq := center_index c hn hi hD hX
  have h1 := M.fl_mono _ _ hlt.le
  have h2 := M.fl_mono _ _ (add_le_add_left h1 c.xymax.val)
  have h3 := M.fl_mono _ _ (div_le_div_of_nonneg_right h2 hD0.le)
  have hk' := castInt_fl_inv hk
  have e : ((b + r + c.xymax) / c.dxy).val = M.fl (M.fl (M.fl (b.val + r.val) + c.xymax.val) / c.dxy.val) := rfl
  rw [e] at hk'
  generalize M.fl (M.fl (M.fl (b.val + r.val) + c.xymax.val) / c.dxy.val) = q at *
  generalize M.fl (M.fl (M.fl (c.center (i:ℤ)).val + c.xymax.val) / c.dxy.val) = q' at *
  have hq' := (abs_lt.1 hq).1
  have hi0 : (0:ℝ) ≤ i := Nat.cast_nonneg i
  have hqi : (i:ℝ) ≤ q := by linarith
  rw [if_pos (by linarith)] at hk'
  have : (i:ℤ) ≤ ⌊q⌋ := Int.le_floor.2 (by push_cast; exact hqi)
  unfold clip at h
  split at h
  · omega
  · split at h <;> omega

/-- The box contains every constituent. -/
theorem boundaryLoop_fl (cs : List (Constituent (Fl M))) (b : Box (Fl M)) (hx : b.xmin.val ≤ b.xmax.val) (hy : b.ymin.val ≤ b.ymax.val) :
    let b' := boundaryLoop cs b
    b'.xmin.val ≤ b.xmin.val ∧ b.xmax.val ≤ b'.xmax.val ∧ b'.ymin.val ≤ b.ymin.val ∧ b.ymax.val ≤ b'.ymax.val ∧
      ∀ c ∈ cs, b'.xmin.val ≤ c.x.val ∧ c.x.val ≤ b'.xmax.val ∧ b'.ymin.val ≤ c.y.val ∧ c.y.val ≤ b'.ymax.val := by
  induction cs generalizing b with
  | nil => simp [boundaryLoop]
  | cons c cs ih =>
    have key : ∀ b1 : Box (Fl M), b1.xmin.val ≤ b.xmin.val → b.xmax.val ≤ b1.xmax.val → b1.ymin.val ≤ b.ymin.val → b.ymax.val ≤ b1.ymax.val →
        b1.xmin.val ≤ c.x.val → c.x.val ≤ b1.xmax.val → b1.ymin.val ≤ c.y.val → c.y.val ≤ b1.ymax.val →
        let b' := boundaryLoop cs b1
        b'.xmin.val ≤ b.xmin.val ∧ b.xmax.val ≤ b'.xmax.val ∧ b'.ymin.val ≤ b.ymin.val ∧ b.ymax.val ≤ b'.ymax.val ∧
          ∀ q ∈ c :: cs, b'.xmin.val ≤ q.x.val ∧ q.x.val ≤ b'.xmax.val ∧ b'.ymin.val ≤ q.y.val ∧ q.y.val ≤ b'.ymax.val := by
      intro b1 e1 e2 e3 e4 f1 f2 f3 f4
      obtain ⟨k1, k2, k3, k4, k5⟩ := ih b1 (by linarith) (by linarith)
      refine ⟨by linarith, by linarith, by linarith, by linarith, ?_⟩
      intro q hq
      rcases List.mem_cons.1 hq with rfl | hq
      · exact ⟨by linarith, by linarith, by linarith, by linarith⟩
      · exact k5 q hq
    unfold boundaryLoop
    simp only [Fl.lt_eq, decide_eq_true_eq]
    split_ifs <;> apply key <;> dsimp only at * <;> linarith

/-- If a nucleon was deposited, then each cell either received its thickness or lies outside the cutoff of all its constituents. -/
theorem depositNucleon_fl (w v : Fl M) (hv : 1e-10 ≤ v.val) (m : ℕ) (σ : Fl M) (nc : Bool) (k : Fl M) (c : EventCfg (Fl M)) {n : ℕ} (hns : c.nsteps = n)
    (hn : n ≤ 1000000) (hD : 1e-100 ≤ c.dxy.val) (hX : |c.xymax.val| ≤ n * c.dxy.val) (a : NucleonData (Fl M))
    (hf : ∀ q ∈ a.constituents, 0 ≤ q.fluctuation.val) (g g' : Grid (Fl M) n)
    (h : depositNucleon c (NucleonCommon.make w v m σ nc k) false a g = .ok g') (iy ix : Fin n) :
    (∃ t, (NucleonCommon.make w v m σ nc k).thickness false a (c.center ix.val) (c.center iy.val) = .ok t ∧ g' iy ix = g iy ix + t) ∨
    (g' iy ix = g iy ix ∧ ∀ q ∈ a.constituents, (5 * v.val * (1 - 1e-14))^2 ≤ distSq q.exact (c.center ix.val).val (c.center iy.val).val) := by
  obtain ⟨b, x0, x1, y0, y1, hb, h1, h2, h3, h4⟩ := depositNucleon_ok_inv h
  choose T hT hT0 using fun iy ix : Int => thickness_fl_ok w v hv m σ nc k a hf (c.center ix) (c.center iy)
  rw [depositNucleon_rect hns (by have := iy.isLt; omega) hT hb h1 h2 h3 h4 g] at h
  simp only [Except.ok.injEq] at h
  have hval := congrFun (congrFun h iy) ix
  split at hval
  · left
    exact ⟨_, hT _ _, hval.symm⟩
  · rename_i hout
    right
    refine ⟨hval.symm, ?_⟩
    intro q hq
    obtain ⟨q0, qs, hqs⟩ := List.exists_cons_of_ne_nil (List.ne_nil_of_mem hq)
    have hb' : b = ⟨(boundaryLoop qs ⟨q0.x, q0.x, q0.y, q0.y⟩).xmin - sqrt (sqr (maxRadiusWidths * v)), (boundaryLoop qs ⟨q0.x, q0.x, q0.y, q0.y⟩).xmax + sqrt (sqr (maxRadiusWidths * v)),
         (boundaryLoop qs ⟨q0.x, q0.x, q0.y, q0.y⟩).ymin - sqrt (sqr (maxRadiusWidths * v)), (boundaryLoop qs ⟨q0.x, q0.x, q0.y, q0.y⟩).ymax + sqrt (sqr (maxRadiusWidths * v))⟩ := by
      unfold NucleonCommon.boundary at hb
      rw [hqs] at hb
      simp only [Except.ok.injEq] at hb
      exact hb.symm
    subst hb'
    have hbl := boundaryLoop_fl qs ⟨q0.x, q0.x, q0.y, q0.y⟩ le_rfl le_rfl
    dsimp only at h1 h2 h3 h4
    have hr := radius_lower v hv
    have hin : (boundaryLoop qs ⟨q0.x, q0.x, q0.y, q0.y⟩).xmin.val ≤ q.x.val ∧ q.x.val ≤ (boundaryLoop qs ⟨q0.x, q0.x, q0.y, q0.y⟩).xmax.val ∧
        (boundaryLoop qs ⟨q0.x, q0.x, q0.y, q0.y⟩).ymin.val ≤ q.y.val ∧ q.y.val ≤ (boundaryLoop qs ⟨q0.x, q0.x, q0.y, q0.y⟩).ymax.val := by
      obtain ⟨k1, k2, k3, k4, k5⟩ := hbl
      rw [hqs] at hq
      rcases List.mem_cons.1 hq with rfl | hq
      · exact ⟨k1, k2, k3, k4⟩
      · exact k5 q hq
    clear hbl
    generalize boundaryLoop qs ⟨q0.x, q0.x, q0.y, q0.y⟩ = B at *
    generalize (sqrt (sqr (maxRadiusWidths * v)) : Fl M) = r at *
    have hr0 : 0 ≤ 5 * v.val * (1 - 1e-14) := by nlinarith
    obtain ⟨i1, i2, i3, i4⟩ := hin
    have hex : q.exact.x = q.x.val := rfl
    have hey : q.exact.y = q.y.val := rfl
    unfold distSq
    rw [hex, hey]
    simp only [not_and_or, not_le] at hout
    rcases hout with (ho | ho) | (ho | ho)
    · have := center_below_fl hn iy.isLt hD hX h3 ho
      nlinarith [sq_nonneg ((c.center ix.val).val - q.x.val)]
    · have := center_above_fl hn iy.isLt hD hX h4 ho
      nlinarith [sq_nonneg ((c.center ix.val).val - q.x.val)]
    · have := center_below_fl hn ix.isLt hD hX h1 ho
      nlinarith [sq_nonneg ((c.center iy.val).val - q.y.val)]
    · have := center_above_fl hn ix.isLt hD hX h2 ho
      nlinarith [sq_nonneg ((c.center iy.val).val - q.y.val)]

end Trento
