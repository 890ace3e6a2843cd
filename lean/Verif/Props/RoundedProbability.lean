import Verif.Props.RoundedCollision

/-! # C83: the participation probability in rounded arithmetic -/

namespace Trento
open Spec
variable {M : Machine}

/-! ## Real-number facts -/

theorem exp_diff (a b : ℝ) : |Real.exp a - Real.exp b| ≤ |a - b| * Real.exp (max a b) := by
  wlog h : b ≤ a generalizing a b
  · rw [abs_sub_comm, abs_sub_comm a b, max_comm]; exact this b a (le_of_not_ge h)
  rw [max_eq_left h, abs_of_nonneg (sub_nonneg.2 h), abs_of_nonneg (sub_nonneg.2 (Real.exp_le_exp.2 h))]
  have h1 := Real.add_one_le_exp (b - a)
  have h2 : Real.exp b = Real.exp a * Real.exp (b - a) := by rw [← Real.exp_add]; congr 1; ring
  rw [h2]
  nlinarith [Real.exp_pos a]

theorem mul_exp_neg_half (z : ℝ) : z * Real.exp (-z / 2) ≤ 1 := by
  have h1 := Real.add_one_le_exp (z / 2 - 1)
  have h2 : Real.exp (z / 2 - 1) * Real.exp (-z / 2) = Real.exp (-1) := by rw [← Real.exp_add]; congr 1; ring
  have h3 : Real.exp (-1) ≤ 1/2 := by
    have := Real.add_one_le_exp (1:ℝ)
    rw [Real.exp_neg]
    rw [inv_le_comm₀ (Real.exp_pos _) (by norm_num)]
    linarith
  have h4 := mul_le_mul_of_nonneg_right h1 (Real.exp_pos (-z/2)).le
  rw [h2] at h4
  have : z * Real.exp (-z/2) = 2 * ((z / 2 - 1 + 1) * Real.exp (-z / 2)) := by ring
  rw [this]; linarith

/-- Change of a Gaussian factor when its exponent has a small relative error. -/
theorem exp_arg_err {z y : ℝ} (hz : 0 ≤ z) (h : |y + z| ≤ 2e-15 * z + 1e-220) : |Real.exp y - Real.exp (-z)| ≤ 2.1e-15 := by
  have h' := abs_le.1 h
  have hm : max y (-z) ≤ -z / 2 + 1e-200 := by
    apply max_le <;> linarith
  have h1 := exp_diff y (-z)
  rw [show y - -z = y + z by ring] at h1
  have h2 := mul_exp_neg_half z
  have h3 : Real.exp (max y (-z)) ≤ Real.exp (-z / 2) * Real.exp 1e-200 := by
    rw [← Real.exp_add]; exact Real.exp_le_exp.2 hm
  have h4 : Real.exp (1e-200:ℝ) ≤ 1.01 := by
    have := abs_le.1 (Machine.exp_near (δ := 1e-200) (by rw [abs_of_nonneg (by norm_num)]; norm_num))
    linarith
  have h5 : Real.exp (-z / 2) ≤ 1 := Real.exp_le_one_iff.2 (by linarith)
  have hp := Real.exp_pos (-z / 2)
  have hp2 := Real.exp_pos (max y (-z))
  generalize Real.exp (max y (-z)) = X at *
  generalize Real.exp (1e-200:ℝ) = R at *
  generalize Real.exp (-z / 2) = S at *
  have h6 : X ≤ S * 1.01 := h3.trans (mul_le_mul_of_nonneg_left h4 hp.le)
  have h7 : |y + z| * X ≤ (2e-15 * z + 1e-220) * (S * 1.01) := mul_le_mul h h6 hp2.le (by positivity)
  have h8 : (2e-15 * z + 1e-220) * (S * 1.01) = 2.02e-15 * (z * S) + 1.01e-220 * S := by ring
  linarith

/-- Exponent of one pair of constituents. -/
theorem overlap_arg {d D W v : ℝ} (hv : 1e-10 ≤ v) (hD : 0 ≤ D) (hd : |d - D| ≤ 9.6e-16 * D + 8e-250) (hW : |W - v^2| ≤ 2e-16 * v^2) :
    |M.fl (M.fl (-(1/4) * d) / W) + D / (4 * v^2)| ≤ 2e-15 * (D / (4 * v^2)) + 1e-220 := by
  have hV : 1e-20 ≤ v^2 := by nlinarith
  generalize v^2 = V at *
  have hV0 : 0 < V := by linarith
  have hd := abs_le.1 hd
  have hW := abs_le.1 hW
  have h1 := M.fl_near (-(1/4) * d)
  have h2 := M.fl_near (M.fl (-(1/4) * d) / W)
  generalize M.fl (-(1/4) * d) = n at *
  generalize M.fl (n / W) = y at *
  have hda : |-(1/4) * d| ≤ D + 1e-249 := by
    rw [abs_mul]
    have : |d| ≤ 2 * D + 1e-249 := by rw [abs_le]; constructor <;> linarith
    have e : |(-(1/4):ℝ)| = 1/4 := by rw [abs_neg, abs_of_pos (by norm_num)]
    rw [e]; linarith
  have hda' : |-(1/4) * d| ≤ D / 4 * (1 + 1e-15) + 1e-249 := by
    rw [abs_le]; constructor <;> linarith
  have hn : |n + D / 4| ≤ 1.2e-15 * (D / 4) + 1e-248 := by
    have h1 := abs_le.1 (h1.trans (add_le_add (mul_le_mul_of_nonneg_left hda' (by norm_num)) le_rfl))
    rw [abs_le]; constructor <;> linarith
  have hW0 : V * 0.99 ≤ W := by linarith
  have hWp : 0 < W := by linarith
  -- quotient
  have e1 : n / W + D / (4 * V) = ((n + D / 4) * V + D / 4 * (W - V)) / (W * V) := by
    field_simp; ring
  have hz : 0 ≤ D / (4 * V) := by positivity
  have hq : |n / W + D / (4 * V)| ≤ 1.5e-15 * (D / (4 * V)) + 1e-227 := by
    rw [e1, abs_div, abs_of_pos (mul_pos hWp hV0), div_le_iff₀ (mul_pos hWp hV0)]
    have k1 : |(n + D / 4) * V + D / 4 * (W - V)| ≤ (1.2e-15 * (D / 4) + 1e-248) * V + D / 4 * (2e-16 * V) := by
      refine (abs_add_le _ _).trans (add_le_add ?_ ?_)
      · rw [abs_mul, abs_of_pos hV0]; exact mul_le_mul_of_nonneg_right hn hV0.le
      · rw [abs_mul, abs_of_nonneg (show 0 ≤ D / 4 by linarith)]
        exact mul_le_mul_of_nonneg_left (abs_le.2 ⟨by linarith, by linarith⟩) (by linarith)
    refine k1.trans ?_
    have e2 : (1.5e-15 * (D / (4 * V)) + 1e-227) * (W * V) = 1.5e-15 * (D / 4) * W + 1e-227 * W * V := by
      field_simp
    rw [e2]
    have k2 : 1.5e-15 * (D / 4) * (V * 0.99) ≤ 1.5e-15 * (D / 4) * W := mul_le_mul_of_nonneg_left hW0 (by positivity)
    have k3 : (1e-248:ℝ) * V ≤ 1e-227 * W * V := mul_le_mul_of_nonneg_right (by linarith) hV0.le
    have k4 : 0 ≤ D / 4 * V := by positivity
    nlinarith
  generalize D / (4 * V) = z at *
  have hq' := abs_le.1 hq
  have hqa : |n / W| ≤ z * 1.01 + 1e-227 := by rw [abs_le]; constructor <;> linarith
  have h2 := abs_le.1 (h2.trans (add_le_add (mul_le_mul_of_nonneg_left hqa (by norm_num)) le_rfl))
  rw [abs_le]; constructor <;> linarith

/-! ## The overlap sum -/

theorem overlap_term (v : Fl M) (hv : 1e-10 ≤ v.val) (a b : Constituent (Fl M)) :
    Near 1 3e-15 0 (exp (-(lit 0.25) * (sqr (a.x - b.x) + sqr (a.y - b.y)) / sqr v) : Fl M).val
      (Real.exp (-((a.x.val - b.x.val)^2 + (a.y.val - b.y.val)^2) / (4 * v.val^2))) := by
  have hpos : 0 ≤ (a.x.val - b.x.val)^2 + (a.y.val - b.y.val)^2 := by positivity
  have hz : 0 ≤ ((a.x.val - b.x.val)^2 + (a.y.val - b.y.val)^2) / (4 * v.val^2) := by positivity
  have h1 : Real.exp (-(((a.x.val - b.x.val)^2 + (a.y.val - b.y.val)^2) / (4 * v.val^2))) ≤ 1 := Real.exp_le_one_iff.2 (by linarith)
  have hu := Machine.uRound_le
  have he := Machine.etaRound_tiny
  rw [neg_div]
  refine ⟨by rw [abs_of_pos (Real.exp_pos _)]; exact h1, ?_, by norm_num, le_rfl⟩
  have ha := overlap_arg (M := M) (d := (sqr (a.x - b.x) + sqr (a.y - b.y) : Fl M).val) hv hpos (by
    have := M.dist_err (a.x.val - b.x.val) (a.y.val - b.y.val)
    rw [Fl.add_val, Fl.sqr_val, Fl.sqr_val, Fl.sub_val, Fl.sub_val]
    refine this.trans ?_
    have : uRound * ((a.x.val - b.x.val)^2 + (a.y.val - b.y.val)^2) ≤ 1.2e-16 * ((a.x.val - b.x.val)^2 + (a.y.val - b.y.val)^2) :=
      mul_le_mul_of_nonneg_right (by linarith) hpos
    linarith) (M.widthSq_err hv)
  have hval : (exp (-(lit 0.25) * (sqr (a.x - b.x) + sqr (a.y - b.y)) / sqr v) : Fl M).val =
      M.exp (M.fl (M.fl (-(1/4) * (sqr (a.x - b.x) + sqr (a.y - b.y) : Fl M).val) / M.fl (v.val * v.val))) := by
    rw [Fl.exp_val, Fl.div_val, Fl.mul_val, Fl.neg_val, M.lit_quarter, Fl.sqr_val v]
  rw [hval]
  have h2 := exp_arg_err hz ha
  have h3 := M.exp_err (M.fl (M.fl (-(1/4) * (sqr (a.x - b.x) + sqr (a.y - b.y) : Fl M).val) / M.fl (v.val * v.val)))
  generalize M.fl (M.fl (-(1/4) * (sqr (a.x - b.x) + sqr (a.y - b.y) : Fl M).val) / M.fl (v.val * v.val)) = y at *
  generalize Real.exp (-(((a.x.val - b.x.val)^2 + (a.y.val - b.y.val)^2) / (4 * v.val^2))) = T at *
  have h2 := abs_le.1 h2
  have hey : Real.exp y ≤ 1.01 := by linarith
  have hey0 := Real.exp_pos y
  have h4 : uRound * Real.exp y ≤ 1.2e-16 * 1.01 := mul_le_mul (by linarith) hey hey0.le (by norm_num)
  have h3 : |M.exp y - Real.exp y| ≤ 5e-16 := h3.trans (by linarith)
  have h3 := abs_le.1 h3
  rw [abs_le]
  constructor <;> linarith

/-- The exact overlap sum. -/
noncomputable def exactOverlap (v : ℝ) (as bs : List (Constituent (Fl M))) : ℝ :=
  (as.map fun a => (bs.map fun b => Real.exp (-((a.x.val - b.x.val)^2 + (a.y.val - b.y.val)^2) / (4 * v^2))).sum).sum

theorem overlapSum_near (v : Fl M) (hv : 1e-10 ≤ v.val) (as bs : List (Constituent (Fl M))) (m : ℕ) (hA : as.length = m) (hB : bs.length = m) (hm2 : m ≤ 1000000) :
    Near ((m:ℝ)^2) (3e-15 + (m:ℝ)^2 * 1.3e-16) (2 * (m:ℝ)^2 * 1e-250) (overlapSum (sqr v) as bs).val (exactOverlap v.val as bs) := by
  have hmr : (m:ℝ) ≤ 1e6 := by
    have : ((m:ℕ):ℝ) ≤ ((1000000:ℕ):ℝ) := Nat.cast_le.2 hm2
    norm_num at this ⊢; exact this
  have hm0 : (0:ℝ) ≤ m := Nat.cast_nonneg m
  let ps : List (Constituent (Fl M) × Constituent (Fl M)) := as.flatMap fun a => bs.map fun b => (a, b)
  have hlen : (ps.length : ℝ) = (m:ℝ)^2 := by
    have : ps.length = m * m := by
      simp only [ps, List.length_flatMap, List.length_map, List.map_const', List.sum_replicate, hA, hB, smul_eq_mul]
    rw [this]; push_cast; ring
  have hfold : overlapSum (sqr v) as bs = ps.foldl (fun acc p => acc + exp (-(lit 0.25) * (sqr (p.1.x - p.2.x) + sqr (p.1.y - p.2.y)) / sqr v)) (lit 0) := by
    simp only [ps, List.foldl_flatMap, List.foldl_map]
    rfl
  have key := fold_near (M := M) (fun (acc : Fl M) (p : Constituent (Fl M) × Constituent (Fl M)) => acc + exp (-(lit 0.25) * (sqr (p.1.x - p.2.x) + sqr (p.1.y - p.2.y)) / sqr v))
    Fl.val (fun p => Real.exp (-((p.1.x.val - p.2.x.val)^2 + (p.1.y.val - p.2.y.val)^2) / (4 * v.val^2))) (fun _ => 1) 3e-15 0 (by norm_num) le_rfl ps
    (fun s p _ => Or.inr ⟨_, overlap_term v hv p.1 p.2, by rw [Fl.add_val]⟩) (lit 0) 0 0 0 (by rw [hlen]; push_cast; nlinarith) (by norm_num)
    (by rw [M.lit_zero]; exact ⟨by simp, by simp, by norm_num, by norm_num⟩)
  rw [← hfold, hlen] at key
  have hs1 : (ps.map fun _ => (1:ℝ)).sum = (m:ℝ)^2 := by
    rw [List.map_const', List.sum_replicate, nsmul_eq_mul, mul_one, hlen]
  have hs2 : (ps.map fun p => Real.exp (-((p.1.x.val - p.2.x.val)^2 + (p.1.y.val - p.2.y.val)^2) / (4 * v.val^2))).sum = exactOverlap v.val as bs := by
    simp only [ps, List.map_flatMap, exactOverlap, List.map_map]
    clear hfold key hs1 hlen ps hA
    induction as with
    | nil => rfl
    | cons a as ih => simp only [List.flatMap_cons, List.sum_append, List.map_cons, List.sum_cons, ih]; rfl
  rw [hs1, hs2] at key
  simpa using key

theorem overlapSum_fl_nonneg (v2 : Fl M) (as bs : List (Constituent (Fl M))) : 0 ≤ (overlapSum v2 as bs).val := by
  have inner : ∀ (a : Constituent (Fl M)) (bs : List (Constituent (Fl M))) (acc : Fl M), 0 ≤ acc.val →
      0 ≤ (bs.foldl (init := acc) fun acc qB => acc + exp (-(lit 0.25) * (sqr (a.x - qB.x) + sqr (a.y - qB.y)) / v2)).val := by
    intro a bs
    induction bs with
    | nil => intro acc h; exact h
    | cons b bs ih =>
      intro acc h
      rw [List.foldl_cons]
      apply ih
      rw [Fl.add_val, Fl.exp_val]
      exact M.fl_nonneg (add_nonneg h (M.exp_nonneg _))
  have outer : ∀ (as : List (Constituent (Fl M))) (acc : Fl M), 0 ≤ acc.val →
      0 ≤ (as.foldl (init := acc) fun acc a => bs.foldl (init := acc) fun acc qB => acc + exp (-(lit 0.25) * (sqr (a.x - qB.x) + sqr (a.y - qB.y)) / v2)).val := by
    intro as
    induction as with
    | nil => intro acc h; exact h
    | cons a as ih =>
      intro acc h
      rw [List.foldl_cons]
      exact ih _ (inner a bs acc h)
  exact outer as (lit 0) (by rw [M.lit_zero])

/-! ## The probability -/

theorem near_div {W ε δ a x : ℝ} (h : Near W ε δ a x) {c : ℝ} (hc : 1 ≤ c) : Near (W / c) ε δ (a / c) (x / c) := by
  have hc0 : 0 < c := by linarith
  refine ⟨?_, ?_, h.he, h.hd⟩
  · rw [abs_div, abs_of_pos hc0]; exact div_le_div_of_nonneg_right h.size hc0.le
  · rw [← sub_div, abs_div, abs_of_pos hc0, div_le_iff₀ hc0]
    have e : (ε * (W / c) + δ) * c = ε * W + δ * c := by field_simp
    rw [e]
    have := mul_le_mul_of_nonneg_left hc h.hd
    linarith [h.err]

theorem overlapTAB_exact (v : ℝ) (m : ℕ) (as bs : List (Constituent (Fl M))) :
    overlapTAB v m (as.map Constituent.exact) (bs.map Constituent.exact) = 1 / (m:ℝ)^2 * (1 / (4 * Real.pi * v^2)) * exactOverlap v as bs := by
  unfold overlapTAB exactOverlap
  rw [mul_assoc (1/(m:ℝ)^2)]
  congr 1
  rw [← List.sum_map_mul_left, List.map_map]
  congr 1
  apply List.map_congr_left
  intro a _
  rw [← List.sum_map_mul_left]
  simp only [Function.comp, List.map_map]
  congr 1
  apply List.map_congr_left
  intro b _
  simp only [Function.comp]
  rw [div_eq_mul_inv, mul_comm, one_div]
  rfl

/-- The probability of a miss computed in rounded arithmetic. -/
theorem oneMinusProb_near (w v : Fl M) (hv : 1e-10 ≤ v.val) (hv2 : v.val ≤ 1e6) (m : ℕ) (hm : 1 ≤ m) (hm2 : m ≤ 1000000) (σ : Fl M) (hσ : 0 ≤ σ.val)
    (ncoll : Bool) (k : Fl M) (as bs : List (Constituent (Fl M))) (hA : as.length = m) (hB : bs.length = m) :
    |((NucleonCommon.make w v m σ ncoll k).oneMinusProb (overlapSum (NucleonCommon.make w v m σ ncoll k).constituentWidthSq as bs)).val -
      Real.exp (-σ.val * overlapTAB v.val m (as.map Constituent.exact) (bs.map Constituent.exact))| ≤
      (6e-15 + (m:ℝ)^2 * 1.4e-16) * (σ.val / (4 * Real.pi * v.val^2)) + 6e-16 ∧
    ((NucleonCommon.make w v m σ ncoll k).oneMinusProb (overlapSum (NucleonCommon.make w v m σ ncoll k).constituentWidthSq as bs)).val ≤ 1 := by
  have hv0 : 0 < v.val := lt_of_lt_of_le (by norm_num) hv
  have hpi := Real.pi_pos
  have hmr : (1:ℝ) ≤ m := by exact_mod_cast hm
  have hmr2 : (m:ℝ) ≤ 1e6 := by
    have : ((m:ℕ):ℝ) ≤ ((1000000:ℕ):ℝ) := Nat.cast_le.2 hm2
    norm_num at this ⊢; exact this
  have hmi : (ofInt (m:ℤ) : Fl M).val = m := by
    rw [M.ofInt_exact _ (by rw [Nat.abs_cast]; exact_mod_cast (by omega : m < 2^53))]; simp
  have h2m : (lit 2 * ofInt (m:ℤ) : Fl M).val = 2 * m := by
    rw [Fl.mul_val, M.lit_two, hmi]
    have := M.exact_int (2 * m) (by rw [abs_of_nonneg (by positivity)]; omega)
    push_cast at this; exact this
  have hval : ((NucleonCommon.make w v m σ ncoll k).oneMinusProb (overlapSum (NucleonCommon.make w v m σ ncoll k).constituentWidthSq as bs)).val =
      M.exp (M.fl (M.fl (M.fl (-σ.val * (oneDivTwoPi / sqr v / ofInt m : Fl M).val) / (2 * m)) * (overlapSum (sqr v) as bs).val)) := by
    unfold NucleonCommon.oneMinusProb
    show (exp (-σ * (oneDivTwoPi / sqr v / ofInt m) / (lit 2 * ofInt (m:ℤ)) * overlapSum (sqr v) as bs) : Fl M).val = _
    rw [Fl.exp_val, Fl.mul_val, Fl.div_val, Fl.mul_val, Fl.neg_val, h2m]
  have hS := overlapSum_near v hv as bs m hA hB hm2
  have hS0 := overlapSum_fl_nonneg (sqr v) as bs
  have hT := overlapTAB_nonneg v.val m (as.map Constituent.exact) (bs.map Constituent.exact)
  have hpf := prefactor_fl v hv hv2 m hm hm2
  have hTe := overlapTAB_exact v.val m as bs
  rw [hval]
  generalize (oneDivTwoPi / sqr v / ofInt m : Fl M).val = pf at *
  generalize (overlapSum (sqr v) as bs).val = S at *
  generalize overlapTAB v.val m (as.map Constituent.exact) (bs.map Constituent.exact) = T at *
  generalize exactOverlap v.val as bs = X at *
  have hpf0 : 0 < 1 / (2 * Real.pi * v.val^2 * m) := by positivity
  have nP : Near (1 / (2 * Real.pi * v.val^2 * m)) 1e-15 0 pf (1 / (2 * Real.pi * v.val^2 * m)) :=
    ⟨by rw [abs_of_pos hpf0], by linarith, by norm_num, le_rfl⟩
  have nσ : Near σ.val 0 0 (-σ.val) (-σ.val) := Near.exact (by rw [abs_neg, abs_of_nonneg hσ])
  have n1 := nσ.mul (M := M) nP σ.val (1 / (2 * Real.pi * v.val^2 * m)) le_rfl le_rfl (W := σ.val * (1 / (2 * Real.pi * v.val^2 * m))) le_rfl
    (ε := 1.2e-15) (δ := 1e-250) (by norm_num) (by norm_num)
  have n2 := (near_div n1 (c := 2 * m) (by linarith)).round (M := M) le_rfl (ε' := 1.4e-15) (δ' := 2.1e-250) (by norm_num) (by norm_num)
  have n2 := n2.mono (ε' := 1.4e-15) (δ' := 2.1e-250) le_rfl le_rfl
  have hWK : σ.val * (1 / (2 * Real.pi * v.val^2 * m)) / (2 * m) * (m:ℝ)^2 = σ.val / (4 * Real.pi * v.val^2) := by
    field_simp; ring
  have hW1 : 0 ≤ σ.val * (1 / (2 * Real.pi * v.val^2 * m)) / (2 * m) := by positivity
  have hexact : -σ.val * (1 / (2 * Real.pi * v.val^2 * m)) / (2 * m) * X = -(σ.val * T) := by
    rw [hTe]; field_simp; ring
  have hK : 0 ≤ σ.val / (4 * Real.pi * v.val^2) := by positivity
  have hy0 : M.fl (M.fl (M.fl (-σ.val * pf) / (2 * m)) * S) ≤ 0 := by
    have hpfp : 0 ≤ pf := by have := abs_le.1 hpf; linarith
    have a1 : M.fl (-σ.val * pf) ≤ 0 := M.fl_nonpos (by nlinarith [mul_nonneg hσ hpfp])
    have a2 : M.fl (M.fl (-σ.val * pf) / (2 * m)) ≤ 0 := M.fl_nonpos (div_nonpos_of_nonpos_of_nonneg a1 (by positivity))
    exact M.fl_nonpos (mul_nonpos_of_nonpos_of_nonneg a2 hS0)
  have hq2 : (m:ℝ)^2 ≤ 1e12 := by nlinarith
  have hq1 : (1:ℝ) ≤ (m:ℝ)^2 := by nlinarith
  have hW1K : σ.val * (1 / (2 * Real.pi * v.val^2 * m)) / (2 * m) ≤ σ.val / (4 * Real.pi * v.val^2) := by
    rw [← hWK]; nlinarith
  generalize hy : M.fl (M.fl (M.fl (-σ.val * pf) / (2 * m)) * S) = y at *
  refine ⟨?_, M.exp_le_one _ hy0⟩
  have n3 : Near (σ.val / (4 * Real.pi * v.val^2)) (5e-15 + (m:ℝ)^2 * 1.4e-16) (1e-230 * (σ.val / (4 * Real.pi * v.val^2)) + 1e-230) y (-(σ.val * T)) := by
    rw [← hy, ← hexact]
    generalize (m:ℝ)^2 = q at *
    generalize σ.val / (4 * Real.pi * v.val^2) = K at *
    generalize σ.val * (1 / (2 * Real.pi * v.val^2 * m)) / (2 * m) = W1 at *
    refine n2.mul (M := M) hS W1 q le_rfl le_rfl hWK.le ?_ ?_
    · nlinarith
    · have k1 : q * W1 ≤ 1e12 * K := mul_le_mul hq2 hW1K hW1 (by norm_num)
      have k2 : q * q ≤ 1e12 * 1e12 := mul_le_mul hq2 hq2 (by linarith) (by norm_num)
      nlinarith
  have hd := exp_diff y (-(σ.val * T))
  have hmax : Real.exp (max y (-(σ.val * T))) ≤ 1 := Real.exp_le_one_iff.2 (max_le hy0 (by nlinarith [mul_nonneg hσ hT]))
  have hd' : |Real.exp y - Real.exp (-(σ.val * T))| ≤ |y - -(σ.val * T)| := by
    refine hd.trans ?_
    have := mul_le_mul_of_nonneg_left hmax (abs_nonneg (y - -(σ.val * T)))
    linarith
  have he1 := M.exp_err y
  have hey : Real.exp y ≤ 1 := Real.exp_le_one_iff.2 hy0
  have hu := Machine.uRound_le
  have hu0 := Machine.uRound_pos
  have he := Machine.etaRound_tiny
  have hue : uRound * Real.exp y ≤ 1.2e-16 * 1 := mul_le_mul hu hey (Real.exp_pos y).le (by norm_num)
  have h3 := n3.err
  rw [neg_mul]
  have t := abs_sub_le (M.exp y) (Real.exp y) (Real.exp (-(σ.val * T)))
  generalize σ.val / (4 * Real.pi * v.val^2) = K at *
  nlinarith

section participate
variable {E D : Type} [Rng (Fl M) E D]

theorem sampled_length (nc : NucleonCommon (Fl M)) (n : NucleonData (Fl M)) (h : n.constituentsExist = true → n.constituents.length = nc.constituentNumber) (w : Rand E D) :
    (nc.sampleConstituents n w).1.constituents.length = nc.constituentNumber := by
  unfold NucleonCommon.sampleConstituents
  split
  · exact h (by assumption)
  · have hl : ∀ (k : ℕ) (x y : Fl M) (w : Rand E D), (drawConstituents nc k x y w).1.1.length = k := by
      intro k
      induction k with
      | zero => intros; rfl
      | succ k ih =>
        intro x y w
        unfold drawConstituents
        simp only [List.length_cons, ih]
    simp only [List.length_map, hl]

/-- **C83.** In rounded arithmetic (constituent width between 1e-10 and 1e6 fm, 1 to 10⁶ constituents), for a pair that is not a pair of participants already
(or with `--ncoll`): if the exact distance exceeds six widths by more than a relative 1e-15, nothing happens; if it is smaller than six
widths by more than that, the pair collides exactly if a uniform number exceeds the computed probability of a miss, and that
probability differs from `exp(-σ T_AB)` by at most `(6e-15 + 1.4e-16 m²) σ/(4 π v²) + 6e-16`. -/
theorem C83_participation (w v : Fl M) (hw : 0 ≤ w.val) (hv : 1e-10 ≤ v.val) (hv2 : v.val ≤ 1e6) (m : ℕ) (hm : 1 ≤ m) (hm2 : m ≤ 1000000)
    (σ : Fl M) (hσ : 0 ≤ σ.val) (ncoll : Bool) (k : Fl M) (A B : NucleonData (Fl M))
    (hA : A.constituentsExist = true → A.constituents.length = m) (hB : B.constituentsExist = true → B.constituents.length = m)
    (hp : ¬ (A.isParticipant = true ∧ B.isParticipant = true) ∨ ncoll = true) (r : Rand E D) :
    let dist := Real.sqrt ((A.x.val - B.x.val)^2 + (A.y.val - B.y.val)^2)
    let res := (NucleonCommon.make w v m σ ncoll k).participate A B r
    (6 * w.val * (1 + 1e-15) + 1e-120 < dist → res = ((false, A, B), r)) ∧
    (dist < 6 * w.val * (1 - 1e-15) - 1e-120 → ∃ (e : E) (p : ℝ), res.2.eng = (Rng.canonical (F := Fl M) (D := D) e).2 ∧
      (res.1.2.1.constituentsExist = true ∧ res.1.2.2.constituentsExist = true) ∧
      (res.1.2.1.constituents.length = m ∧ res.1.2.2.constituents.length = m) ∧
      (res.1.1 = true ↔ p < (Rng.canonical (F := Fl M) (D := D) e).1.val) ∧ 0 ≤ p ∧ p ≤ 1 ∧
      |p - Real.exp (-σ.val * overlapTAB v.val m (res.1.2.1.constituents.map Constituent.exact) (res.1.2.2.constituents.map Constituent.exact))| ≤
        (6e-15 + (m:ℝ)^2 * 1.4e-16) * (σ.val / (4 * Real.pi * v.val^2)) + 6e-16) := by
  intro dist res
  have h1 : (A.isParticipant && B.isParticipant && !(NucleonCommon.make w v m σ ncoll k).calcNcoll) = false := by
    have : (NucleonCommon.make w v m σ ncoll k).calcNcoll = ncoll := rfl
    rw [this]
    rcases Bool.eq_false_or_eq_true A.isParticipant with ha | ha <;>
    rcases Bool.eq_false_or_eq_true B.isParticipant with hb | hb <;> simp_all
  have hr := inRange_fl w v m σ ncoll k hw A B
  constructor
  · intro hd
    have hn : ¬ InRange (NucleonCommon.make w v m σ ncoll k) A B := fun h => absurd (hr.1 h) (not_le.2 hd)
    unfold InRange at hn
    simp only [Bool.not_eq_false] at hn
    simp only [res]
    unfold NucleonCommon.participate
    simp only [h1, Bool.false_eq_true, if_false, hn, if_true]
  · intro hd
    have hn : InRange (NucleonCommon.make w v m σ ncoll k) A B := by
      by_contra h
      exact absurd (hr.2 h) (not_le.2 hd)
    unfold InRange at hn
    simp only [res]
    unfold NucleonCommon.participate
    simp only [h1, hn, Bool.false_eq_true, if_false]
    have eA := (sampleConstituents_frame (NucleonCommon.make w v m σ ncoll k) A r).2.2.2.2.1
    have lA := sampled_length (NucleonCommon.make w v m σ ncoll k) A hA r
    generalize (NucleonCommon.make w v m σ ncoll k).sampleConstituents A r = rA at eA lA ⊢
    obtain ⟨A1, w1⟩ := rA
    have eB := (sampleConstituents_frame (NucleonCommon.make w v m σ ncoll k) B w1).2.2.2.2.1
    have lB := sampled_length (NucleonCommon.make w v m σ ncoll k) B hB w1
    generalize (NucleonCommon.make w v m σ ncoll k).sampleConstituents B w1 = rB at eB lB ⊢
    obtain ⟨B1, w2⟩ := rB
    dsimp only at eA eB lA lB
    have hprob := oneMinusProb_near w v hv hv2 m hm hm2 σ hσ ncoll k A1.constituents B1.constituents lA lB
    have hp0 : 0 ≤ ((NucleonCommon.make w v m σ ncoll k).oneMinusProb (overlapSum (NucleonCommon.make w v m σ ncoll k).constituentWidthSq A1.constituents B1.constituents)).val := by
      unfold NucleonCommon.oneMinusProb
      rw [Fl.exp_val]; exact M.exp_nonneg _
    refine ⟨w2.eng, ((NucleonCommon.make w v m σ ncoll k).oneMinusProb (overlapSum (NucleonCommon.make w v m σ ncoll k).constituentWidthSq A1.constituents B1.constituents)).val, ?_⟩
    dsimp only [canonical]
    generalize (NucleonCommon.make w v m σ ncoll k).oneMinusProb (overlapSum (NucleonCommon.make w v m σ ncoll k).constituentWidthSq A1.constituents B1.constituents) = P at *
    have hlt : lt P (Rng.canonical (F := Fl M) (D := D) w2.eng).1 = decide (P.val < (Rng.canonical (F := Fl M) (D := D) w2.eng).1.val) := rfl
    simp only [hlt]
    by_cases h3 : P.val < (Rng.canonical (F := Fl M) (D := D) w2.eng).1.val
    · simp only [decide_eq_true h3, if_true, setParticipant_eq]
      refine ⟨trivial, ⟨eA, eB⟩, ⟨lA, lB⟩, ⟨fun _ => h3, fun _ => trivial⟩, hp0, hprob.2, hprob.1⟩
    · simp only [decide_eq_false h3, Bool.false_eq_true, if_false]
      refine ⟨trivial, ⟨eA, eB⟩, ⟨lA, lB⟩, ⟨fun h => (h.elim), fun h => (h3 h).elim⟩, hp0, hprob.2, hprob.1⟩

/-- Both branches of C83 occur: nucleons at the same place are tested, nucleons 10 fm apart are not (nucleon width 1 fm). -/
example (r : Rand E D) (σ : Fl M) (hσ : 0 ≤ σ.val) :
    (∃ (e : E) (p : ℝ), |p - Real.exp (-σ.val * overlapTAB 1 1
        (((NucleonCommon.make (lit 1 : Fl M) (lit 1) 1 σ false (lit 1)).participate NucleonData.init NucleonData.init r).1.2.1.constituents.map Constituent.exact)
        (((NucleonCommon.make (lit 1 : Fl M) (lit 1) 1 σ false (lit 1)).participate NucleonData.init NucleonData.init r).1.2.2.constituents.map Constituent.exact))| ≤
        7e-15 * (σ.val / (4 * Real.pi)) + 6e-16 ∧
      (((NucleonCommon.make (lit 1 : Fl M) (lit 1) 1 σ false (lit 1)).participate NucleonData.init NucleonData.init r).1.1 = true ↔
        p < (Rng.canonical (F := Fl M) (D := D) e).1.val)) ∧
    (NucleonCommon.make (lit 1 : Fl M) (lit 1) 1 σ false (lit 1)).participate NucleonData.init { NucleonData.init with x := ⟨10⟩ } r =
      ((false, NucleonData.init, { NucleonData.init with x := ⟨10⟩ }), r) := by
  have h1 : (lit 1 : Fl M).val = 1 := M.lit_one
  have h0 : (lit 0 : Fl M).val = 0 := M.lit_zero
  constructor
  · have h := (C83_participation (lit 1 : Fl M) (lit 1) (by rw [h1]; norm_num) (by rw [h1]; norm_num) (by rw [h1]; norm_num) 1 le_rfl (by norm_num) σ hσ false (lit 1)
      NucleonData.init NucleonData.init (fun h => (by cases h)) (fun h => (by cases h)) (Or.inl (fun h => (by cases h.1))) r).2 (by
        show Real.sqrt (((lit 0 : Fl M).val - (lit 0 : Fl M).val)^2 + ((lit 0 : Fl M).val - (lit 0 : Fl M).val)^2) < _
        rw [h0, h1]; norm_num)
    obtain ⟨e, p, -, -, -, h4, -, -, h5⟩ := h
    refine ⟨e, p, ?_, h4⟩
    rw [h1] at h5
    refine h5.trans ?_
    have : 0 ≤ σ.val / (4 * Real.pi) := by have := Real.pi_pos; positivity
    push_cast
    rw [one_pow, mul_one]
    linarith
  · refine (C83_participation (lit 1 : Fl M) (lit 1) (by rw [h1]; norm_num) (by rw [h1]; norm_num) (by rw [h1]; norm_num) 1 le_rfl (by norm_num) σ hσ false (lit 1)
      NucleonData.init { NucleonData.init with x := ⟨10⟩ } (fun h => (by cases h)) (fun h => (by cases h)) (Or.inl (fun h => (by cases h.1))) r).1 ?_
    show _ < Real.sqrt (((lit 0 : Fl M).val - 10)^2 + ((lit 0 : Fl M).val - (lit 0 : Fl M).val)^2)
    rw [h0, h1]
    apply Real.lt_sqrt_of_sq_lt
    norm_num

end participate

end Trento
