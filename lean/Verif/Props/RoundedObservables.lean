import Verif.Lemmas.RoundedEccSum
import Verif.Props.RoundedRun

/-! # C79: accuracy of the reported observables in rounded arithmetic -/

namespace Trento
open Spec
variable {M : Machine}

/-! ## Sums of `compute_reduced_thickness` -/

section reduced
variable {n : ℕ} (hn : n ≤ 10000) (c : EventCfg (Fl M)) (TA TB : Grid (Fl M) n) (T : Fin n → Fin n → ℝ)
  (hT : ∀ iy ix, (c.norm * genMean c.p (TA iy ix) (TB iy ix)).val = T iy ix) (ht0 : ∀ iy ix, 0 ≤ T iy ix)
  (s0 : RTState (Fl M) n) (h0 : s0.sum = lit 0 ∧ s0.ixcm = lit 0 ∧ s0.iycm = lit 0)
include hn hT ht0 h0

omit hT ht0 h0 in
theorem nsq_le : (n:ℝ)^2 ≤ 1e8 := by
  have h : (n:ℝ) ≤ 10000 := by exact_mod_cast hn
  have := pow_le_pow_left₀ (Nat.cast_nonneg n) h 2
  norm_num at this ⊢; exact this

theorem rt_sum_near : Near (gridSum T) (1.3e-16 * n^2) (2e-250 * n^2) ((cells n).foldl (rtStep c TA TB) s0).sum.val (gridSum T) := by
  have hlen : (((cells n).length : ℕ) : ℝ) = (n:ℝ)^2 := by rw [length_cells]; push_cast; ring
  have hnn := nsq_le hn
  have z : (lit 0 : Fl M).val = 0 := M.lit_zero
  have := fold_near (M := M) (rtStep c TA TB) (fun s => s.sum.val) (fun i => T i.1 i.2) (fun i => T i.1 i.2) 0 0 le_rfl le_rfl (cells n) ?_ s0 0 0 0
    (by rw [hlen]; norm_num; linarith) (by norm_num) (by rw [h0.1, z]; exact ⟨by simp, by norm_num, by norm_num, by norm_num⟩)
  · rw [hlen, sum_cells] at this
    simp only [CharP.cast_eq_zero, zero_add] at this
    exact this.mono (le_of_eq (by ring)) (by nlinarith)
  · intro s i _
    right
    refine ⟨T i.1 i.2, Near.exact (by rw [abs_of_nonneg (ht0 _ _)]), ?_⟩
    show M.fl (s.sum.val + (c.norm * genMean c.p (TA i.1 i.2) (TB i.1 i.2)).val) = _
    rw [hT]

omit h0 in
theorem rt_com_near (idx : Fin n × Fin n → Fin n) (q : RTState (Fl M) n → Fl M) (hq0 : q s0 = lit 0)
    (hq : ∀ s i, q (rtStep c TA TB s i) = q s + c.norm * genMean c.p (TA i.1 i.2) (TB i.1 i.2) * ofInt ((idx i).val : ℤ)) :
    Near (gridSum fun iy ix => T iy ix * (idx (iy, ix)).val) (1.3e-16 * n^2 + 1.2e-16) (4e-250 * n^2) (q ((cells n).foldl (rtStep c TA TB) s0)).val
      (gridSum fun iy ix => T iy ix * (idx (iy, ix)).val) := by
  have hlen : (((cells n).length : ℕ) : ℝ) = (n:ℝ)^2 := by rw [length_cells]; push_cast; ring
  have hnn := nsq_le hn
  have z : (lit 0 : Fl M).val = 0 := M.lit_zero
  have := fold_near (M := M) (rtStep c TA TB) (fun s => (q s).val) (fun i => T i.1 i.2 * (idx i).val) (fun i => T i.1 i.2 * (idx i).val) 1.2e-16 1e-250
    (by norm_num) (by norm_num) (cells n) ?_ s0 0 0 0
    (by rw [hlen]; norm_num; linarith) (by norm_num) (by rw [hq0, z]; exact ⟨by simp, by norm_num, by norm_num, by norm_num⟩)
  · rw [hlen, sum_cells] at this
    simp only [CharP.cast_eq_zero, zero_add] at this
    exact this.mono (le_of_eq (by ring)) (by nlinarith)
  · intro s i _
    right
    refine ⟨M.fl (T i.1 i.2 * (idx i).val), (Near.exact (by rw [abs_of_nonneg (mul_nonneg (ht0 _ _) (Nat.cast_nonneg _))])).round le_rfl
      (by norm_num) (by norm_num), ?_⟩
    show (q (rtStep c TA TB s i)).val = _
    rw [hq, Fl.add_val, Fl.mul_val, hT, ofInt_idx hn]

end reduced

/-- Quotient of two sums. -/
theorem com_numeric {S P s p g : ℝ} {n : ℕ} (hn : n ≤ 10000) (hS : 1e-13 ≤ S) (hP0 : 0 ≤ P) (hP : P ≤ n * S) (hg : g = 1.3e-16 * (n:ℝ)^2)
    (h1 : |s - S| ≤ g * S + 2e-250 * (n:ℝ)^2) (h2 : |p - P| ≤ (g + 1.2e-16) * P + 4e-250 * (n:ℝ)^2) :
    |p / s - P / S| ≤ (2.1 * g + 2e-16) * n + 1e-100 := by
  have hn1 : (n:ℝ) ≤ 10000 := by exact_mod_cast hn
  have hn0 : (0:ℝ) ≤ n := Nat.cast_nonneg n
  have hnn : (n:ℝ)^2 ≤ 1e8 := by
    have := pow_le_pow_left₀ hn0 hn1 2
    norm_num at this ⊢; exact this
  have hg0 : 0 ≤ g := by rw [hg]; positivity
  have hg1 : g ≤ 1.3e-8 := by rw [hg]; linarith
  have hS0 : 0 < S := by linarith
  have k1 : 2e-250 * (n:ℝ)^2 ≤ 1e-200 * S := by
    have : 2e-250 * (n:ℝ)^2 ≤ 2e-250 * 1e8 := mul_le_mul_of_nonneg_left hnn (by norm_num)
    have h : (1e-200:ℝ) * 1e-13 ≤ 1e-200 * S := mul_le_mul_of_nonneg_left hS (by norm_num)
    have h' : (2e-250:ℝ) * 1e8 ≤ 1e-200 * 1e-13 := by norm_num
    linarith
  have a1 := abs_le.1 h1
  have hs : (1 - 2e-8) * S ≤ s := by
    have : g * S ≤ 1.3e-8 * S := mul_le_mul_of_nonneg_right hg1 hS0.le
    have h' : (1e-200:ℝ) * S ≤ 1e-9 * S := mul_le_mul_of_nonneg_right (by norm_num) hS0.le
    linarith [a1.1]
  have hsp : 0 < s := by nlinarith
  have e : p / s - P / S = ((p - P) * S - P * (s - S)) / (s * S) := by field_simp; ring
  rw [e, abs_div, abs_of_pos (mul_pos hsp hS0), div_le_iff₀ (mul_pos hsp hS0)]
  have b1 : |(p - P) * S - P * (s - S)| ≤ ((g + 1.2e-16) * P + 2e-200 * S) * S + P * (g * S + 1e-200 * S) := by
    refine (abs_sub _ _).trans (add_le_add ?_ ?_)
    · rw [abs_mul, abs_of_pos hS0]; exact mul_le_mul_of_nonneg_right (h2.trans (by linarith)) hS0.le
    · rw [abs_mul, abs_of_nonneg hP0]; exact mul_le_mul_of_nonneg_left (h1.trans (by linarith)) hP0
  refine b1.trans ?_
  have b2 : ((g + 1.2e-16) * P + 2e-200 * S) * S + P * (g * S + 1e-200 * S) ≤ ((2 * g + 1.3e-16) * n + 2e-200) * (S * S) := by
    have h3 : (2 * g + 1.2e-16 + 1e-200) * P * S ≤ (2 * g + 1.2e-16 + 1e-200) * (n * S) * S :=
      mul_le_mul_of_nonneg_right (mul_le_mul_of_nonneg_left hP (by positivity)) hS0.le
    have h4 : (2 * g + 1.2e-16 + 1e-200) * (n * S) * S ≤ (2 * g + 1.3e-16) * (n * S) * S :=
      mul_le_mul_of_nonneg_right (mul_le_mul_of_nonneg_right (by
        have : (1e-200:ℝ) ≤ 1e-18 := by norm_num
        linarith) (by positivity)) hS0.le
    nlinarith
  refine b2.trans ?_
  have b3 : ((2.1 * g + 2e-16) * n + 1e-100) * ((1 - 2e-8) * S * S) ≤ ((2.1 * g + 2e-16) * n + 1e-100) * (s * S) :=
    mul_le_mul_of_nonneg_left (mul_le_mul_of_nonneg_right hs hS0.le) (by positivity)
  refine le_trans ?_ b3
  have hSS : 0 ≤ S * S := by positivity
  have b4 : (2 * g + 1.3e-16) * n + 2e-200 ≤ ((2.1 * g + 2e-16) * n + 1e-100) * (1 - 2e-8) := by
    have h5 : 0 ≤ g * n := by positivity
    have h6 : (2e-200:ℝ) ≤ 1e-100 * (1 - 2e-8) := by norm_num
    nlinarith
  have := mul_le_mul_of_nonneg_right b4 hSS
  nlinarith


/-- Rounding the quotient. -/
theorem com_round {Q Z g : ℝ} {n : ℕ} (hn1 : 1 ≤ n) (hn : n ≤ 10000) (hg : g = 1.3e-16 * (n:ℝ)^2) (hZ0 : 0 ≤ Z) (hZ : Z ≤ n)
    (h : |Q - Z| ≤ (2.1 * g + 2e-16) * n + 1e-100) : |M.fl Q - Z| ≤ (2.8e-16 * (n:ℝ)^2 + 1e-15) * n := by
  have hn1 : (1:ℝ) ≤ n := by exact_mod_cast hn1
  have hn' : (n:ℝ) ≤ 10000 := by exact_mod_cast hn
  have hg0 : 0 ≤ g := by rw [hg]; positivity
  have hg1 : g ≤ 1.3e-8 := by rw [hg]; linarith [nsq_le hn]
  have f := M.fl_near Q
  have f1 := abs_sub_le (M.fl Q) Q Z
  have a := abs_le.1 h
  have hgn : g * n ≤ 1.3e-8 * n := mul_le_mul_of_nonneg_right hg1 (by linarith)
  have h100 : (1e-100:ℝ) ≤ 1e-20 := by norm_num
  have h250 : (1e-250:ℝ) ≤ 1e-20 := by norm_num
  have hQ : |Q| ≤ 1.1 * n := by rw [abs_le]; constructor <;> linarith
  have : 1.2e-16 * |Q| ≤ 1.2e-16 * (1.1 * n) := mul_le_mul_of_nonneg_left hQ (by norm_num)
  have e : (2.8e-16 * (n:ℝ)^2 + 1e-15) * n = 28/13 * g * n + 1e-15 * n := by rw [hg]; ring
  have hgn0 : 0 ≤ g * n := by positivity
  rw [e]
  nlinarith

section accuracy
variable {n : ℕ}

theorem gridSum_nonneg' {T : Fin n → Fin n → ℝ} (h : ∀ iy ix, 0 ≤ T iy ix) : 0 ≤ gridSum T :=
  Finset.sum_nonneg fun iy _ => Finset.sum_nonneg fun ix _ => h iy ix

theorem gridSum_mono' {T U : Fin n → Fin n → ℝ} (h : ∀ iy ix, T iy ix ≤ U iy ix) : gridSum T ≤ gridSum U :=
  Finset.sum_le_sum fun iy _ => Finset.sum_le_sum fun ix _ => h iy ix

theorem le_gridSum {T : Fin n → Fin n → ℝ} (h : ∀ iy ix, 0 ≤ T iy ix) (iy ix : Fin n) : T iy ix ≤ gridSum T :=
  (Finset.single_le_sum (f := fun ix => T iy ix) (fun ix _ => h iy ix) (Finset.mem_univ ix)).trans
    (Finset.single_le_sum (f := fun iy => ∑ ix, T iy ix) (fun iy _ => Finset.sum_nonneg fun ix _ => h iy ix) (Finset.mem_univ iy))

theorem gridSum_const (a : ℝ) : gridSum (fun _ _ : Fin n => a) = n^2 * a := by
  unfold gridSum; simp; ring

theorem weighted_le {T : Fin n → Fin n → ℝ} (h : ∀ iy ix, 0 ≤ T iy ix) (idx : Fin n → Fin n → Fin n) :
    0 ≤ gridSum (fun iy ix => T iy ix * (idx iy ix).val) ∧ gridSum (fun iy ix => T iy ix * (idx iy ix).val) ≤ n * gridSum T := by
  refine ⟨gridSum_nonneg' fun iy ix => mul_nonneg (h iy ix) (Nat.cast_nonneg _), ?_⟩
  have e : (n:ℝ) * gridSum T = gridSum fun iy ix => T iy ix * n := by
    unfold gridSum; rw [Finset.mul_sum]; apply Finset.sum_congr rfl; intro iy _
    rw [Finset.mul_sum]; apply Finset.sum_congr rfl; intro ix _; ring
  rw [e]
  exact gridSum_mono' fun iy ix => mul_le_mul_of_nonneg_left (by exact_mod_cast (idx iy ix).isLt.le) (h iy ix)

variable (hn : n ≤ 10000) (c : EventCfg (Fl M)) (ev : Event (Fl M) n)

/-- Values of the reduced-thickness grid of an event. -/
def Spec.values (g : Grid (Fl M) n) : Fin n → Fin n → ℝ := fun iy ix => (g iy ix).val

theorem centre_near (hn : n ≤ 10000) (ht0 : ∀ iy ix, 0 ≤ values (computeReducedThickness c ev).TR iy ix)
    (hS : 1e-13 ≤ gridSum (values (computeReducedThickness c ev).TR)) :
    |(computeReducedThickness c ev).ixcm.val - comX (values (computeReducedThickness c ev).TR)| ≤ (2.8e-16 * (n:ℝ)^2 + 1e-15) * n ∧
    |(computeReducedThickness c ev).iycm.val - comY (values (computeReducedThickness c ev).TR)| ≤ (2.8e-16 * (n:ℝ)^2 + 1e-15) * n := by
  have hT : ∀ iy ix, (c.norm * genMean c.p (ev.TA iy ix) (ev.TB iy ix)).val = values (computeReducedThickness c ev).TR iy ix := by
    intro iy ix; unfold values; rw [computeReducedThickness_TR]
  have hn1 : 1 ≤ n := by
    by_contra h
    have : n = 0 := by omega
    subst this
    unfold gridSum at hS
    simp at hS
    norm_num at hS
  set s0 : RTState (Fl M) n := ⟨ev.TR, lit 0, lit 0, lit 0⟩ with hs0
  have h1 := rt_sum_near hn c ev.TA ev.TB _ hT ht0 s0 ⟨rfl, rfl, rfl⟩
  have h2 := rt_com_near hn c ev.TA ev.TB _ hT ht0 s0 (fun i => i.2) (·.ixcm) rfl (fun _ _ => rfl)
  have h3 := rt_com_near hn c ev.TA ev.TB _ hT ht0 s0 (fun i => i.1) (·.iycm) rfl (fun _ _ => rfl)
  obtain ⟨p2, q2⟩ := weighted_le ht0 (fun _ ix => ix)
  obtain ⟨p3, q3⟩ := weighted_le ht0 (fun iy _ => iy)
  have e2 : (computeReducedThickness c ev).ixcm.val = M.fl (((cells n).foldl (rtStep c ev.TA ev.TB) s0).ixcm.val / ((cells n).foldl (rtStep c ev.TA ev.TB) s0).sum.val) := rfl
  have e3 : (computeReducedThickness c ev).iycm.val = M.fl (((cells n).foldl (rtStep c ev.TA ev.TB) s0).iycm.val / ((cells n).foldl (rtStep c ev.TA ev.TB) s0).sum.val) := rfl
  have k1 := h1.err
  have k2 := h2.err
  have k3 := h3.err
  have hSp : 0 < gridSum (values (computeReducedThickness c ev).TR) := by linarith
  rw [e2, e3]
  unfold comX comY
  exact ⟨com_round hn1 hn rfl (div_nonneg p2 hSp.le) (by rw [div_le_iff₀ hSp]; exact q2) (com_numeric hn hS p2 q2 rfl k1 k2),
    com_round hn1 hn rfl (div_nonneg p3 hSp.le) (by rw [div_le_iff₀ hSp]; exact q3) (com_numeric hn hS p3 q3 rfl k1 k3)⟩

theorem com_mem {T : Fin n → Fin n → ℝ} (h : ∀ iy ix, 0 ≤ T iy ix) (hS : 0 < gridSum T) : (0 ≤ comX T ∧ comX T ≤ n) ∧ (0 ≤ comY T ∧ comY T ≤ n) := by
  obtain ⟨p2, q2⟩ := weighted_le h (fun _ ix => ix)
  obtain ⟨p3, q3⟩ := weighted_le h (fun iy _ => iy)
  unfold comX comY
  exact ⟨⟨div_nonneg p2 hS.le, by rw [div_le_iff₀ hS]; exact q2⟩, ⟨div_nonneg p3 hS.le, by rw [div_le_iff₀ hS]; exact q3⟩⟩

/-- Every cell is close enough to the computed centre. -/
theorem cellZ_bound (hn : n ≤ 10000) (ht0 : ∀ iy ix, 0 ≤ values (computeReducedThickness c ev).TR iy ix)
    (hS : 1e-13 ≤ gridSum (values (computeReducedThickness c ev).TR)) (iy ix : Fin n) :
    ‖cellZ (computeReducedThickness c ev).ixcm.val (computeReducedThickness c ev).iycm.val iy ix‖ ≤ 1e5 := by
  obtain ⟨a, b⟩ := centre_near c ev hn ht0 hS
  obtain ⟨⟨c1, c2⟩, c3, c4⟩ := com_mem ht0 (by linarith)
  have hn' : (n:ℝ) ≤ 10000 := by exact_mod_cast hn
  have hn0 : (0:ℝ) ≤ n := Nat.cast_nonneg n
  have hg : (2.8e-16 * (n:ℝ)^2 + 1e-15) * n ≤ 1 * n := mul_le_mul_of_nonneg_right (by linarith [nsq_le hn]) hn0
  have i1 : ((iy.val:ℕ):ℝ) ≤ n := by exact_mod_cast iy.isLt.le
  have i2 : ((ix.val:ℕ):ℝ) ≤ n := by exact_mod_cast ix.isLt.le
  have i3 : (0:ℝ) ≤ ((iy.val:ℕ):ℝ) := Nat.cast_nonneg _
  have i4 : (0:ℝ) ≤ ((ix.val:ℕ):ℝ) := Nat.cast_nonneg _
  have a' := abs_le.1 a
  have b' := abs_le.1 b
  unfold cellZ
  refine (norm_mk_le _ _).trans ?_
  have k1 : |((ix.val:ℕ):ℝ) - (computeReducedThickness c ev).ixcm.val| ≤ 4e4 := by rw [abs_le]; constructor <;> linarith
  have k2 : |((iy.val:ℕ):ℝ) - (computeReducedThickness c ev).iycm.val| ≤ 4e4 := by rw [abs_le]; constructor <;> linarith
  linarith

/-- Accuracy of the four eccentricities about the computed centre. -/
theorem ecc_near (hn : n ≤ 10000) (ht0 : ∀ iy ix, 0 ≤ values (computeReducedThickness c ev).TR iy ix)
    (ht : ∀ iy ix, values (computeReducedThickness c ev).TR iy ix ≤ 1e60) (ev' : Event (Fl M) n)
    (hev : ev' = computeObservables (computeReducedThickness c ev)) :
    |ev'.ecc.e2.val - eccentricityCut (TINY : Fl M).val ev'.ixcm.val ev'.iycm.val (values ev'.TR) 2| ≤ 4.1e-16 * n^2 + 4e-13 ∧
    |ev'.ecc.e3.val - eccentricityCut (TINY : Fl M).val ev'.ixcm.val ev'.iycm.val (values ev'.TR) 3| ≤ 4.1e-16 * n^2 + 4e-13 ∧
    |ev'.ecc.e4.val - eccentricityCut (TINY : Fl M).val ev'.ixcm.val ev'.iycm.val (values ev'.TR) 4| ≤ 4.1e-16 * n^2 + 4e-13 ∧
    |ev'.ecc.e5.val - eccentricityCut (TINY : Fl M).val ev'.ixcm.val ev'.iycm.val (values ev'.TR) 5| ≤ 4.1e-16 * n^2 + 4e-13 := by
  subst hev
  have hstep : ∀ s, ∀ i : Fin n × Fin n, lt ((computeReducedThickness c ev).TR i.1 i.2) TINY = false → _ := fun s i h =>
    obsStep_near (M := M) hn (computeReducedThickness c ev).TR (computeReducedThickness c ev).ixcm (computeReducedThickness c ev).iycm s i
      (ht0 i.1 i.2) (ht i.1 i.2) (cellZ_bound c ev hn ht0 (by
        have h1 : (TINY : Fl M).val ≤ values (computeReducedThickness c ev).TR i.1 i.2 := by
          rw [Fl.lt_eq, decide_eq_false_iff_not] at h; exact not_lt.1 h
        have h2 := le_gridSum ht0 i.1 i.2
        have h3 := (tiny_val (M := M)).1
        linarith) i.1 i.2) h
  refine ⟨harmonic_near hn _ _ _ ht0 (·.e2) (·.e2) 2 rfl (fun s i h => (hstep s i h).1) (-1) (by simp) ?_,
    harmonic_near hn _ _ _ ht0 (·.e3) (·.e3) 3 rfl (fun s i h => (hstep s i h).2.1) (-Complex.I) (by simp) ?_,
    harmonic_near hn _ _ _ ht0 (·.e4) (·.e4) 4 rfl (fun s i h => (hstep s i h).2.2.1) 1 (by simp) ?_,
    harmonic_near hn _ _ _ ht0 (·.e5) (·.e5) 5 rfl (fun s i h => (hstep s i h).2.2.2) Complex.I (by simp) ?_⟩ <;>
  · intro x y
    apply Complex.ext <;> simp [eccPoly, pow_succ] <;> ring

/-- Accuracy of the multiplicity. -/
theorem mult_near (hn : n ≤ 10000) (hd0 : 0 ≤ c.dxy.val) (hd : c.dxy.val ≤ 1e10) (ht0 : ∀ iy ix, 0 ≤ values (computeReducedThickness c ev).TR iy ix)
    (ht : ∀ iy ix, values (computeReducedThickness c ev).TR iy ix ≤ 1e60) :
    |(computeReducedThickness c ev).multiplicity.val - c.dxy.val^2 * gridSum (values (computeReducedThickness c ev).TR)| ≤
      (1.4e-16 * n^2 + 4e-16) * (c.dxy.val^2 * gridSum (values (computeReducedThickness c ev).TR)) + 1e-100 := by
  have hT : ∀ iy ix, (c.norm * genMean c.p (ev.TA iy ix) (ev.TB iy ix)).val = values (computeReducedThickness c ev).TR iy ix := by
    intro iy ix; unfold values; rw [computeReducedThickness_TR]
  have h1 := rt_sum_near hn c ev.TA ev.TB _ hT ht0 ⟨ev.TR, lit 0, lit 0, lit 0⟩ ⟨rfl, rfl, rfl⟩
  have hnn := nsq_le hn
  have hS : gridSum (values (computeReducedThickness c ev).TR) ≤ 1e68 := by
    have h := gridSum_mono' ht
    rw [gridSum_const] at h
    have : (n:ℝ)^2 * 1e60 ≤ 1e8 * 1e60 := mul_le_mul_of_nonneg_right hnn (by norm_num)
    norm_num at this h ⊢
    linarith
  have hd2 : c.dxy.val^2 ≤ 1e20 := by
    have := pow_le_pow_left₀ hd0 hd 2
    norm_num at this ⊢; exact this
  have h2 : Near (c.dxy.val^2) 1.2e-16 1e-250 (M.fl (c.dxy.val * c.dxy.val)) (c.dxy.val^2) := by
    rw [← pow_two]; exact (Near.exact (by rw [abs_of_nonneg (sq_nonneg _)])).round le_rfl (by norm_num) (by norm_num)
  have h1' := h1.mono (ε' := 1.3e-16 * n^2) (δ' := 2e-242) le_rfl (by
    have : 2e-250 * (n:ℝ)^2 ≤ 2e-250 * 1e8 := mul_le_mul_of_nonneg_left hnn (by norm_num)
    refine this.trans ?_; norm_num)
  have h3 := h2.mul (M := M) h1' 1e20 1e68 hd2 hS le_rfl (ε := 1.4e-16 * n^2 + 4e-16) (δ := 1e-100) (by nlinarith) (by
    have hn0 : 0 ≤ (n:ℝ)^2 := sq_nonneg _
    have : (1e-250:ℝ) * (1 + 1.3e-16 * n^2) * 1e68 ≤ 1e-250 * 2 * 1e68 := by
      apply mul_le_mul_of_nonneg_right _ (by norm_num)
      apply mul_le_mul_of_nonneg_left _ (by norm_num)
      linarith
    have h' : ((2e-242:ℝ) * (1 + 1.2e-16) * 1e20 + 1e-250 * 2 * 1e68 + 1e-250 * 2e-242) * (1 + 1.2e-16) + 1e-250 ≤ 1e-100 := by norm_num
    refine le_trans ?_ h'
    have : ((2e-242:ℝ) * (1 + 1.2e-16) * 1e20 + 1e-250 * (1 + 1.3e-16 * n^2) * 1e68 + 1e-250 * 2e-242) ≤
      ((2e-242:ℝ) * (1 + 1.2e-16) * 1e20 + 1e-250 * 2 * 1e68 + 1e-250 * 2e-242) := by linarith
    have := mul_le_mul_of_nonneg_right this (show (0:ℝ) ≤ 1 + 1.2e-16 by norm_num)
    linarith)
  exact h3.err


/-- The observables of an event on an `n × n` grid of cell width `dxy` agree with the documented formulas applied to its reduced thickness,
up to rounding: the relative error is about `n²` units in the last place. -/
structure Spec.AccurateObservables (dxy : ℝ) (ev : Event (Fl M) n) : Prop where
  /-- multiplicity: the integral of the reduced thickness -/
  mult : |ev.multiplicity.val - dxy^2 * gridSum (values ev.TR)| ≤ (1.4e-16 * n^2 + 4e-16) * (dxy^2 * gridSum (values ev.TR)) + 1e-100
  /-- centre of mass, in cells, unless the grid is practically empty -/
  centreX : 1e-13 ≤ gridSum (values ev.TR) → |ev.ixcm.val - comX (values ev.TR)| ≤ (2.8e-16 * n^2 + 1e-15) * n
  centreY : 1e-13 ≤ gridSum (values ev.TR) → |ev.iycm.val - comY (values ev.TR)| ≤ (2.8e-16 * n^2 + 1e-15) * n
  /-- eccentricities about the reported centre -/
  e2 : |ev.ecc.e2.val - eccentricityCut (TINY : Fl M).val ev.ixcm.val ev.iycm.val (values ev.TR) 2| ≤ 4.1e-16 * n^2 + 4e-13
  e3 : |ev.ecc.e3.val - eccentricityCut (TINY : Fl M).val ev.ixcm.val ev.iycm.val (values ev.TR) 3| ≤ 4.1e-16 * n^2 + 4e-13
  e4 : |ev.ecc.e4.val - eccentricityCut (TINY : Fl M).val ev.ixcm.val ev.iycm.val (values ev.TR) 4| ≤ 4.1e-16 * n^2 + 4e-13
  e5 : |ev.ecc.e5.val - eccentricityCut (TINY : Fl M).val ev.ixcm.val ev.iycm.val (values ev.TR) 5| ≤ 4.1e-16 * n^2 + 4e-13

theorem observables_accurate (hn : n ≤ 10000) (hd0 : 0 ≤ c.dxy.val) (hd : c.dxy.val ≤ 1e10) (ev' : Event (Fl M) n)
    (hev : ev' = computeObservables (computeReducedThickness c ev)) (ht0 : ∀ iy ix, 0 ≤ (ev'.TR iy ix).val) (ht : ∀ iy ix, (ev'.TR iy ix).val ≤ 1e60) :
    AccurateObservables c.dxy.val ev' := by
  have h0 : ∀ iy ix, 0 ≤ values (computeReducedThickness c ev).TR iy ix := by subst hev; exact ht0
  have h1 : ∀ iy ix, values (computeReducedThickness c ev).TR iy ix ≤ 1e60 := by subst hev; exact ht
  have he := ecc_near c ev hn h0 h1 ev' hev
  have hm := mult_near c ev hn hd0 hd h0 h1
  have hc := centre_near c ev hn h0
  subst hev
  exact ⟨hm, fun h => (hc h).1, fun h => (hc h).2, he.1, he.2.1, he.2.2.1, he.2.2.2⟩

/-- All eccentricities lie in `[0, 1]`, up to `5e-8`. -/
theorem ecc_le_one (hn : n ≤ 10000) (dxy : ℝ) (ev : Event (Fl M) n) (ht0 : ∀ iy ix, 0 ≤ (ev.TR iy ix).val) (h : AccurateObservables dxy ev) :
    ev.ecc.e2.val ≤ 1 + 5e-8 ∧ ev.ecc.e3.val ≤ 1 + 5e-8 ∧ ev.ecc.e4.val ≤ 1 + 5e-8 ∧ ev.ecc.e5.val ≤ 1 + 5e-8 := by
  have hτ : 0 < (TINY : Fl M).val := by linarith [(tiny_val (M := M)).1]
  have hnn := nsq_le hn
  have key : ∀ (e : ℝ) (k : ℕ), |e - eccentricityCut (TINY : Fl M).val ev.ixcm.val ev.iycm.val (values ev.TR) k| ≤ 4.1e-16 * (n:ℝ)^2 + 4e-13 → e ≤ 1 + 5e-8 := by
    intro e k h
    have h1 := eccentricityCut_le_one hτ ev.ixcm.val ev.iycm.val (values ev.TR) ht0 k
    have h2 := (abs_le.1 h).2
    linarith
  exact ⟨key _ _ h.e2, key _ _ h.e3, key _ _ h.e4, key _ _ h.e5⟩

/-- A 2 × 2 grid with cells 1, 4, 4, 4 and the geometric mean, on any machine: the hypotheses hold (and the grid is not empty). -/
example : let c : EventCfg (Fl M) := ⟨lit 1, ⟨1/5⟩, 2, ⟨1/5⟩, lit 0⟩
    let g : Grid (Fl M) 2 := fun iy ix => if iy = 0 ∧ ix = 0 then ⟨1⟩ else ⟨4⟩
    let z : Fl M := ⟨0⟩
    let ev : Event (Fl M) 2 := computeObservables (computeReducedThickness c ⟨g, g, fun _ _ => z, z, z, 2, z, ⟨z, z, z, z⟩⟩)
    values ev.TR 0 0 = 1 ∧ values ev.TR 1 0 = 4 ∧ AccurateObservables (1/5) ev := by
  intro c g z ev
  have hlt : lt (fabs (lit 0 : Fl M)) TINY = true := by
    rw [Fl.lt_eq, decide_eq_true_eq, Fl.fabs_val, M.lit_zero, abs_zero]
    linarith [(tiny_val (M := M)).1]
  have hi : ∀ k : ℤ, |k| < 2^53 → M.fl (k:ℝ) = k := M.exact_int
  have hv : ∀ a : Fl M, (a.val = 1 ∨ a.val = 4) → (lit 1 * genMean (lit 0) a a : Fl M).val = a.val := by
    intro a ha
    have hg : genMean (lit 0) a a = sqrt (a * a) := by
      unfold genMean; rw [if_pos hlt]; rfl
    rw [hg, Fl.mul_val, Fl.sqrt_val, Fl.mul_val, M.lit_one, one_mul]
    rcases ha with h | h <;> rw [h]
    · have h1 := M.fl_one
      norm_num [h1]
    · have h16 := hi 16 (by norm_num)
      have h4 := hi 4 (by norm_num)
      push_cast at h16 h4
      rw [show (4:ℝ) * 4 = 16 by norm_num, h16, show (16:ℝ) = 4^2 by norm_num, Real.sqrt_sq (by norm_num), h4, h4]
  have hTR : ∀ iy ix, (ev.TR iy ix).val = (g iy ix).val := by
    intro iy ix
    show ((computeReducedThickness c _).TR iy ix).val = _
    rw [computeReducedThickness_TR]
    refine hv (g iy ix) ?_
    show (if iy = 0 ∧ ix = 0 then (⟨1⟩ : Fl M) else ⟨4⟩).val = 1 ∨ (if iy = 0 ∧ ix = 0 then (⟨1⟩ : Fl M) else ⟨4⟩).val = 4
    split
    · left; rfl
    · right; rfl
  have hb : ∀ iy ix, 0 ≤ (ev.TR iy ix).val ∧ (ev.TR iy ix).val ≤ 1e60 := by
    intro iy ix
    rw [hTR]
    show 0 ≤ (if iy = 0 ∧ ix = 0 then (⟨1⟩ : Fl M) else ⟨4⟩).val ∧ (if iy = 0 ∧ ix = 0 then (⟨1⟩ : Fl M) else ⟨4⟩).val ≤ 1e60
    split <;> norm_num
  refine ⟨?_, ?_, ?_⟩
  · exact (hTR 0 0).trans rfl
  · exact (hTR 1 0).trans rfl
  · exact observables_accurate c _ (by norm_num) (by show (0:ℝ) ≤ 1/5; norm_num) (by show (1/5:ℝ) ≤ 1e10; norm_num) ev rfl (fun iy ix => (hb iy ix).1) (fun iy ix => (hb iy ix).2)

end accuracy

section run
variable {E D : Type} [Rng (Fl M) E D]

/-- **C79.** In rounded arithmetic, for every record of a run (release build, any projectiles, any random numbers, at most 10⁴ cells per side, no
reduced thickness above 1e60): multiplicity, centre of mass and eccentricities are the documented functions of the reported reduced thickness,
up to relative errors of order `n²` units in the last place — whatever the order in which the error accumulates. -/
theorem C79_observables_accurate [LawfulRngFl M E D] (o : Options (Fl M)) (sigma : Fl M) (hA : NucleusHistory E D o.projectileA)
    (hB : NucleusHistory E D o.projectileB) (hv : 1e-10 ≤ o.constitWidth.val) (hnorm : 0 ≤ o.normalization.val)
    (hd0 : 0 ≤ o.gridStep.val) (hd : o.gridStep.val ≤ 1e10)
    (rfuel fuel : Nat) (ev0 : (n : Nat) → Event (Fl M) n) (w : Rand E D) (n : ℕ) (hn : n ≤ 10000) (rs : List (EventRecord (Fl M) n))
    (h : runAll rfuel fuel o sigma false ev0 w = .ok ⟨n, rs⟩) :
    ∀ rec ∈ rs, (∀ iy ix, (rec.event.TR iy ix).val ≤ 1e60) → AccurateObservables o.gridStep.val rec.event := by
  unfold runAll at h
  cases hec : EventCfg.make o.normalization o.gridStep o.gridMax o.reducedThickness with
  | error e => simp only [hec] at h; cases h
  | ok ec =>
    obtain ⟨g1, g2, g3⟩ := eventCfg_make_inv hec
    simp only [hec] at h
    unfold Collider.runEvents at h
    have hP : ∀ n : NucleonData (Fl M), n.isParticipant = false → n.constituentsExist = false → WeightsFl n := by
      intro n h1 h2; exact ⟨fun h => absurd h (by rw [h1]; simp), fun h => absurd h (by rw [h2]; simp)⟩
    obtain ⟨-, key⟩ := runLoop_inv (E := E) (D := D) (c := Collider.make o sigma) (ec := ec) (debug := false) (n := ec.nsteps.toNat)
      (P := WeightsFl) (Q := fun _ => True)
      (R := fun ev => ec.nsteps.toNat ≤ 10000 → (∀ iy ix, (ev.TR iy ix).val ≤ 1e60) → AccurateObservables o.gridStep.val ev) trivial (weights_invariant _)
      (fresh_sampling o.projectileA.kind _ _ hP) (fresh_sampling o.projectileB.kind _ _ hP)
      (fun ev A B pA pB => ⟨fun _ _ => trivial, fun ev' he hn' ht => by
        have hnn := compute_nonneg _ _ hv _ _ _ _ ec (by rw [g1]; exact hnorm) g3 A B pA pB ev ev' he
        obtain ⟨TA, TB, npA, npB, -, -, hev⟩ := compute_ok he
        have := observables_accurate ec _ hn' (by rw [g2]; exact hd0) (by rw [g2]; exact hd) ev' hev (fun iy ix => (hnn.1 iy ix).2.2) ht
        rwa [g2] at this⟩)
      rfuel fuel (Collider.make o sigma).nevents.toNat 0
      ⟨(Collider.make o sigma).nucleusA, (Collider.make o sigma).nucleusB, ev0 ec.nsteps.toNat, seedRand (Fl M) o.randomSeed w⟩ hA hB rfl rfl
    cases hr : runLoop rfuel fuel (Collider.make o sigma) ec false (Collider.make o sigma).nevents.toNat 0
        ⟨(Collider.make o sigma).nucleusA, (Collider.make o sigma).nucleusB, ev0 ec.nsteps.toNat, seedRand (Fl M) o.randomSeed w⟩ with
    | error e => simp only [hr] at h; cases h
    | ok r =>
      obtain ⟨rs', s'⟩ := r
      simp only [hr, Except.ok.injEq, Sigma.mk.injEq] at h
      obtain ⟨rfl, h⟩ := h
      rw [heq_eq_eq] at h
      subst h
      intro rec hrec ht
      obtain ⟨k1, -, -⟩ := key _ _ hr rec hrec
      exact k1 hn ht

/-- **C79.** Hence every reported eccentricity lies between 0 and 1 + 5e-8. -/
theorem C79_eccentricity_range [LawfulRngFl M E D] (o : Options (Fl M)) (sigma : Fl M) (hA : NucleusHistory E D o.projectileA)
    (hB : NucleusHistory E D o.projectileB) (hv : 1e-10 ≤ o.constitWidth.val) (hnorm : 0 ≤ o.normalization.val)
    (hd0 : 0 ≤ o.gridStep.val) (hd : o.gridStep.val ≤ 1e10)
    (rfuel fuel : Nat) (ev0 : (n : Nat) → Event (Fl M) n) (w : Rand E D) (n : ℕ) (hn : n ≤ 10000) (rs : List (EventRecord (Fl M) n))
    (h : runAll rfuel fuel o sigma false ev0 w = .ok ⟨n, rs⟩) :
    ∀ rec ∈ rs, (∀ iy ix, (rec.event.TR iy ix).val ≤ 1e60) →
      (0 ≤ rec.event.ecc.e2.val ∧ rec.event.ecc.e2.val ≤ 1 + 5e-8) ∧ (0 ≤ rec.event.ecc.e3.val ∧ rec.event.ecc.e3.val ≤ 1 + 5e-8) ∧
      (0 ≤ rec.event.ecc.e4.val ∧ rec.event.ecc.e4.val ≤ 1 + 5e-8) ∧ (0 ≤ rec.event.ecc.e5.val ∧ rec.event.ecc.e5.val ≤ 1 + 5e-8) := by
  intro rec hrec ht
  have h1 := C79_observables_accurate o sigma hA hB hv hnorm hd0 hd rfuel fuel ev0 w n hn rs h rec hrec ht
  obtain ⟨-, hc, -, p2, p3, p4, p5⟩ := C77_nonnegative o sigma hA hB hv hnorm rfuel fuel ev0 w n rs h rec hrec
  obtain ⟨q2, q3, q4, q5⟩ := ecc_le_one hn _ rec.event (fun iy ix => (hc iy ix).2.2) h1
  exact ⟨⟨p2, q2⟩, ⟨p3, q3⟩, ⟨p4, q4⟩, ⟨p5, q5⟩⟩

end run
end Trento
