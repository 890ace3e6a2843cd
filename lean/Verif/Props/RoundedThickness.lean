import Verif.Lemmas.RoundedThickness
import Mathlib.Analysis.Real.Pi.Bounds

/-! # C76: the thickness in rounded arithmetic -/

namespace Trento
open Spec
set_option linter.unusedSectionVars false
variable {M : Machine}

/-- The exact numbers a constituent's members hold. -/
def Constituent.exact (c : Constituent (Fl M)) : Constituent ℝ := ⟨c.x.val, c.y.val, c.fluctuation.val⟩

/-- The ideal thickness with cutoff radius `ρ`. -/
noncomputable def Spec.cutThickness (ρ v : ℝ) (m : ℕ) (cs : List (Constituent ℝ)) (x y : ℝ) : ℝ :=
  1 / (2 * Real.pi * v^2 * m) *
    (cs.map fun c => if distSq c x y < ρ^2 then c.fluctuation * Real.exp (-distSq c x y / (2 * v^2)) else 0).sum

/-- With cutoff `5 v` this is the ideal thickness of C05. -/
theorem cutThickness_ideal (v : ℝ) (m : ℕ) (cs : List (Constituent ℝ)) (x y : ℝ) : cutThickness (5 * v) v m cs x y = idealThickness v m cs x y := rfl

/-- The sum without the normalisation. -/
noncomputable def cutSum (ρ v : ℝ) (x y : ℝ) (cs : List (Constituent ℝ)) : ℝ :=
  (cs.map fun c => if distSq c x y < ρ^2 then c.fluctuation * Real.exp (-distSq c x y / (2 * v^2)) else 0).sum

theorem cutSum_cons (ρ v x y : ℝ) (c : Constituent ℝ) (cs : List (Constituent ℝ)) : cutSum ρ v x y (c :: cs) =
    (if distSq c x y < ρ^2 then c.fluctuation * Real.exp (-distSq c x y / (2 * v^2)) else 0) + cutSum ρ v x y cs := by
  unfold cutSum; rw [List.map_cons, List.sum_cons]

theorem cutSum_nonneg (ρ v x y : ℝ) (cs : List (Constituent ℝ)) (h : ∀ c ∈ cs, 0 ≤ c.fluctuation) : 0 ≤ cutSum ρ v x y cs := by
  unfold cutSum
  apply List.sum_nonneg
  intro t ht
  obtain ⟨c, hc, rfl⟩ := List.mem_map.1 ht
  split
  · exact mul_nonneg (h c hc) (Real.exp_pos _).le
  · exact le_rfl

theorem feErr_nonneg : 0 ≤ feErr := by unfold feErr; positivity

theorem feErr_le : feErr ≤ 1e-4 := by
  unfold feErr
  have : Real.exp (12.5/999/2) ≤ 2 := by
    have h := Real.exp_one_lt_d9
    have h2 : Real.exp (12.5/999/2) ≤ Real.exp (1/2) := Real.exp_le_exp.2 (by norm_num)
    have h3 : Real.exp (1/2) * Real.exp (1/2) = Real.exp 1 := by rw [← Real.exp_add]; norm_num
    have h4 := Real.exp_pos (1/2)
    nlinarith
  nlinarith

theorem feErr_le' : feErr ≤ 2e-5 := by
  unfold feErr
  have h4 := Real.abs_exp_sub_one_sub_id_le (x := (12.5/999/2:ℝ)) (by rw [abs_le]; constructor <;> norm_num)
  rw [abs_le] at h4
  have : Real.exp (12.5/999/2) ≤ 1.007 := by
    have := h4.2
    norm_num at this ⊢
    linarith
  have h5 : (12.5/999:ℝ)^2/8 ≤ 1.9571e-5 := by norm_num
  calc (12.5/999:ℝ)^2/8 * Real.exp (12.5/999/2) ≤ 1.9571e-5 * 1.007 := mul_le_mul h5 this (Real.exp_pos _).le (by norm_num)
    _ ≤ 2e-5 := by norm_num

theorem term_numeric {f q p eX ez fe : ℝ} (hc : 0 ≤ f) (e2 : 0 ≤ q) (hXp : 0 < eX) (hfe0 : 0 ≤ fe) (hfe1 : fe ≤ 1e-4)
    (hexp : |ez - eX| ≤ 3e-12 * eX) (e3 : |q - ez| ≤ (fe + 1e-9) * ez) (hmul : |p - f * q| ≤ uRound * |f * q| + etaRound) :
    |p - f * eX| ≤ (fe + 1.1e-9) * (f * eX) + etaRound := by
  rw [abs_of_nonneg (mul_nonneg hc e2)] at hmul
  have hu := Machine.uRound_le
  have hu0 := Machine.uRound_pos
  generalize uRound = u at *
  generalize etaRound = η at *
  have g1 := abs_le.1 hexp
  have g2 : |q - eX| ≤ (fe + 1.05e-9) * eX := by
    have h1 := abs_le.1 e3
    have h2 : (fe + 1e-9) * ez ≤ (fe + 1e-9) * (eX * (1 + 3e-12)) := mul_le_mul_of_nonneg_left (by linarith) (by linarith)
    have h3 : (fe + 1e-9) * (eX * 3e-12) ≤ 1 * (eX * 3e-12) := mul_le_mul_of_nonneg_right (by linarith) (by positivity)
    rw [abs_le]; constructor <;> linarith
  have g3 := abs_le.1 g2
  have g4 := abs_le.1 hmul
  have hfeX : 0 ≤ f * eX := by positivity
  have g5 : f * (q - eX) ≤ f * ((fe + 1.05e-9) * eX) := mul_le_mul_of_nonneg_left g3.2 hc
  have g6 : f * (-((fe + 1.05e-9) * eX)) ≤ f * (q - eX) := mul_le_mul_of_nonneg_left g3.1 hc
  have g8 : (fe + 1.05e-9) * (f * eX) ≤ 1 * (f * eX) := mul_le_mul_of_nonneg_right (by linarith) hfeX
  have g7 : u * (f * q) ≤ 1e-12 * (f * eX) := by
    have h1 : f * q ≤ 2 * (f * eX) := by linarith
    calc u * (f * q) ≤ 1.2e-16 * (f * q) := mul_le_mul_of_nonneg_right hu (mul_nonneg hc e2)
      _ ≤ 1.2e-16 * (2 * (f * eX)) := mul_le_mul_of_nonneg_left h1 (by norm_num)
      _ ≤ _ := by linarith
  rw [abs_le]; constructor <;> linarith

/-- One constituent: what the program adds. -/
theorem term_fl (v : Fl M) (hv : 1e-10 ≤ v.val) (x y : Fl M) (c : Constituent (Fl M)) (hc : 0 ≤ c.fluctuation.val)
    (hd : lt (sqr (x - c.x) + sqr (y - c.y)) (sqr (maxRadiusWidths * v)) = true) :
    ∃ ex : Fl M, M.expTable.eval false (-(lit 0.5) * (sqr (x - c.x) + sqr (y - c.y)) / sqr v) = .ok ex ∧
      0 ≤ (c.fluctuation * ex).val ∧
      |(c.fluctuation * ex).val - c.exact.fluctuation * Real.exp (-distSq c.exact x.val y.val / (2 * v.val^2))| ≤
        (feErr + 1.1e-9) * (c.exact.fluctuation * Real.exp (-distSq c.exact x.val y.val / (2 * v.val^2))) + etaRound ∧
      distSq c.exact x.val y.val < (5 * v.val * (1 + 1e-14))^2 := by
  have h5 : (maxRadiusWidths : Fl M).val = 5 := M.lit_five
  have hdist : (sqr (x - c.x) + sqr (y - c.y)).val = M.fl (M.fl (M.fl (x.val - c.x.val) * M.fl (x.val - c.x.val)) +
      M.fl (M.fl (y.val - c.y.val) * M.fl (y.val - c.y.val))) := rfl
  have hrad : (sqr (maxRadiusWidths * v)).val = M.fl (M.fl (5 * v.val) * M.fl (5 * v.val)) := by
    rw [Fl.sqr_val, Fl.mul_val, h5]
  have harg : (-(lit 0.5) * (sqr (x - c.x) + sqr (y - c.y)) / sqr v).val =
      M.fl (M.fl (-(1/2) * (sqr (x - c.x) + sqr (y - c.y)).val) / M.fl (v.val * v.val)) := by
    rw [Fl.div_val, Fl.mul_val, Fl.neg_val, M.lit_half, Fl.sqr_val]
  rw [Fl.lt_eq, decide_eq_true_eq, hrad] at hd
  have herr := M.dist_err (x.val - c.x.val) (y.val - c.y.val)
  rw [← hdist] at herr
  have hD : (x.val - c.x.val)^2 + (y.val - c.y.val)^2 = distSq c.exact x.val y.val := rfl
  rw [hD] at herr
  have hD0 : 0 ≤ distSq c.exact x.val y.val := by rw [← hD]; positivity
  have hd0 : 0 ≤ (sqr (x - c.x) + sqr (y - c.y)).val := by
    rw [hdist]
    exact M.fl_nonneg (add_nonneg (M.fl_nonneg (mul_self_nonneg _)) (M.fl_nonneg (mul_self_nonneg _)))
  obtain ⟨b1, b2, b3⟩ := M.arg_bounds hv hd0 hd herr hD0
  rw [← harg] at b1 b2 b3
  obtain ⟨ex, e1, e2, e3⟩ := M.expTable_eval b1 b2
  have hup : distSq c.exact x.val y.val < (5 * v.val * (1 + 1e-14))^2 := by
    have h2 := abs_le.1 (M.radiusSq_err hv)
    have h3 := abs_le.1 herr
    have hu1 := Machine.uRound_le
    have he1 := Machine.etaRound_tiny
    have huD : uRound * distSq c.exact x.val y.val ≤ 1.2e-16 * distSq c.exact x.val y.val := mul_le_mul_of_nonneg_right hu1 hD0
    have hv2 : 1e-20 ≤ v.val^2 := by nlinarith
    generalize distSq c.exact x.val y.val = D at *
    generalize (sqr (x - c.x) + sqr (y - c.y)).val = d at *
    generalize M.fl (M.fl (5 * v.val) * M.fl (5 * v.val)) = rad at *
    have : D * (1 - 1e-15) ≤ 25 * v.val^2 * (1 + 1e-15) + 1e-240 := by linarith
    nlinarith
  refine ⟨ex, e1, M.fl_nonneg (mul_nonneg hc e2), ?_, hup⟩
  have hx : -distSq c.exact x.val y.val / (2 * v.val^2) = -(distSq c.exact x.val y.val / (2 * v.val^2)) := by rw [neg_div]
  rw [hx]
  generalize -(distSq c.exact x.val y.val / (2 * v.val^2)) = X at *
  generalize (-(lit 0.5) * (sqr (x - c.x) + sqr (y - c.y)) / sqr v).val = z at *
  have hexp : |Real.exp z - Real.exp X| ≤ 3e-12 * Real.exp X := by
    have h1 := Machine.exp_near (δ := z - X) (by linarith)
    have : Real.exp z - Real.exp X = (Real.exp (z - X) - 1) * Real.exp X := by
      rw [sub_mul, ← Real.exp_add]; ring_nf
    rw [this, abs_mul, abs_of_pos (Real.exp_pos X)]
    exact mul_le_mul_of_nonneg_right h1 (Real.exp_pos X).le
  have hmul := M.fl_err (c.fluctuation.val * ex.val)
  exact term_numeric hc e2 (Real.exp_pos X) feErr_nonneg feErr_le hexp e3 hmul

/-- A constituent well inside the cutoff contributes. -/
theorem inside_fl (v : Fl M) (hv : 1e-10 ≤ v.val) (x y : Fl M) (c : Constituent (Fl M))
    (hd : distSq c.exact x.val y.val < (5 * v.val * (1 - 1e-14))^2) :
    lt (sqr (x - c.x) + sqr (y - c.y)) (sqr (maxRadiusWidths * v)) = true := by
  have h5 : (maxRadiusWidths : Fl M).val = 5 := M.lit_five
  have hdist : (sqr (x - c.x) + sqr (y - c.y)).val = M.fl (M.fl (M.fl (x.val - c.x.val) * M.fl (x.val - c.x.val)) +
      M.fl (M.fl (y.val - c.y.val) * M.fl (y.val - c.y.val))) := rfl
  have hrad : (sqr (maxRadiusWidths * v)).val = M.fl (M.fl (5 * v.val) * M.fl (5 * v.val)) := by
    rw [Fl.sqr_val, Fl.mul_val, h5]
  rw [Fl.lt_eq, decide_eq_true_eq, hrad]
  have herr := M.dist_err (x.val - c.x.val) (y.val - c.y.val)
  rw [← hdist] at herr
  have hD : (x.val - c.x.val)^2 + (y.val - c.y.val)^2 = distSq c.exact x.val y.val := rfl
  rw [hD] at herr
  have hD0 : 0 ≤ distSq c.exact x.val y.val := by rw [← hD]; positivity
  have h2 := abs_le.1 (M.radiusSq_err hv)
  have h3 := abs_le.1 herr
  have hu1 := Machine.uRound_le
  have he1 := Machine.etaRound_tiny
  have huD : uRound * distSq c.exact x.val y.val ≤ 1.2e-16 * distSq c.exact x.val y.val := mul_le_mul_of_nonneg_right hu1 hD0
  have hv2 : 1e-20 ≤ v.val^2 := by nlinarith
  generalize distSq c.exact x.val y.val = D at *
  generalize (sqr (x - c.x) + sqr (y - c.y)).val = d at *
  generalize M.fl (M.fl (5 * v.val) * M.fl (5 * v.val)) = rad at *
  have : D < 25 * v.val^2 * (1 - 1.9e-14) := by nlinarith
  nlinarith

/-- The accumulation step. -/
theorem accumulate_bounds {t p T L U e ε k : ℝ} (hT : |T - (t + p)| ≤ uRound * |t + p| + etaRound) (ht : 0 ≤ t) (hp : 0 ≤ p)
    (hε0 : 0 ≤ ε) (hε : ε ≤ 1/2) (hk0 : 0 ≤ k) (hk : k ≤ 1e7) (hL : 0 ≤ L) (hU : 0 ≤ U) (he : 0 ≤ e)
    (h1 : (1 - ε) * L - k * etaRound ≤ t) (h2 : t ≤ (1 + ε) * U + k * etaRound)
    (h3 : (1 - ε) * e - etaRound ≤ p) (h4 : p ≤ (1 + ε) * e + etaRound) :
    (1 - (ε + 1e-15)) * (L + e) - (k + 4) * etaRound ≤ T ∧ T ≤ (1 + (ε + 1e-15)) * (U + e) + (k + 4) * etaRound := by
  rw [abs_of_nonneg (show 0 ≤ t + p by linarith)] at hT
  have hT := abs_le.1 hT
  have hu := Machine.uRound_le
  have hu0 := Machine.uRound_pos
  have hη := Machine.etaRound_pos
  generalize uRound = u at *
  generalize etaRound = η at *
  have a1 : u * (t + p) ≤ u * ((1 + ε) * (U + e) + (k + 1) * η) := mul_le_mul_of_nonneg_left (by linarith) hu0.le
  have a2 : u * ((1 + ε) * (U + e)) ≤ 1e-15 * (U + e) := by
    have : u * (1 + ε) ≤ 1e-15 := by nlinarith
    calc u * ((1 + ε) * (U + e)) = u * (1 + ε) * (U + e) := by ring
      _ ≤ _ := mul_le_mul_of_nonneg_right this (by linarith)
  have a3 : u * ((k + 1) * η) ≤ η := by
    have : u * (k + 1) ≤ 1 := by nlinarith
    calc u * ((k + 1) * η) = u * (k + 1) * η := by ring
      _ ≤ 1 * η := mul_le_mul_of_nonneg_right this hη.le
      _ = η := one_mul _
  constructor
  · -- (t+p)(1-u) - η
    have b1 : (1 - u) * ((1 - ε) * (L + e) - (k + 1) * η) ≤ (1 - u) * (t + p) := mul_le_mul_of_nonneg_left (by linarith) (by linarith)
    have b2 : u * ((1 - ε) * (L + e)) ≤ 1e-15 * (L + e) := by
      have : u * (1 - ε) ≤ 1e-15 := by nlinarith
      calc u * ((1 - ε) * (L + e)) = u * (1 - ε) * (L + e) := by ring
        _ ≤ _ := mul_le_mul_of_nonneg_right this (by linarith)
    have b3 : 0 ≤ u * ((k + 1) * η) := by positivity
    linarith
  · linarith

/-- The loop over the constituents: no undefined behaviour, a non-negative value, and accuracy. -/
theorem thicknessLoop_fl (v : Fl M) (hv : 1e-10 ≤ v.val) (nc : NucleonCommon (Fl M)) (hfe : nc.fastExp = M.expTable)
    (hw : nc.constituentWidthSq = sqr v) (hr : nc.constituentRadiusSq = sqr (maxRadiusWidths * v)) (x y : Fl M) :
    ∀ (cs : List (Constituent (Fl M))) (t : Fl M), (∀ c ∈ cs, 0 ≤ c.fluctuation.val) → 0 ≤ t.val →
      ∃ t' : Fl M, nc.thicknessLoop false x y cs t = .ok t' ∧ 0 ≤ t'.val ∧
        ∀ (L U : ℝ) (j : ℕ), j + cs.length ≤ 1000000 → 0 ≤ L → 0 ≤ U → 
          (1 - (feErr + 1.1e-9 + j * 1e-15)) * L - 4 * j * etaRound ≤ t.val → t.val ≤ (1 + (feErr + 1.1e-9 + j * 1e-15)) * U + 4 * j * etaRound →
          (1 - (feErr + 1.1e-9 + (j + cs.length : ℕ) * 1e-15)) * (L + cutSum (5 * v.val * (1 - 1e-14)) v.val x.val y.val (cs.map Constituent.exact))
              - 4 * (j + cs.length : ℕ) * etaRound ≤ t'.val ∧
          t'.val ≤ (1 + (feErr + 1.1e-9 + (j + cs.length : ℕ) * 1e-15)) *
              (U + cutSum (5 * v.val * (1 + 1e-14)) v.val x.val y.val (cs.map Constituent.exact)) + 4 * (j + cs.length : ℕ) * etaRound := by
  intro cs
  induction cs with
  | nil =>
    intro t _ ht
    refine ⟨t, rfl, ht, ?_⟩
    intro L U j _ _ _ h1 h2
    simpa [cutSum] using ⟨by linarith, by linarith⟩
  | cons c cs ih =>
    intro t hf ht
    have hc := hf c (List.mem_cons_self ..)
    have hcs : ∀ c ∈ cs, 0 ≤ c.fluctuation.val := fun c hc => hf c (List.mem_cons_of_mem _ hc)
    have hη := Machine.etaRound_pos
    have hfe0 := feErr_nonneg
    have hfe1 := feErr_le
    rw [NucleonCommon.thicknessLoop]
    rw [hr, hw, hfe]
    cases hlt : lt (sqr (x - c.x) + sqr (y - c.y)) (sqr (maxRadiusWidths * v)) with
    | true =>
      obtain ⟨ex, e1, e2, e3, e4⟩ := term_fl v hv x y c hc hlt
      rw [if_pos rfl, e1]
      dsimp only
      have ht2 : 0 ≤ (t + c.fluctuation * ex).val := M.fl_nonneg (add_nonneg ht e2)
      obtain ⟨t', i1, i2, i3⟩ := ih (t + c.fluctuation * ex) hcs ht2
      refine ⟨t', i1, i2, ?_⟩
      intro L U j hj hL hU h1 h2
      rw [List.length_cons] at hj
      have hjr : (j:ℝ) ≤ 1e6 := by
        have : (j:ℝ) ≤ ((1000000:ℕ):ℝ) := by exact_mod_cast (by omega : j ≤ 1000000)
        norm_num at this ⊢; exact this
      have hjr0 : (0:ℝ) ≤ j := Nat.cast_nonneg j
      have he0 : 0 ≤ c.exact.fluctuation * Real.exp (-distSq c.exact x.val y.val / (2 * v.val^2)) := mul_nonneg hc (Real.exp_pos _).le
      have hterm := abs_le.1 e3
      rw [List.map_cons, cutSum_cons, cutSum_cons, if_pos e4]
      generalize c.exact.fluctuation * Real.exp (-distSq c.exact x.val y.val / (2 * v.val^2)) = e at *
      have hje : 0 ≤ (j:ℝ) * 1e-15 * e := by positivity
      obtain ⟨s1, s2⟩ := accumulate_bounds (t := t.val) (p := (c.fluctuation * ex).val) (T := (t + c.fluctuation * ex).val) (L := L) (U := U)
        (e := e) (ε := feErr + 1.1e-9 + j * 1e-15) (k := 4 * j) (M.fl_err _) ht e2 (by positivity) (by linarith) (by positivity) (by linarith)
        hL hU he0 h1 h2 (by linarith) (by linarith)
      have hcast : ((j + 1 : ℕ) : ℝ) = j + 1 := by push_cast; ring
      have := i3 (L + e) (U + e) (j+1) (by omega) (by linarith) (by linarith)
        (by rw [hcast]; linarith) (by rw [hcast]; linarith)
      rw [List.length_cons, show j + (cs.length + 1) = j + 1 + cs.length by omega]
      refine ⟨?_, ?_⟩
      · refine le_trans ?_ this.1
        have hj2 : ((j + 1 + cs.length : ℕ) : ℝ) ≤ 1e6 := by
          have : ((j + 1 + cs.length : ℕ) : ℝ) ≤ ((1000000:ℕ):ℝ) := by exact_mod_cast (by omega : j + 1 + cs.length ≤ 1000000)
          norm_num at this ⊢; exact this
        apply sub_le_sub_right
        apply mul_le_mul_of_nonneg_left _ (by linarith)
        have : (if distSq c.exact x.val y.val < (5 * v.val * (1 - 1e-14))^2 then e else 0) ≤ e := by split <;> linarith
        linarith
      · refine le_trans this.2 (le_of_eq ?_)
        ring
    | false =>
      rw [if_neg (by simp)]
      obtain ⟨t', i1, i2, i3⟩ := ih t hcs ht
      refine ⟨t', i1, i2, ?_⟩
      intro L U j hj hL hU h1 h2
      rw [List.length_cons] at hj
      have hcast : ((j + 1 : ℕ) : ℝ) = j + 1 := by push_cast; ring
      have hjL : 0 ≤ 1e-15 * L := by positivity
      have hjU : 0 ≤ 1e-15 * U := by positivity
      have := i3 L U (j+1) (by omega) hL hU (by rw [hcast]; linarith) (by rw [hcast]; linarith)
      have hout : ¬ distSq c.exact x.val y.val < (5 * v.val * (1 - 1e-14))^2 := by
        intro hin
        have := inside_fl v hv x y c hin
        rw [hlt] at this; cases this
      rw [List.map_cons, cutSum_cons, cutSum_cons, if_neg hout, List.length_cons, show j + (cs.length + 1) = j + 1 + cs.length by omega]
      refine ⟨?_, ?_⟩
      · refine le_trans (le_of_eq ?_) this.1
        ring
      · refine le_trans this.2 ?_
        apply add_le_add_left
        apply mul_le_mul_of_nonneg_left _ (by positivity)
        have : 0 ≤ (if distSq c.exact x.val y.val < (5 * v.val * (1 + 1e-14))^2
          then c.exact.fluctuation * Real.exp (-distSq c.exact x.val y.val / (2 * v.val^2)) else 0) := by
          split
          · exact mul_nonneg hc (Real.exp_pos _).le
          · exact le_rfl
        linarith

/-- The prefactor `1 / (2 π v² m)` as computed. -/
theorem prefactor_fl (v : Fl M) (hv : 1e-10 ≤ v.val) (hv2 : v.val ≤ 1e6) (m : ℕ) (hm : 1 ≤ m) (hm2 : m ≤ 1000000) :
    |(oneDivTwoPi / sqr v / ofInt m : Fl M).val - 1 / (2 * Real.pi * v.val^2 * m)| ≤ 1e-15 * (1 / (2 * Real.pi * v.val^2 * m)) := by
  have hv0 : 0 < v.val := lt_of_lt_of_le (by norm_num) hv
  have hmi : (ofInt (m:ℤ) : Fl M).val = m := by
    rw [M.ofInt_exact _ (by rw [Nat.abs_cast]; exact_mod_cast (by omega : m < 2^53))]; simp
  have hval : (oneDivTwoPi / sqr v / ofInt m : Fl M).val = M.fl (M.fl (M.fl (1 / (2 * Real.pi)) / M.fl (v.val * v.val)) / m) := by
    rw [Fl.div_val, Fl.div_val, Fl.oneDivTwoPi_val, Fl.sqr_val, hmi]
  rw [hval]
  have hpi := Real.pi_gt_d2
  have hpi2 := Real.pi_lt_d2
  have hW := M.widthSq_err hv
  have hmr : (1:ℝ) ≤ m := by exact_mod_cast hm
  have hmr2 : (m:ℝ) ≤ 1e6 := by
    have : (m:ℝ) ≤ ((1000000:ℕ):ℝ) := by exact_mod_cast hm2
    norm_num at this ⊢; exact this
  have hv4 : 0 < v.val^2 := by positivity
  have hv5 : v.val^2 ≤ 1e12 := by nlinarith
  -- first factor
  have ha : (0.1:ℝ) ≤ 1 / (2 * Real.pi) := by rw [le_div_iff₀ (by positivity)]; nlinarith
  have ha' : 0 < 1 / (2 * Real.pi) := by positivity
  have h1 := M.fl_rel_err (x := 1 / (2 * Real.pi)) (by rw [abs_of_pos ha']; linarith)
  rw [abs_of_pos ha'] at h1
  have e : 1 / (2 * Real.pi * v.val^2 * m) = 1 / (2 * Real.pi) / v.val^2 / m := by field_simp
  rw [e]
  generalize 1 / (2 * Real.pi) = a at *
  generalize v.val^2 = V at *
  generalize M.fl a = A at *
  generalize M.fl (v.val * v.val) = W at *
  have h1 := abs_le.1 h1
  have hW := abs_le.1 hW
  have hWp : 0 < W := by linarith
  have hA : 0 < A := by linarith
  have hq1 : A / W ≤ a / V * (1 + 4.1e-16) := by
    rw [div_le_iff₀ hWp]
    have : a / V * (1 + 4.1e-16) * (V * (1 - 2e-16)) ≤ a / V * (1 + 4.1e-16) * W := mul_le_mul_of_nonneg_left (by linarith) (by positivity)
    have e2 : a / V * (1 + 4.1e-16) * (V * (1 - 2e-16)) = a * ((1 + 4.1e-16) * (1 - 2e-16)) := by field_simp
    nlinarith
  have hq2 : a / V * (1 - 4.1e-16) ≤ A / W := by
    rw [le_div_iff₀ hWp]
    have : a / V * (1 - 4.1e-16) * W ≤ a / V * (1 - 4.1e-16) * (V * (1 + 2e-16)) := mul_le_mul_of_nonneg_left (by linarith) (by positivity)
    have e2 : a / V * (1 - 4.1e-16) * (V * (1 + 2e-16)) = a * ((1 - 4.1e-16) * (1 + 2e-16)) := by field_simp
    nlinarith
  have haV : (1e-14:ℝ) ≤ a / V := by
    rw [le_div_iff₀ hv4]; nlinarith
  have hAW : 0 < A / W := by positivity
  have h2 := M.fl_rel_err (x := A / W) (by rw [abs_of_pos hAW]; linarith)
  rw [abs_of_pos hAW] at h2
  generalize M.fl (A / W) = q at *
  generalize A / W = Q at *
  generalize a / V = r at *
  have h2 := abs_le.1 h2
  have hq3 : q ≤ r * (1 + 6.2e-16) := by nlinarith
  have hq4 : r * (1 - 6.2e-16) ≤ q := by nlinarith
  have hm0 : (0:ℝ) < m := by linarith
  have hq5 : q / m ≤ r / m * (1 + 6.2e-16) := by
    rw [div_mul_eq_mul_div]; exact div_le_div_of_nonneg_right hq3 hm0.le
  have hq6 : r / m * (1 - 6.2e-16) ≤ q / m := by
    rw [div_mul_eq_mul_div]; exact div_le_div_of_nonneg_right hq4 hm0.le
  have hr : (1e-20:ℝ) ≤ r / m := by rw [le_div_iff₀ hm0]; nlinarith
  have hqp : 0 < q / m := by linarith
  have h3 := M.fl_rel_err (x := q / m) (by rw [abs_of_pos hqp]; linarith)
  rw [abs_of_pos hqp] at h3
  generalize M.fl (q / m) = y at *
  generalize q / m = z at *
  generalize r / m = g at *
  have h3 := abs_le.1 h3
  rw [abs_le]; constructor <;> linarith

theorem final_numeric {P g S T t L U ε k : ℝ} (hg0 : 0 < g) (hg : g ≤ 1e20) (hP : |P - g| ≤ 1e-15 * g) (hS0 : 0 ≤ S) (hL : 0 ≤ L) (hU : 0 ≤ U)
    (hε0 : 0 ≤ ε) (hε : ε ≤ 1e-3) (hk0 : 0 ≤ k) (hk : k ≤ 1e7) (h1 : (1 - ε) * L - k * etaRound ≤ S) (h2 : S ≤ (1 + ε) * U + k * etaRound)
    (ht : t = P * S) (hT : |T - t| ≤ uRound * |t| + etaRound) :
    (1 - (ε + 2e-15)) * (g * L) - 1e-200 ≤ T ∧ T ≤ (1 + (ε + 2e-15)) * (g * U) + 1e-200 := by
  have hP := abs_le.1 hP
  have hP0 : 0 < P := by linarith
  have hPS : 0 ≤ P * S := mul_nonneg hP0.le hS0
  rw [ht, abs_of_nonneg hPS] at hT
  have hT := abs_le.1 hT
  have hu := Machine.uRound_le
  have hu0 := Machine.uRound_pos
  have hη := Machine.etaRound_pos
  have hη1 := Machine.etaRound_tiny
  generalize uRound = u at *
  generalize etaRound = η at *
  have hgU : 0 ≤ g * U := by positivity
  have hgL : 0 ≤ g * L := by positivity
  have hgk : g * (k * η) ≤ 1e-210 := by
    have : k * η ≤ 1e7 * 1e-250 := mul_le_mul hk hη1 hη.le (by norm_num)
    calc g * (k * η) ≤ 1e20 * (1e7 * 1e-250) := mul_le_mul hg this (by positivity) (by norm_num)
      _ ≤ _ := by norm_num
  have hgk0 : 0 ≤ g * (k * η) := by positivity
  have hgS1 : g * S ≤ (1 + ε) * (g * U) + g * (k * η) := by
    have := mul_le_mul_of_nonneg_left h2 hg0.le
    linarith
  have hgS2 : (1 - ε) * (g * L) - g * (k * η) ≤ g * S := by
    have := mul_le_mul_of_nonneg_left h1 hg0.le
    linarith
  have hPS1 : P * S ≤ (1 + 1e-15) * (g * S) := by
    have := mul_le_mul_of_nonneg_right (show P ≤ (1 + 1e-15) * g by linarith) hS0
    linarith
  have hPS2 : (1 - 1e-15) * (g * S) ≤ P * S := by
    have := mul_le_mul_of_nonneg_right (show (1 - 1e-15) * g ≤ P by linarith) hS0
    linarith
  have hgS0 : 0 ≤ g * S := by positivity
  have huP : u * (P * S) ≤ 1.2e-16 * (P * S) := mul_le_mul_of_nonneg_right hu hPS
  have hεU : ε * (g * U) ≤ 1e-3 * (g * U) := mul_le_mul_of_nonneg_right hε hgU
  have hεL0 : 0 ≤ ε * (g * L) := mul_nonneg hε0 hgL
  generalize P * S = w at *
  generalize g * S = z at *
  generalize g * L = l at *
  generalize g * U = o at *
  generalize g * (k * η) = κ at *
  have e1 : ε * o = ε * o := rfl
  generalize u * w = uw at *
  constructor
  · -- T ≥ w - uw - η
    have : (1 - ε) * l = l - ε * l := by ring
    have h9 : (1 - (ε + 2e-15)) * l = l - ε * l - 2e-15 * l := by ring
    rw [this] at hgS2
    rw [h9]
    generalize ε * l = εl at *
    rcases le_total (1e-15 * z + 1.2e-16 * z) (1.2e-15 * l) with h | h
    · linarith
    · linarith
  · have : (1 + ε) * o = o + ε * o := by ring
    have h9 : (1 + (ε + 2e-15)) * o = o + ε * o + 2e-15 * o := by ring
    rw [this] at hgS1
    rw [h9]
    generalize ε * o = εo at *
    linarith

/-- **C76, accuracy.** With rounding, the thickness of a nucleon at any point is computed without undefined behaviour; it is not
negative, and it differs from the ideal thickness (sum of Gaussians of width `v`, each cut off at `5 v`) by less than 2.1e-5 in
relative terms: the linear interpolation of the exponential (1.98e-5) dominates, all roundings together add less than 3e-9.
The only other effect is that a constituent at a distance of `5 v` up to 14 digits may or may not count.
Widths from 1e-10 fm to 1e6 fm, at most a million constituents, release build. -/
theorem C76_thickness (w v : Fl M) (hv : 1e-10 ≤ v.val) (hv2 : v.val ≤ 1e6) (m : ℕ) (hm : 1 ≤ m) (hm2 : m ≤ 1000000) (σ : Fl M) (nc : Bool) (k : Fl M)
    (n : NucleonData (Fl M)) (hn : n.constituents.length ≤ 1000000) (hf : ∀ c ∈ n.constituents, 0 ≤ c.fluctuation.val) (x y : Fl M) :
    ∃ t, (NucleonCommon.make w v m σ nc k).thickness false n x y = .ok t ∧ 0 ≤ t.val ∧
      (1 - 2.1e-5) * cutThickness (5 * v.val * (1 - 1e-14)) v.val m (n.constituents.map Constituent.exact) x.val y.val - 1e-200 ≤ t.val ∧
      t.val ≤ (1 + 2.1e-5) * cutThickness (5 * v.val * (1 + 1e-14)) v.val m (n.constituents.map Constituent.exact) x.val y.val + 1e-200 := by
  have hv0 : 0 < v.val := lt_of_lt_of_le (by norm_num) hv
  have hpi := Real.pi_gt_three
  obtain ⟨S, e1, e2, e3⟩ := thicknessLoop_fl v hv (NucleonCommon.make w v m σ nc k) rfl rfl rfl x y n.constituents (lit 0) hf (by rw [M.lit_zero])
  have hacc := e3 0 0 0 (by omega) le_rfl le_rfl (by rw [M.lit_zero]; simp) (by rw [M.lit_zero]; simp)
  rw [zero_add, zero_add, zero_add] at hacc
  have hpre := prefactor_fl v hv hv2 m hm hm2
  have hmr : (1:ℝ) ≤ m := by exact_mod_cast hm
  have hL := cutSum_nonneg (5 * v.val * (1 - 1e-14)) v.val x.val y.val (n.constituents.map Constituent.exact)
    (by intro c hc; obtain ⟨c', h1, rfl⟩ := List.mem_map.1 hc; exact hf c' h1)
  have hU := cutSum_nonneg (5 * v.val * (1 + 1e-14)) v.val x.val y.val (n.constituents.map Constituent.exact)
    (by intro c hc; obtain ⟨c', h1, rfl⟩ := List.mem_map.1 hc; exact hf c' h1)
  have hlen : ((n.constituents.length : ℕ) : ℝ) ≤ 1e6 := by
    have : ((n.constituents.length : ℕ) : ℝ) ≤ ((1000000:ℕ):ℝ) := by exact_mod_cast hn
    norm_num at this ⊢; exact this
  have hlen0 : (0:ℝ) ≤ (n.constituents.length : ℕ) := Nat.cast_nonneg _
  have hg0 : 0 < 1 / (2 * Real.pi * v.val^2 * m) := by positivity
  have hg : 1 / (2 * Real.pi * v.val^2 * m) ≤ 1e20 := by
    rw [div_le_iff₀ (by positivity)]
    have h1 : (1e-20:ℝ) ≤ v.val^2 := by nlinarith
    have h2 : 1 ≤ 2 * Real.pi := by linarith
    have h3 : (1:ℝ) * 1e-20 * 1 ≤ 2 * Real.pi * v.val^2 * m := by gcongr
    linarith
  have hfe := feErr_nonneg
  have hfe1 := feErr_le'
  have := final_numeric (P := (oneDivTwoPi / sqr v / ofInt m : Fl M).val) (S := S.val)
    (T := ((NucleonCommon.make w v m σ nc k).prefactor * S).val) (t := (oneDivTwoPi / sqr v / ofInt m : Fl M).val * S.val)
    (ε := feErr + 1.1e-9 + (n.constituents.length : ℕ) * 1e-15) (k := 4 * (n.constituents.length : ℕ))
    hg0 hg hpre e2 hL hU (by positivity) (by linarith) (by positivity) (by linarith) hacc.1 hacc.2 rfl (M.fl_err _)
  refine ⟨(NucleonCommon.make w v m σ nc k).prefactor * S, ?_, ?_, ?_, ?_⟩
  · unfold NucleonCommon.thickness; rw [e1]
  · have hp := abs_le.1 hpre
    exact M.fl_nonneg (mul_nonneg (show 0 ≤ (oneDivTwoPi / sqr v / ofInt m : Fl M).val by linarith) e2)
  · refine le_trans ?_ this.1
    apply sub_le_sub_right
    exact mul_le_mul_of_nonneg_right (by linarith) (mul_nonneg hg0.le hL)
  · refine le_trans this.2 ?_
    apply add_le_add_left
    exact mul_le_mul_of_nonneg_right (by linarith) (mul_nonneg hg0.le hU)

theorem cutThickness_centre {ρ v : ℝ} (hρ : 0 < ρ) : cutThickness ρ v 1 [⟨0, 0, 1⟩] 0 0 = 1 / (2 * Real.pi * v^2) := by
  unfold cutThickness distSq
  have hc : (0:ℝ) < ρ^2 := by positivity
  simp [hc]

/-- The hypotheses of `C76_thickness` hold on the IEEE 754 machine for a nucleon of width 0.5 fm with one constituent at the origin. -/
example : ∃ t, (NucleonCommon.make (⟨0.5⟩ : Fl ieee) ⟨0.5⟩ 1 ⟨1⟩ false ⟨1⟩).thickness false
      ⟨⟨0⟩, ⟨0⟩, ⟨0⟩, true, true, [⟨⟨0⟩, ⟨0⟩, ⟨1⟩⟩]⟩ ⟨0⟩ ⟨0⟩ = .ok t ∧ 0.6 ≤ t.val := by
  obtain ⟨t, h1, -, h3, -⟩ := C76_thickness (M := ieee) ⟨0.5⟩ ⟨0.5⟩ (by norm_num) (by norm_num) 1 le_rfl (by norm_num) ⟨1⟩ false ⟨1⟩
    ⟨⟨0⟩, ⟨0⟩, ⟨0⟩, true, true, [⟨⟨0⟩, ⟨0⟩, ⟨1⟩⟩]⟩ (by simp) (by simp) ⟨0⟩ ⟨0⟩
  have e := cutThickness_centre (ρ := 5 * 0.5 * (1 - 1e-14)) (v := 0.5) (by norm_num)
  have h3' : (1 - 2.1e-5) * cutThickness (5 * 0.5 * (1 - 1e-14)) 0.5 1 [⟨0, 0, 1⟩] 0 0 - 1e-200 ≤ t.val := h3
  rw [e] at h3'
  refine ⟨t, h1, le_trans ?_ h3'⟩
  have hpi := Real.pi_lt_d2
  have hpi0 := Real.pi_pos
  have : (0.63:ℝ) ≤ 1 / (2 * Real.pi * 0.5^2) := by
    rw [le_div_iff₀ (by positivity)]
    norm_num at hpi ⊢
    linarith
  generalize 1 / (2 * Real.pi * 0.5^2) = q at *
  norm_num at this ⊢
  linarith

end Trento
