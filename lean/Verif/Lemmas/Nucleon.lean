import Verif.Spec.Nucleon
import Verif.Props.FastExp

namespace Trento
open Spec

/-- relative error bound of trento's exponential table: step 12.5/999 -/
noncomputable def feErr : ℝ := (12.5/999)^2/8 * Real.exp (12.5/999/2)

theorem make_fastExp (w v : ℝ) (m : ℕ) (σ : ℝ) (nc : Bool) (k : ℝ) :
    (NucleonCommon.make w v m σ nc k).fastExp = FastExp.make (-12.5) 0 1000 := by
  have h1 : (-(lit 0.5) * sqr maxRadiusWidths : ℝ) = -12.5 := by
    simp only [lit_real, sqr_real, maxRadiusWidths]; norm_num
  have h2 : (lit 0 : ℝ) = 0 := by simp
  show FastExp.make _ _ _ = _
  rw [h1, h2]

theorem make_radiusSq (w v : ℝ) (m : ℕ) (σ : ℝ) (nc : Bool) (k : ℝ) :
    (NucleonCommon.make w v m σ nc k).constituentRadiusSq = (5 * v)^2 := by
  simp [NucleonCommon.make, maxRadiusWidths]

theorem make_widthSq (w v : ℝ) (m : ℕ) (σ : ℝ) (nc : Bool) (k : ℝ) :
    (NucleonCommon.make w v m σ nc k).constituentWidthSq = v^2 := by
  simp [NucleonCommon.make]

theorem make_maxImpactSq (w v : ℝ) (m : ℕ) (σ : ℝ) (nc : Bool) (k : ℝ) :
    (NucleonCommon.make w v m σ nc k).maxImpactSq = (6 * w)^2 := by
  simp [NucleonCommon.make, maxImpactWidths]

theorem make_prefactor (w v : ℝ) (m : ℕ) (σ : ℝ) (nc : Bool) (k : ℝ) :
    (NucleonCommon.make w v m σ nc k).prefactor = 1 / (2 * Real.pi * v^2 * m) := by
  simp [NucleonCommon.make]
  ring

/-- The fast exponential as used by `thickness`. -/
theorem thickness_exp (w v : ℝ) (m : ℕ) (σ : ℝ) (ncoll : Bool) (k : ℝ) (hv : 0 < v) (debug : Bool) {d : ℝ}
    (h0 : 0 ≤ d) (h1 : d < (5*v)^2) :
    ∃ e, (NucleonCommon.make w v m σ ncoll k).fastExp.eval debug (-(lit 0.5) * d / v^2) = .ok e ∧
      0 ≤ e ∧ e ≤ Real.exp (-d/(2*v^2)) ∧ Real.exp (-d/(2*v^2)) * (1 - feErr) ≤ e := by
  rw [make_fastExp]
  have hv2 : 0 < v^2 := by positivity
  have ha : (-(lit 0.5) * d / v^2 : ℝ) = -d/(2*v^2) := by
    simp only [lit_real]; push_cast; field_simp; norm_num; ring
  rw [ha]
  have hlo : (-12.5:ℝ) ≤ -d/(2*v^2) := by
    rw [le_div_iff₀ (by positivity)]; nlinarith
  have hhi : -d/(2*v^2) ≤ 0 := by
    apply div_nonpos_of_nonpos_of_nonneg <;> [linarith; positivity]
  obtain ⟨e, he, h2, h3⟩ := C01_fastExp_accurate (-12.5) 0 (by norm_num) 1000 (by norm_num) (by norm_num)
    debug _ hlo hhi
  refine ⟨e, he, ?_, h2, ?_⟩
  · rw [FastExp.eval_in_range (-12.5) 0 (by norm_num) 1000 (by norm_num) (by norm_num) debug _ hlo hhi] at he
    obtain ⟨_, _, hc⟩ := FastExp.index_bound (by norm_num : (-12.5:ℝ) < 0) (by norm_num : 2 ≤ 1000) hlo hhi
    have h5 := (abs_le.mp hc).1
    have h6 : FastExp.step (-12.5) 0 1000 / 2 ≤ 1 := by unfold FastExp.step; norm_num
    have he' := Except.ok.inj he
    rw [← he']
    apply mul_nonneg (Real.exp_pos _).le
    linarith
  · have e1 : ((0 - (-12.5)) / (((1000:ℕ):ℝ) - 1)) = (12.5/999 : ℝ) := by norm_num
    rw [e1] at h3
    rw [mul_sub, mul_one]
    have e2 : Real.exp (-d/(2*v^2)) * feErr = Real.exp (-d/(2*v^2)) * ((12.5/999)^2/8 * Real.exp (12.5/999/2)) := rfl
    rw [e2]
    linarith

/-- one term of the ideal sum -/
noncomputable def idealTerm (v x y : ℝ) (c : Constituent ℝ) : ℝ :=
  if distSq c x y < (5 * v)^2 then c.fluctuation * Real.exp (-distSq c x y / (2 * v^2)) else 0

theorem idealTerm_nonneg (v x y : ℝ) (c : Constituent ℝ) (h : 0 ≤ c.fluctuation) : 0 ≤ idealTerm v x y c := by
  unfold idealTerm; split
  · exact mul_nonneg h (Real.exp_pos _).le
  · exact le_rfl

theorem distSq_nonneg (c : Constituent ℝ) (x y : ℝ) : 0 ≤ distSq c x y := by unfold distSq; positivity

theorem thicknessLoop_spec (w v : ℝ) (m : ℕ) (σ : ℝ) (ncoll : Bool) (k : ℝ) (hv : 0 < v) (debug : Bool) (x y : ℝ)
    (cs : List (Constituent ℝ)) (hf : ∀ c ∈ cs, 0 ≤ c.fluctuation) (t : ℝ) :
    ∃ s, (NucleonCommon.make w v m σ ncoll k).thicknessLoop debug x y cs t = .ok (t + s) ∧ 0 ≤ s ∧
      s ≤ (cs.map (idealTerm v x y)).sum ∧ (cs.map (idealTerm v x y)).sum * (1 - feErr) ≤ s ∧
      ((∀ c ∈ cs, (5*v)^2 ≤ distSq c x y) → s = 0) := by
  induction cs generalizing t with
  | nil => exact ⟨0, by simp [NucleonCommon.thicknessLoop], by simp, by simp, by simp, by simp⟩
  | cons c cs ih =>
    have hfc := hf c (by simp)
    have hfs : ∀ c ∈ cs, 0 ≤ c.fluctuation := fun c' h => hf c' (by simp [h])
    unfold NucleonCommon.thicknessLoop
    simp only [sqr_real, make_radiusSq, make_widthSq, lt_real, decide_eq_true_eq]
    have hdd : (x - c.x)^2 + (y - c.y)^2 = distSq c x y := rfl
    rw [hdd]
    by_cases hd : distSq c x y < (5*v)^2
    · rw [if_pos hd]
      obtain ⟨e, he, h0, h1, h2⟩ := thickness_exp w v m σ ncoll k hv debug (distSq_nonneg c x y) hd
      rw [he]
      obtain ⟨s, hs, hs0, hs1, hs2, hs3⟩ := ih hfs (t + c.fluctuation * e)
      refine ⟨c.fluctuation * e + s, ?_, ?_, ?_, ?_, ?_⟩
      · simp only [hs]; congr 1; ring
      · have := mul_nonneg hfc h0; linarith
      · simp only [List.map_cons, List.sum_cons]
        have : idealTerm v x y c = c.fluctuation * Real.exp (-distSq c x y / (2 * v^2)) := if_pos hd
        rw [this]
        have := mul_le_mul_of_nonneg_left h1 hfc
        linarith
      · simp only [List.map_cons, List.sum_cons]
        have : idealTerm v x y c = c.fluctuation * Real.exp (-distSq c x y / (2 * v^2)) := if_pos hd
        rw [this, add_mul, mul_assoc]
        have := mul_le_mul_of_nonneg_left h2 hfc
        linarith
      · intro hall
        have := hall c (by simp)
        linarith
    · rw [if_neg hd]
      obtain ⟨s, hs, hs0, hs1, hs2, hs3⟩ := ih hfs t
      have : idealTerm v x y c = 0 := if_neg hd
      refine ⟨s, hs, hs0, ?_, ?_, fun hall => hs3 fun c' h => hall c' (by simp [h])⟩ <;>
        simpa [this] using ‹_›

/-- The bounding-box loop. -/
theorem boundaryLoop_spec (cs : List (Constituent ℝ)) (b : Box ℝ) (hx : b.xmin ≤ b.xmax) (hy : b.ymin ≤ b.ymax) :
    let r := boundaryLoop cs b
    (r.xmin ≤ b.xmin ∧ b.xmax ≤ r.xmax ∧ r.ymin ≤ b.ymin ∧ b.ymax ≤ r.ymax) ∧
    (∀ c ∈ cs, r.xmin ≤ c.x ∧ c.x ≤ r.xmax ∧ r.ymin ≤ c.y ∧ c.y ≤ r.ymax) ∧
    (r.xmin = b.xmin ∨ ∃ c ∈ cs, c.x = r.xmin) ∧ (r.xmax = b.xmax ∨ ∃ c ∈ cs, c.x = r.xmax) ∧
    (r.ymin = b.ymin ∨ ∃ c ∈ cs, c.y = r.ymin) ∧ (r.ymax = b.ymax ∨ ∃ c ∈ cs, c.y = r.ymax) := by
  induction cs generalizing b with
  | nil => simp [boundaryLoop]
  | cons c cs ih =>
    intro r
    let b1 : Box ℝ := if lt c.x b.xmin then { b with xmin := c.x }
             else if lt b.xmax c.x then { b with xmax := c.x } else b
    let b2 : Box ℝ := if lt c.y b1.ymin then { b1 with ymin := c.y }
             else if lt b1.ymax c.y then { b1 with ymax := c.y } else b1
    have h1 : b1.xmin = min b.xmin c.x ∧ b1.xmax = max b.xmax c.x ∧ b1.ymin = b.ymin ∧ b1.ymax = b.ymax := by
      simp only [b1, lt_real, decide_eq_true_eq]
      split
      · rename_i h; simp [min_eq_right h.le, max_eq_left (h.le.trans hx)]
      · rename_i h; split
        · rename_i h'; simp [min_eq_left (not_lt.mp h), max_eq_right h'.le]
        · rename_i h'; simp [min_eq_left (not_lt.mp h), max_eq_left (not_lt.mp h')]
    have h2 : b2.xmin = b1.xmin ∧ b2.xmax = b1.xmax ∧ b2.ymin = min b1.ymin c.y ∧ b2.ymax = max b1.ymax c.y := by
      have hy1 : b1.ymin ≤ b1.ymax := by rw [h1.2.2.1, h1.2.2.2]; exact hy
      simp only [b2, lt_real, decide_eq_true_eq]
      split
      · rename_i h; simp [min_eq_right h.le, max_eq_left (h.le.trans hy1)]
      · rename_i h; split
        · rename_i h'; simp [min_eq_left (not_lt.mp h), max_eq_right h'.le]
        · rename_i h'; simp [min_eq_left (not_lt.mp h), max_eq_left (not_lt.mp h')]
    obtain ⟨a1, a2, a3, a4⟩ := h1
    obtain ⟨c1, c2, c3, c4⟩ := h2
    rw [a1] at c1; rw [a2] at c2; rw [a3] at c3; rw [a4] at c4
    have hr : r = boundaryLoop cs b2 := rfl
    have := ih b2 (by rw [c1, c2]; exact (min_le_left _ _).trans (hx.trans (le_max_left _ _)))
      (by rw [c3, c4]; exact (min_le_left _ _).trans (hy.trans (le_max_left _ _)))
    rw [← hr] at this
    obtain ⟨⟨p1, p2, p3, p4⟩, q, e1, e2, e3, e4⟩ := this
    rw [c1] at p1 e1; rw [c2] at p2 e2; rw [c3] at p3 e3; rw [c4] at p4 e4
    have p1' := le_min_iff.mp p1
    have p2' := max_le_iff.mp p2
    have p3' := le_min_iff.mp p3
    have p4' := max_le_iff.mp p4
    refine ⟨⟨p1'.1, p2'.1, p3'.1, p4'.1⟩, ?_, ?_, ?_, ?_, ?_⟩
    · intro c' hc'
      rcases List.mem_cons.mp hc' with rfl | hc'
      · exact ⟨p1'.2, p2'.2, p3'.2, p4'.2⟩
      · exact q c' hc'
    · rcases e1 with e | ⟨c', h, e⟩
      · rcases min_choice b.xmin c.x with h | h <;> rw [h] at e
        · exact .inl e
        · exact .inr ⟨c, by simp, e.symm⟩
      · exact .inr ⟨c', by simp [h], e⟩
    · rcases e2 with e | ⟨c', h, e⟩
      · rcases max_choice b.xmax c.x with h | h <;> rw [h] at e
        · exact .inl e
        · exact .inr ⟨c, by simp, e.symm⟩
      · exact .inr ⟨c', by simp [h], e⟩
    · rcases e3 with e | ⟨c', h, e⟩
      · rcases min_choice b.ymin c.y with h | h <;> rw [h] at e
        · exact .inl e
        · exact .inr ⟨c, by simp, e.symm⟩
      · exact .inr ⟨c', by simp [h], e⟩
    · rcases e4 with e | ⟨c', h, e⟩
      · rcases max_choice b.ymax c.y with h | h <;> rw [h] at e
        · exact .inl e
        · exact .inr ⟨c, by simp, e.symm⟩
      · exact .inr ⟨c', by simp [h], e⟩

end Trento
