import Verif.Model.LibRandom
import Verif.Model.RealArith

/-!
# The inversion of a piecewise linear density, in exact arithmetic
-/

namespace Trento

/-- the point of a segment with density `d0 + m t` under which the area is `q` -/
noncomputable def segInv (d0 m q : ℝ) : ℝ := if m = 0 then q / d0 else (√(d0^2 + 2 * m * q) - d0) / m

theorem segInv_zero {d0 : ℝ} (h : 0 ≤ d0) (m : ℝ) : segInv d0 m 0 = 0 := by
  unfold segInv
  split
  · simp
  · simp [Real.sqrt_sq h]

/-- the area under a segment up to `y` -/
noncomputable def segArea (d0 m y : ℝ) : ℝ := d0 * y + m / 2 * y^2

theorem segArea_lt {d0 d1 δ y1 y2 : ℝ} (h0 : 0 ≤ d0) (h1 : 0 ≤ d1) (hs : 0 < d0 + d1) (hδ : 0 < δ) (hy1 : 0 ≤ y1) (hy : y1 < y2) (hy2 : y2 ≤ δ) :
    segArea d0 ((d1 - d0) / δ) y1 < segArea d0 ((d1 - d0) / δ) y2 := by
  have hs1 : 0 < (y1 + y2) / 2 / δ := by apply div_pos _ hδ; linarith
  have hs2 : (y1 + y2) / 2 / δ < 1 := by rw [div_lt_one hδ]; linarith
  have e : segArea d0 ((d1 - d0) / δ) y2 - segArea d0 ((d1 - d0) / δ) y1 =
      (y2 - y1) * (d0 * (1 - (y1 + y2) / 2 / δ) + d1 * ((y1 + y2) / 2 / δ)) := by
    unfold segArea
    field_simp
    ring
  have hp : 0 < d0 * (1 - (y1 + y2) / 2 / δ) + d1 * ((y1 + y2) / 2 / δ) := by
    generalize (y1 + y2) / 2 / δ = s at *
    rcases h0.lt_or_eq with h | h
    · nlinarith [mul_nonneg h1 hs1.le, mul_pos h (sub_pos.2 hs2)]
    · subst h
      have : 0 < d1 := by linarith
      nlinarith [mul_pos this hs1]
  nlinarith [mul_pos (sub_pos.2 hy) hp]

theorem segInv_spec {d0 d1 δ q : ℝ} (h0 : 0 ≤ d0) (h1 : 0 ≤ d1) (hδ : 0 < δ) (hq : 0 < q) (hq2 : q ≤ (d1 + d0) / 2 * δ) :
    0 ≤ segInv d0 ((d1 - d0) / δ) q ∧ segInv d0 ((d1 - d0) / δ) q ≤ δ ∧
      segArea d0 ((d1 - d0) / δ) (segInv d0 ((d1 - d0) / δ) q) = q := by
  set m := (d1 - d0) / δ with hm
  have hd1 : d1 = d0 + m * δ := by rw [hm]; field_simp; ring
  unfold segInv segArea
  split
  · next h =>
    rw [h] at hd1
    have hd0 : 0 < d0 := by
      rcases h0.lt_or_eq with h | h
      · exact h
      · exfalso; rw [hd1, ← h] at hq2; simp at hq2; linarith
    have : q ≤ d0 * δ := by rw [hd1] at hq2; linarith
    refine ⟨by positivity, by rw [div_le_iff₀ hd0]; linarith, by rw [h]; field_simp; ring⟩
  · next h =>
    have hA : q ≤ d0 * δ + m / 2 * δ^2 := by rw [hd1] at hq2; linarith
    rcases lt_or_gt_of_ne h with hneg | hpos
    · have hd : (d0 + m * δ)^2 ≤ d0^2 + 2 * m * q := by nlinarith
      have hnn : 0 ≤ d0^2 + 2 * m * q := le_trans (sq_nonneg _) hd
      have s1 : d0 + m * δ ≤ √(d0^2 + 2 * m * q) := Real.le_sqrt_of_sq_le hd
      have s2 : √(d0^2 + 2 * m * q) ≤ d0 := by
        rw [Real.sqrt_le_left h0]; nlinarith
      have s3 := Real.sq_sqrt hnn
      refine ⟨div_nonneg_of_nonpos (by linarith) hneg.le, ?_, ?_⟩
      · rw [div_le_iff_of_neg hneg]; linarith
      · field_simp
        nlinarith
    · have hd : d0^2 + 2 * m * q ≤ (d0 + m * δ)^2 := by nlinarith
      have hnn : 0 ≤ d0^2 + 2 * m * q := by positivity
      have s1 : √(d0^2 + 2 * m * q) ≤ d0 + m * δ := by
        rw [Real.sqrt_le_left (by linarith)]; exact hd
      have s2 : d0 ≤ √(d0^2 + 2 * m * q) := Real.le_sqrt_of_sq_le (by nlinarith [mul_pos hpos hq])
      have s3 := Real.sq_sqrt hnn
      refine ⟨div_nonneg (by linarith) hpos.le, ?_, ?_⟩
      · rw [div_le_iff₀ hpos]; linarith
      · field_simp
        nlinarith

theorem segInv_le_iff {d0 d1 δ q y : ℝ} (h0 : 0 ≤ d0) (h1 : 0 ≤ d1) (hδ : 0 < δ) (hq : 0 < q) (hq2 : q ≤ (d1 + d0) / 2 * δ)
    (hy : 0 ≤ y) (hyδ : y ≤ δ) : segInv d0 ((d1 - d0) / δ) q ≤ y ↔ q ≤ segArea d0 ((d1 - d0) / δ) y := by
  obtain ⟨a, b, c⟩ := segInv_spec h0 h1 hδ hq hq2
  have hs : 0 < d0 + d1 := by
    by_contra hc
    have : d1 + d0 ≤ 0 := by linarith
    nlinarith
  constructor
  · intro h
    rcases h.lt_or_eq with h | h
    · have := segArea_lt h0 h1 hs hδ a h hyδ
      rw [c] at this
      exact this.le
    · rw [← h, c]
  · intro h
    by_contra hc
    have := segArea_lt h0 h1 hs hδ hy (not_le.1 hc) b
    rw [c] at this
    linarith

/-- strictly increasing breakpoints and non-negative densities -/
def GoodTable : List (ℝ × ℝ) → Prop
  | (b0, d0) :: (b1, d1) :: t => b0 < b1 ∧ 0 ≤ d0 ∧ GoodTable ((b1, d1) :: t)
  | [(_, d)] => 0 ≤ d
  | [] => True

theorem goodTable_real (t : List (ℝ × ℝ)) : goodTable t = true ↔ GoodTable t := by
  induction t with
  | nil => simp [goodTable, GoodTable]
  | cons p t ih =>
    cases t with
    | nil => simp [goodTable, GoodTable]
    | cons p' t =>
      simp only [goodTable, GoodTable, Bool.and_eq_true, ih, lt_real, decide_eq_true_eq, Bool.not_eq_true', decide_eq_false_iff_not,
        not_lt, lit_real, Rat.cast_zero, and_assoc]

theorem GoodTable.snd_nonneg {b0 d0 : ℝ} {t : List (ℝ × ℝ)} (h : GoodTable ((b0, d0) :: t)) : 0 ≤ d0 := by
  cases t with
  | nil => exact h
  | cons p t => exact h.2.1

theorem GoodTable.tail {p : ℝ × ℝ} {t : List (ℝ × ℝ)} (h : GoodTable (p :: t)) : GoodTable t := by
  cases t with
  | nil => trivial
  | cons p t => exact h.2.2

/-- the total area -/
noncomputable def tableArea (t : List (ℝ × ℝ)) : ℝ := (segAreas t).sum

theorem segAreas_cons (b0 d0 b1 d1 : ℝ) (t : List (ℝ × ℝ)) :
    segAreas ((b0, d0) :: (b1, d1) :: t) = (d1 + d0) / 2 * (b1 - b0) :: segAreas ((b1, d1) :: t) := by
  rw [segAreas]
  congr 1
  simp only [lit_real]
  push_cast
  ring

theorem tableArea_cons (b0 d0 b1 d1 : ℝ) (t : List (ℝ × ℝ)) :
    tableArea ((b0, d0) :: (b1, d1) :: t) = (d1 + d0) / 2 * (b1 - b0) + tableArea ((b1, d1) :: t) := by
  unfold tableArea
  rw [segAreas_cons, List.sum_cons]

theorem tableArea_nonneg {t : List (ℝ × ℝ)} (h : GoodTable t) : 0 ≤ tableArea t := by
  induction t with
  | nil => simp [tableArea, segAreas]
  | cons p t ih =>
    cases t with
    | nil => simp [tableArea, segAreas]
    | cons p' t =>
      obtain ⟨b0, d0⟩ := p
      obtain ⟨b1, d1⟩ := p'
      rw [tableArea_cons]
      have h1 := h.2.2.snd_nonneg
      have := mul_nonneg (show 0 ≤ (d1 + d0)/2 by linarith [h.2.1]) (sub_nonneg.2 h.1.le)
      linarith [ih h.tail]

/-- the point under which the area is `q` -/
noncomputable def pwlRec : List (ℝ × ℝ) → ℝ → ℝ
  | (b0, d0) :: (b1, d1) :: t, q =>
    if q ≤ (d1 + d0) / 2 * (b1 - b0) then b0 + segInv d0 ((d1 - d0) / (b1 - b0)) q
    else pwlRec ((b1, d1) :: t) (q - (d1 + d0) / 2 * (b1 - b0))
  | [(b, _)], _ => b
  | [], _ => 0

/-- the area under the density up to `x` -/
noncomputable def pwlCum : List (ℝ × ℝ) → ℝ → ℝ
  | (b0, d0) :: (b1, d1) :: t, x =>
    if x ≤ b0 then 0
    else if x ≤ b1 then segArea d0 ((d1 - d0) / (b1 - b0)) (x - b0)
    else (d1 + d0) / 2 * (b1 - b0) + pwlCum ((b1, d1) :: t) x
  | _, _ => 0

theorem pwlCum_nonneg {t : List (ℝ × ℝ)} (h : GoodTable t) (x : ℝ) : 0 ≤ pwlCum t x := by
  induction t with
  | nil => simp [pwlCum]
  | cons p t ih =>
    cases t with
    | nil => simp [pwlCum]
    | cons p' t =>
      obtain ⟨b0, d0⟩ := p
      obtain ⟨b1, d1⟩ := p'
      have h1 := h.2.2.snd_nonneg
      have hb := h.1
      have h0 := h.2.1
      rw [pwlCum]
      split
      · exact le_rfl
      · split
        · next h2 h3 =>
          push Not at h2
          have e : segArea d0 ((d1 - d0) / (b1 - b0)) (x - b0) =
              (x - b0) * (d0 * (1 - (x - b0) / 2 / (b1 - b0)) + d1 * ((x - b0) / 2 / (b1 - b0))) := by
            have : b1 - b0 ≠ 0 := by linarith
            unfold segArea
            field_simp
            ring
          rw [e]
          have : (x - b0) / 2 / (b1 - b0) ≤ 1 := by rw [div_le_one (by linarith)]; linarith
          have : 0 ≤ (x - b0) / 2 / (b1 - b0) := div_nonneg (by linarith) (by linarith)
          exact mul_nonneg (by linarith) (add_nonneg (mul_nonneg h0 (by linarith)) (mul_nonneg h1 this))
        · have := mul_nonneg (show 0 ≤ (d1 + d0)/2 by linarith) (sub_nonneg.2 hb.le)
          linarith [ih h.tail]

theorem pwlCum_first (t : List (ℝ × ℝ)) (b d x : ℝ) (hx : x ≤ b) : pwlCum ((b, d) :: t) x = 0 := by
  cases t with
  | nil => rfl
  | cons p t => obtain ⟨b1, d1⟩ := p; rw [pwlCum, if_pos hx]

theorem pwlCum_last {t : List (ℝ × ℝ)} (h : GoodTable t) (x : ℝ) (hx : ∀ p ∈ t, p.1 ≤ x) : pwlCum t x = tableArea t := by
  induction t with
  | nil => simp [pwlCum, tableArea, segAreas]
  | cons p t ih =>
    cases t with
    | nil => simp [pwlCum, tableArea, segAreas]
    | cons p' t =>
      obtain ⟨b0, d0⟩ := p
      obtain ⟨b1, d1⟩ := p'
      rw [pwlCum, tableArea_cons]
      have hx1 := hx (b1, d1) (by simp)
      have hb := h.1
      simp only at hx1
      rw [if_neg (by linarith)]
      have ht := ih h.tail (fun p hp => hx p (List.mem_cons_of_mem _ hp))
      split
      · next h2 =>
        have e : x = b1 := le_antisymm h2 hx1
        subst e
        rw [pwlCum_first _ _ _ _ le_rfl] at ht
        rw [← ht]
        have : x - b0 ≠ 0 := by linarith
        unfold segArea
        field_simp
        ring
      · rw [ht]

/-- **The inversion is right**: for a positive area `q`, the point found is at most `x` exactly if the area up to `x` is at least `q`. -/
theorem pwlRec_le_iff {t : List (ℝ × ℝ)} (h : GoodTable t) {q : ℝ} (hq : 0 < q) (hq2 : q ≤ tableArea t) (x : ℝ) :
    pwlRec t q ≤ x ↔ q ≤ pwlCum t x := by
  induction t generalizing q with
  | nil => simp [tableArea, segAreas] at hq2; linarith
  | cons p t ih =>
    cases t with
    | nil => simp [tableArea, segAreas] at hq2; linarith
    | cons p' t =>
      obtain ⟨b0, d0⟩ := p
      obtain ⟨b1, d1⟩ := p'
      have h1 := h.2.2.snd_nonneg
      have hb := h.1
      have h0 := h.2.1
      rw [tableArea_cons] at hq2
      rw [pwlRec, pwlCum]
      split
      · next hqa =>
        obtain ⟨s1, s2, s3⟩ := segInv_spec h0 h1 (sub_pos.2 hb) hq hqa
        split
        · next hx =>
          constructor
          · intro hh
            have : segInv d0 ((d1 - d0) / (b1 - b0)) q = 0 := by linarith
            rw [this] at s3
            simp [segArea] at s3
            linarith
          · intro hh; linarith
        · next hx =>
          split
          · next hx2 =>
            rw [← segInv_le_iff h0 h1 (sub_pos.2 hb) hq hqa (by linarith) (by linarith)]
            constructor <;> intro hh <;> linarith
          · next hx2 =>
            constructor
            · intro _
              linarith [pwlCum_nonneg h.tail x]
            · intro _; linarith
      · next hqa =>
        have := ih h.tail (q := q - (d1 + d0) / 2 * (b1 - b0)) (by linarith) (by linarith)
        have hA := mul_nonneg (show 0 ≤ (d1 + d0)/2 by linarith) (sub_nonneg.2 hb.le)
        rw [this]
        split
        · next hx =>
          rw [pwlCum_first _ _ _ _ (by linarith)]
          constructor <;> intro hh <;> linarith
        · next hx =>
          split
          · next hx2 =>
            rw [pwlCum_first _ _ _ _ hx2]
            constructor
            · intro hh; linarith
            · intro hh
              exfalso
              have hle : segArea d0 ((d1 - d0) / (b1 - b0)) (x - b0) ≤ (d1 + d0) / 2 * (b1 - b0) := by
                have e : segArea d0 ((d1 - d0) / (b1 - b0)) (b1 - b0) = (d1 + d0) / 2 * (b1 - b0) := by
                  have : b1 - b0 ≠ 0 := by linarith
                  unfold segArea; field_simp; ring
                rcases eq_or_lt_of_le hx2 with he | hlt
                · rw [he, e]
                · by_cases hs : 0 < d0 + d1
                  · rw [← e]
                    exact (segArea_lt h0 h1 hs (sub_pos.2 hb) (by linarith) (by linarith) le_rfl).le
                  · have z0 : d0 = 0 := by linarith
                    have z1 : d1 = 0 := by linarith
                    simp [segArea, z0, z1]
              linarith
          · constructor <;> intro hh <;> linarith

theorem pwlRec_zero {t : List (ℝ × ℝ)} (h : GoodTable t) (hne : t ≠ []) : pwlRec t 0 = (t.headD (0, 0)).1 := by
  match t, hne with
  | [(b, d)], _ => rfl
  | (b0, d0) :: (b1, d1) :: t, _ =>
    have h1 := h.2.2.snd_nonneg
    have hA := mul_nonneg (show 0 ≤ (d1 + d0)/2 by linarith [h.2.1]) (sub_nonneg.2 h.1.le)
    rw [pwlRec, if_pos hA, segInv_zero h.2.1]
    simp

/-- values lie between the breakpoints -/
theorem pwlRec_mem {t : List (ℝ × ℝ)} (h : GoodTable t) (hne : t ≠ []) {q lo hi : ℝ} (hq : 0 ≤ q) (hq2 : q ≤ tableArea t)
    (hb : ∀ p ∈ t, lo ≤ p.1 ∧ p.1 ≤ hi) : lo ≤ pwlRec t q ∧ pwlRec t q ≤ hi := by
  obtain ⟨⟨b0, d0⟩, t', rfl⟩ := List.exists_cons_of_ne_nil hne
  rcases hq.eq_or_lt with he | hq
  · rw [← he, pwlRec_zero h hne]
    exact hb _ (by simp)
  · constructor
    · by_contra hc
      have := (pwlRec_le_iff h hq hq2 b0).1 ((not_le.1 hc).le.trans (hb (b0, d0) (by simp)).1)
      rw [pwlCum_first _ _ _ _ le_rfl] at this
      linarith
    · rw [pwlRec_le_iff h hq hq2, pwlCum_last h _ fun p hp => (hb p hp).2]
      exact hq2

/-! ### The library's loop-free formula is this inversion -/

theorem runningSums_shift (c acc : ℝ) (l : List ℝ) : runningSums (c + acc) l = (runningSums acc l).map (c + ·) := by
  induction l generalizing acc with
  | nil => rfl
  | cons a t ih => simp only [runningSums, List.map_cons, add_assoc, ih]

theorem runningSums_length (acc : ℝ) (l : List ℝ) : (runningSums acc l).length = l.length := by
  induction l generalizing acc with
  | nil => rfl
  | cons a t ih => simp [runningSums, ih]

theorem runningSums_last (acc : ℝ) (l : List ℝ) : (runningSums acc l).getLastD acc = acc + l.sum := by
  induction l generalizing acc with
  | nil => simp [runningSums]
  | cons a t ih =>
    have := ih (acc + a)
    simp only [runningSums, List.getLastD_cons, List.sum_cons]
    rw [this]; ring

/-- the search for the segment, with an offset for the induction -/
theorem pwl_search (t : List (ℝ × ℝ)) (acc q : ℝ) (h2 : 2 ≤ t.length) (hq : q ≤ acc + tableArea t) :
    (t.getD ((runningSums acc (segAreas t)).findIdx fun c => decide (q ≤ c)) (0, 0)).1 +
      segInv (t.getD ((runningSums acc (segAreas t)).findIdx fun c => decide (q ≤ c)) (0, 0)).2
        ((segSlopes t).getD ((runningSums acc (segAreas t)).findIdx fun c => decide (q ≤ c)) 0)
        (q - if 0 < (runningSums acc (segAreas t)).findIdx (fun c => decide (q ≤ c)) then
          (runningSums acc (segAreas t)).getD ((runningSums acc (segAreas t)).findIdx (fun c => decide (q ≤ c)) - 1) 0 else acc) =
      pwlRec t (q - acc) := by
  induction t generalizing acc with
  | nil => simp at h2
  | cons p t ih =>
    cases t with
    | nil => simp at h2
    | cons p' t =>
      obtain ⟨b0, d0⟩ := p
      obtain ⟨b1, d1⟩ := p'
      rw [tableArea_cons] at hq
      rw [segAreas_cons, runningSums, List.findIdx_cons, pwlRec]
      by_cases hA : q ≤ acc + (d1 + d0) / 2 * (b1 - b0)
      · have hA' : q - acc ≤ (d1 + d0) / 2 * (b1 - b0) := by linarith
        simp only [hA, decide_true, cond_true, if_pos hA', lt_self_iff_false, if_false, segSlopes, List.getD_cons_zero]
      · have hA' : ¬ q - acc ≤ (d1 + d0) / 2 * (b1 - b0) := by linarith
        simp only [hA, decide_false, cond_false, if_neg hA', Nat.zero_lt_succ, if_true, segSlopes, List.getD_cons_succ, Nat.add_sub_cancel]
        cases t with
        | nil => simp [tableArea, segAreas] at hq; linarith
        | cons p'' t =>
          have := ih (acc + (d1 + d0) / 2 * (b1 - b0)) (by simp) (by linarith)
          rw [show q - acc - (d1 + d0) / 2 * (b1 - b0) = q - (acc + (d1 + d0) / 2 * (b1 - b0)) by ring, ← this]
          congr 3
          generalize (runningSums (acc + (d1 + d0) / 2 * (b1 - b0)) (segAreas ((b1, d1) :: p'' :: t))).findIdx (fun c => decide (q ≤ c)) = i
          cases i with
          | zero => simp
          | succ i => simp

theorem segInv_scale {d0 m q s : ℝ} (hs : 0 < s) : segInv (d0 / s) (m / s) (q / s) = segInv d0 m q := by
  unfold segInv
  by_cases hm : m = 0
  · rw [if_pos (by rw [hm, zero_div]), if_pos hm, div_div_div_cancel_right₀ hs.ne']
  · rw [if_neg (div_ne_zero hm hs.ne'), if_neg hm]
    have : (d0 / s)^2 + 2 * (m / s) * (q / s) = (d0^2 + 2 * m * q) / s^2 := by field_simp
    rw [this, Real.sqrt_div' _ (by positivity), Real.sqrt_sq hs.le, ← sub_div, div_div_div_cancel_right₀ hs.ne']

theorem eqv_real (x y : ℝ) : eqv x y = decide (x = y) := by
  unfold eqv
  simp only [lt_real]
  rcases lt_trichotomy x y with h | h | h
  · simp [h, h.ne]
  · simp [h]
  · simp [h, h.ne']

theorem segAreas_length (t : List (ℝ × ℝ)) : (segAreas t).length = t.length - 1 := by
  induction t with
  | nil => rfl
  | cons p t ih =>
    cases t with
    | nil => rfl
    | cons p' t => simp only [segAreas, List.length_cons, ih]; rfl

theorem pwl_tail (x b m cm : ℝ) :
    (if eqv ((1/2:ℝ) * m) 0 then x + cm / b else x + (1/2:ℝ) * (√(b * b + 4 * ((1/2:ℝ) * m) * cm) - b) / ((1/2:ℝ) * m)) = x + segInv b m cm := by
  unfold segInv
  rw [eqv_real]
  by_cases hm : m = 0
  · simp [hm]
  · have : ¬ (1/2:ℝ) * m = 0 := by simpa using hm
    simp only [this, decide_false, Bool.false_eq_true, if_false, if_neg hm]
    rw [show b * b + 4 * ((1/2:ℝ) * m) * cm = b^2 + 2 * m * cm by ring]
    field_simp

theorem getD_map_div (l : List ℝ) (s : ℝ) (i : ℕ) : (l.map (· / s)).getD i 0 = l.getD i 0 / s := by
  simp only [List.getD_eq_getElem?_getD, List.getElem?_map]
  cases l[i]? <;> simp

theorem cp_eq (l : List ℝ) (s : ℝ) (hl : l ≠ []) (hs : l.getLastD 0 = s) (h0 : s ≠ 0) : (l.map (· / s)).dropLast ++ [1] = l.map (· / s) := by
  have hne : l.map (· / s) ≠ [] := by simpa using hl
  conv_rhs => rw [← List.dropLast_append_getLast hne]
  rw [List.getLast_map, show l.getLast hl = s by rw [← hs, List.getLastD_eq_getLast?, List.getLast?_eq_getLast_of_ne_nil hl]; rfl,
    div_self h0]

/-- **The library's formula** is the inversion of the unnormalised density. -/
theorem pwlValue_eq (t : List (ℝ × ℝ)) (hs : 0 < tableArea t) (p : ℝ) (hp : p ≤ 1) :
    pwlValue t p = pwlRec t (p * tableArea t) := by
  have h2 : 2 ≤ t.length := by
    by_contra hc
    have : (segAreas t).length = 0 := by rw [segAreas_length]; omega
    rw [List.length_eq_zero_iff] at this
    simp [tableArea, this] at hs
  have hne : runningSums (0:ℝ) (segAreas t) ≠ [] := by
    intro h
    have := congrArg List.length h
    rw [runningSums_length, segAreas_length] at this
    simp at this
    omega
  have hlast : (runningSums (0:ℝ) (segAreas t)).getLastD 0 = tableArea t := by
    have := runningSums_last 0 (segAreas t)
    rw [this, zero_add]; rfl
  have hfind : ∀ l : List ℝ, (l.map (· / tableArea t)).findIdx (fun c => !decide (c < p)) = l.findIdx (fun c => decide (p * tableArea t ≤ c)) := by
    intro l
    rw [List.findIdx_map]
    congr 1
    funext c
    rw [Bool.eq_iff_iff]
    simp only [Function.comp, Bool.not_eq_true', decide_eq_false_iff_not, not_lt, decide_eq_true_eq, le_div_iff₀ hs]
  have key := pwl_search t 0 (p * tableArea t) h2 (by rw [zero_add]; nlinarith)
  rw [sub_zero] at key
  rw [← key]
  unfold pwlValue
  simp only [lit_real, lt_real, sqrt_real, Rat.cast_zero, Rat.cast_one, hlast]
  rw [cp_eq _ _ hne hlast hs.ne', hfind]
  generalize (runningSums (0:ℝ) (segAreas t)).findIdx (fun c => decide (p * tableArea t ≤ c)) = i
  have e1 : ((0.5:ℚ) : ℝ) = 1/2 := by norm_num
  have e2 : ((4:ℚ) : ℝ) = 4 := by norm_num
  rw [e1, e2, pwl_tail]
  congr 1
  conv_rhs => rw [← segInv_scale (s := tableArea t) hs]
  congr 1
  rw [getD_map_div]
  split
  · field_simp
  · field_simp
    ring

end Trento
