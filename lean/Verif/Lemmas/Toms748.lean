import Verif.Model.Toms748
import Verif.Props.MonteCarloFit
import Verif.Props.ProgramSafe

/-! # The root finder of Boost: bracket and convergence -/

namespace Trento
open Spec

theorem tle_iff (x y : ℝ) : tle x y = true ↔ x ≤ y := by simp [tle]
theorem tzero_iff (x : ℝ) : tzero x = true ↔ x = 0 := by
  simp only [tzero, lt_real, lit_real, Bool.and_eq_true, Bool.not_eq_true', decide_eq_false_iff_not, not_lt]
  simpa using (le_antisymm_iff.trans and_comm).symm
theorem opposite_iff (x y : ℝ) : opposite x y = true ↔ x * y < 0 := by
  simp only [opposite, lt_real, lit_real, Bool.or_eq_true, Bool.and_eq_true, decide_eq_true_eq, mul_neg_iff]
  simp only [Rat.cast_zero]
  tauto
theorem sameSign_iff (x y : ℝ) : sameSign x y = true ↔ 0 < x * y := by
  simp only [sameSign, lt_real, lit_real, Bool.or_eq_true, Bool.and_eq_true, decide_eq_true_eq, mul_pos_iff]
  simp only [Rat.cast_zero]
  tauto

theorem machEps_real : (machEps : ℝ) = 1 / 4503599627370496 := by simp [machEps]

theorem tolEps_ge (bits : ℕ) : (1 / 1125899906842624 : ℝ) ≤ tolEps bits := by
  unfold tolEps
  rw [machEps_real, fmax_real]
  refine le_trans ?_ (le_max_right _ _)
  rw [lit_real]; norm_num

theorem tolEps_ge' {bits : ℕ} (hb : bits ≤ 50) : (1 / 562949953421312 : ℝ) ≤ tolEps bits := by
  unfold tolEps
  rw [machEps_real, fmax_real]
  refine le_trans ?_ (le_max_left _ _)
  rw [lit_real]
  push_cast
  have : (2:ℝ)^bits ≤ 2^50 := pow_le_pow_right₀ (by norm_num) hb
  have h0 : (0:ℝ) < 2^bits := by positivity
  rw [div_le_div_iff₀ (by norm_num) h0]
  linarith

theorem tolEps_le {bits : ℕ} (hb : 1 ≤ bits) : (tolEps bits : ℝ) ≤ 1 := by
  unfold tolEps
  rw [machEps_real, fmax_real]
  refine max_le ?_ ?_
  · rw [lit_real]
    push_cast
    have : (2:ℝ)^1 ≤ 2^bits := pow_le_pow_right₀ (by norm_num) hb
    have h0 : (0:ℝ) < 2^bits := by positivity
    rw [div_le_one h0]
    linarith
  · rw [lit_real]; norm_num

theorem tolMet_iff (bits : ℕ) (a b : ℝ) : tolMet bits a b = true ↔ |a - b| ≤ tolEps bits * min |a| |b| := by
  unfold tolMet
  rw [tle_iff, fmin_real]
  rfl

/-- if the tolerance is not met the ends are small compared to the width -/
theorem tol_width {ε : ℝ} (h0 : 0 < ε) {a b : ℝ} (hab : a ≤ b) (h : ε * min |a| |b| < |a - b|) :
    ε * |a| < (1 + ε) * (b - a) ∧ ε * |b| < (1 + ε) * (b - a) := by
  have hw : |a - b| = b - a := by rw [abs_sub_comm, abs_of_nonneg (by linarith)]
  rw [hw] at h
  have h1 : |a| ≤ min |a| |b| + (b - a) := by
    rcases le_total |a| |b| with hh | hh
    · rw [min_eq_left hh]; linarith
    · rw [min_eq_right hh]
      have := abs_sub_abs_le_abs_sub a b
      rw [hw] at this; linarith
  have h2 : |b| ≤ min |a| |b| + (b - a) := by
    rcases le_total |a| |b| with hh | hh
    · rw [min_eq_left hh]
      have := abs_sub_abs_le_abs_sub b a
      rw [abs_of_nonneg (by linarith : 0 ≤ b - a)] at this; linarith
    · rw [min_eq_right hh]; linarith
  have h3 := mul_le_mul_of_nonneg_left h1 h0.le
  have h4 := mul_le_mul_of_nonneg_left h2 h0.le
  constructor <;> linarith

theorem not_tol {bits : ℕ} {a b : ℝ} (h : ¬ tolMet bits a b = true) : tolEps bits * min |a| |b| < |a - b| := by
  rw [tolMet_iff] at h
  exact not_le.mp h

theorem not_tol_lt {bits : ℕ} {a b : ℝ} (hab : a ≤ b) (h : ¬ tolMet bits a b = true) : a < b := by
  have h1 := not_tol h
  have h2 := tolEps_ge bits
  have : 0 ≤ tolEps bits * min |a| |b| := mul_nonneg (by linarith) (le_min (abs_nonneg _) (abs_nonneg _))
  rcases hab.lt_or_eq with h3 | h3
  · exact h3
  · subst h3; rw [sub_self, abs_zero] at h1; linarith

theorem fabs_real' (x : ℝ) : fabs x = |x| := rfl

theorem adjustPoint_mem {bits : ℕ} {a b : ℝ} (c : ℝ) (hab : a ≤ b) (h : ¬ tolMet bits a b = true) : a ≤ adjustPoint a b c ∧ adjustPoint a b c ≤ b := by
  have h1 : (1 / 1125899906842624 : ℝ) * min |a| |b| < |a - b| :=
    lt_of_le_of_lt (mul_le_mul_of_nonneg_right (tolEps_ge bits) (le_min (abs_nonneg _) (abs_nonneg _))) (not_tol h)
  obtain ⟨h2, h3⟩ := tol_width (by norm_num) hab h1
  have ha := abs_nonneg a
  have hb := abs_nonneg b
  unfold adjustPoint
  dsimp only
  rw [machEps_real, fabs_real', fabs_real']
  simp only [lit_real]
  push_cast
  split_ifs with g1 g2 g3
  · constructor <;> linarith
  · constructor <;> linarith
  · constructor <;> linarith
  · simp only [tle_iff, not_le] at g2 g3
    constructor <;> linarith

theorem adjustPoint_mid {bits : ℕ} (hbits : bits ≤ 50) {a b : ℝ} (hab : a ≤ b) (h : ¬ tolMet bits a b = true) :
    adjustPoint a b (a + (b - a) / lit 2) = a + (b - a) / 2 := by
  have h1 : (1 / 562949953421312 : ℝ) * min |a| |b| < |a - b| :=
    lt_of_le_of_lt (mul_le_mul_of_nonneg_right (tolEps_ge' hbits) (le_min (abs_nonneg _) (abs_nonneg _))) (not_tol h)
  obtain ⟨h2, h3⟩ := tol_width (by norm_num) hab h1
  have hlt := not_tol_lt hab h
  have e : (lit 2 : ℝ) = 2 := by simp
  have ha := abs_nonneg a
  have hb := abs_nonneg b
  unfold adjustPoint
  dsimp only
  rw [machEps_real, fabs_real', fabs_real', e]
  split_ifs with g1 g2 g3
  · rfl
  · rw [tle_iff] at g2; exfalso; linarith
  · rw [tle_iff] at g3; exfalso; linarith
  · rfl

/-- the invariant of the algorithm: `a`, `b` are a bracket inside `[a0, b0]` and the function was evaluated at its ends -/
structure TomsInv {S : Type} (f : ℝ → S → Res ℝ × S) (a0 b0 : ℝ) (q : TomsState ℝ) : Prop where
  left : a0 ≤ q.a
  le : q.a ≤ q.b
  right : q.b ≤ b0
  ea : ∃ s, (f q.a s).1 = .ok q.fa
  eb : ∃ s, (f q.b s).1 = .ok q.fb
  sign : q.fa * q.fb < 0 ∨ q.fa = 0

theorem tomsChoose_same (ph : TomsPhase ℝ) (q : TomsState ℝ) :
    (tomsChoose ph q).1.a = q.a ∧ (tomsChoose ph q).1.b = q.b ∧ (tomsChoose ph q).1.fa = q.fa ∧ (tomsChoose ph q).1.fb = q.fb := by
  cases ph with
  | check a0 b0 => simp only [tomsChoose]; split <;> exact ⟨rfl, rfl, rfl, rfl⟩
  | _ => exact ⟨rfl, rfl, rfl, rfl⟩

theorem updateBracket_inv {S : Type} {f : ℝ → S → Res ℝ × S} {a0 b0 : ℝ} {q : TomsState ℝ} (hq : TomsInv f a0 b0 q) (hfa : q.fa ≠ 0) {c fc : ℝ}
    (hc : q.a ≤ c ∧ c ≤ q.b) (hf : ∃ s, (f c s).1 = .ok fc) :
    TomsInv f a0 b0 (updateBracket q c fc) ∧ (updateBracket q c fc).b - (updateBracket q c fc).a ≤ max (c - q.a) (q.b - c) := by
  have hs := hq.sign.resolve_right hfa
  unfold updateBracket
  split_ifs with h1 h2
  · rw [tzero_iff] at h1
    exact ⟨⟨hq.left.trans hc.1, hc.2, hq.right, by simpa [h1] using hf, hq.eb, .inr (by simp)⟩, le_max_right _ _⟩
  · rw [opposite_iff] at h2
    exact ⟨⟨hq.left, hc.1, hc.2.trans hq.right, hq.ea, hf, .inl h2⟩, le_max_left _ _⟩
  · rw [tzero_iff] at h1
    rw [opposite_iff, not_lt] at h2
    refine ⟨⟨hq.left.trans hc.1, hc.2, hq.right, hf, hq.eb, .inl ?_⟩, le_max_right _ _⟩
    have h3 : 0 < q.fa * fc := lt_of_le_of_ne h2 (Ne.symm (mul_ne_zero hfa h1))
    by_contra hcon
    push Not at hcon
    show False
    dsimp only at hcon
    have : 0 ≤ (q.fa * q.fa) * (fc * q.fb) := mul_nonneg (mul_self_nonneg _) hcon
    have h4 : (q.fa * fc) * (q.fa * q.fb) < 0 := mul_neg_of_pos_of_neg h3 hs
    nlinarith

/-- one evaluation -/
theorem bracketStep_inv {S : Type} {f : ℝ → S → Res ℝ × S} {a0 b0 : ℝ} {bits : ℕ} {q q' : TomsState ℝ} (hq : TomsInv f a0 b0 q) (hfa : q.fa ≠ 0)
    (ht : ¬ tolMet bits q.a q.b = true) {c : ℝ} {s s' : S} (h : bracketStep f q c s = (.ok q', s')) :
    TomsInv f a0 b0 q' ∧ q'.b - q'.a ≤ max (adjustPoint q.a q.b c - q.a) (q.b - adjustPoint q.a q.b c) ∧ q'.b - q'.a ≤ q.b - q.a := by
  unfold bracketStep at h
  dsimp only at h
  have hm := adjustPoint_mem (bits := bits) c hq.le ht
  generalize adjustPoint q.a q.b c = p at h hm ⊢
  cases hf : f p s with
  | mk res s1 =>
  rw [hf] at h
  cases res with
  | error e => cases h
  | ok fc =>
    simp only [Prod.mk.injEq, Except.ok.injEq] at h
    obtain ⟨rfl, rfl⟩ := h
    obtain ⟨h1, h2⟩ := updateBracket_inv hq hfa hm ⟨s, by rw [hf]⟩
    exact ⟨h1, h2, h2.trans (max_le (by linarith [hm.2]) (by linarith [hm.1]))⟩

theorem TomsInv.choose {S : Type} {f : ℝ → S → Res ℝ × S} {a0 b0 : ℝ} {q : TomsState ℝ} (hq : TomsInv f a0 b0 q) (ph : TomsPhase ℝ) :
    TomsInv f a0 b0 (tomsChoose ph q).1 := by
  obtain ⟨h1, h2, h3, h4⟩ := tomsChoose_same ph q
  exact ⟨by rw [h1]; exact hq.left, by rw [h1, h2]; exact hq.le, by rw [h2]; exact hq.right, by rw [h1, h3]; exact hq.ea, by rw [h2, h4]; exact hq.eb,
    by rw [h3, h4]; exact hq.sign⟩

/-- the width the algorithm guarantees when it stops because the evaluations are used up -/
noncomputable def tomsBound (count : ℕ) (q : TomsState ℝ) : TomsPhase ℝ → ℝ
  | .first => (q.b - q.a) / 2^((count - 2) / 4)
  | .second => (q.b - q.a) / 2^((count - 1) / 4)
  | .top => (q.b - q.a) / 2^(count / 4)
  | .again a0 b0 => (b0 - a0) / 2^((count + 1) / 4)
  | .secant a0 b0 => (b0 - a0) / 2^((count + 2) / 4)
  | .check a0 b0 => (b0 - a0) / 2^((count + 3) / 4)

/-- the bracket of the pass is at least the present one -/
def tomsWide (q : TomsState ℝ) : TomsPhase ℝ → Prop
  | .again a0 b0 => q.b - q.a ≤ b0 - a0
  | .secant a0 b0 => q.b - q.a ≤ b0 - a0
  | .check a0 b0 => q.b - q.a ≤ b0 - a0
  | _ => True

theorem div_pow_mono {x y : ℝ} (hx : 0 ≤ y) (h : x ≤ y) {m n : ℕ} (hmn : m ≤ n) : x / 2^n ≤ y / 2^m :=
  (div_le_div_of_nonneg_right h (by positivity)).trans (div_le_div_of_nonneg_left hx (by positivity) (pow_le_pow_right₀ (by norm_num) hmn))

theorem tomsLoop_inv {S : Type} {f : ℝ → S → Res ℝ × S} {a0 b0 : ℝ} {bits : ℕ} (count : ℕ) (ph : TomsPhase ℝ) (q q' : TomsState ℝ) (s s' : S)
    (hq : TomsInv f a0 b0 q) (hw : tomsWide q ph) (h : tomsLoop f bits count ph q s = (.ok q', s')) :
    TomsInv f a0 b0 q' ∧ (q'.fa = 0 ∨ tolMet bits q'.a q'.b = true ∨ (bits ≤ 50 → q'.b - q'.a ≤ tomsBound count q ph)) := by
  induction count generalizing ph q s with
  | zero =>
    simp only [tomsLoop, Prod.mk.injEq, Except.ok.injEq] at h
    obtain ⟨rfl, -⟩ := h
    refine ⟨hq, .inr (.inr fun _ => ?_)⟩
    cases ph <;> simp only [tomsBound, tomsWide] at hw ⊢ <;> norm_num <;> linarith
  | succ n ih =>
    simp only [tomsLoop] at h
    split_ifs at h with hst
    · simp only [Prod.mk.injEq, Except.ok.injEq] at h
      obtain ⟨rfl, -⟩ := h
      rw [Bool.or_eq_true, tzero_iff] at hst
      exact ⟨hq, hst.imp_right .inl⟩
    rw [Bool.or_eq_true, not_or, tzero_iff] at hst
    obtain ⟨hfa, ht⟩ := hst
    obtain ⟨e1, e2, e3, e4⟩ := tomsChoose_same ph q
    have hqc := hq.choose ph
    cases hb : bracketStep f (tomsChoose ph q).1 (tomsChoose ph q).2.1 s with
    | mk res s1 =>
    rw [hb] at h
    cases res with
    | error e => cases h
    | ok q1 =>
      dsimp only at h
      obtain ⟨i1, i2, i3⟩ := bracketStep_inv (bits := bits) hqc (by rw [e3]; exact hfa) (by rw [e1, e2]; exact ht) hb
      rw [e1, e2] at i2 i3
      have hle := hq.le
      have hle1 := i1.le
      have key : tomsWide q1 (tomsChoose ph q).2.2 ∧ (bits ≤ 50 → tomsBound n q1 (tomsChoose ph q).2.2 ≤ tomsBound (n + 1) q ph) := by
        cases ph with
        | first =>
          refine ⟨trivial, fun hbits => ?_⟩
          simp only [tomsChoose, tomsBound]
          exact div_pow_mono (by linarith) i3 (by omega)
        | second =>
          refine ⟨trivial, fun hbits => ?_⟩
          simp only [tomsChoose, tomsBound]
          exact div_pow_mono (by linarith) i3 (by omega)
        | top =>
          refine ⟨i3, fun hbits => ?_⟩
          simp only [tomsChoose, tomsBound]
          exact le_rfl
        | again x0 y0 =>
          simp only [tomsWide] at hw
          refine ⟨i3.trans hw, fun hbits => ?_⟩
          simp only [tomsChoose, tomsBound]
          exact le_rfl
        | secant x0 y0 =>
          simp only [tomsWide] at hw
          refine ⟨i3.trans hw, fun hbits => ?_⟩
          simp only [tomsChoose, tomsBound]
          exact le_rfl
        | check x0 y0 =>
          simp only [tomsWide] at hw
          simp only [tomsChoose] at i2 ⊢
          split_ifs at i2 ⊢ with hslow
          · refine ⟨i3, fun hbits => ?_⟩
            simp only [tomsBound]
            simp only [lt_real, lit_real, decide_eq_true_eq] at hslow
            have h1 : q.b - q.a ≤ (y0 - x0) / 2 := by
              have : ((0.5 : ℚ) : ℝ) = 1/2 := by norm_num
              rw [this] at hslow; linarith
            calc (q.b - q.a) / 2^((n+1)/4) ≤ ((y0 - x0) / 2) / 2^((n+1)/4) := div_le_div_of_nonneg_right h1 (by positivity)
              _ = (y0 - x0) / 2^((n+1)/4 + 1) := by rw [pow_succ]; field_simp
              _ ≤ (y0 - x0) / 2^((n+1+3)/4) := div_pow_mono (by linarith) le_rfl (by omega)
          · refine ⟨trivial, fun hbits => ?_⟩
            simp only [tomsBound]
            rw [adjustPoint_mid hbits hq.le ht] at i2
            have h1 : q1.b - q1.a ≤ (y0 - x0) / 2 := i2.trans (max_le (by linarith) (by linarith))
            calc (q1.b - q1.a) / 2^(n/4) ≤ ((y0 - x0) / 2) / 2^(n/4) := div_le_div_of_nonneg_right h1 (by positivity)
              _ = (y0 - x0) / 2^(n/4 + 1) := by rw [pow_succ]; field_simp
              _ ≤ (y0 - x0) / 2^((n+1+3)/4) := div_pow_mono (by linarith) le_rfl (by omega)
      obtain ⟨j1, j2⟩ := ih _ q1 s1 i1 key.1 h
      exact ⟨j1, j2.imp_right (Or.imp_right fun hh hb => (hh hb).trans (key.2 hb))⟩


theorem not_tol_around {bits : ℕ} (hb1 : 1 ≤ bits) {a b : ℝ} (ha : a < 0) (hb : 0 < b) : ¬ tolMet bits a b = true := by
  rw [tolMet_iff, not_le]
  have h1 := tolEps_le hb1
  have h2 : |a - b| = b - a := by rw [abs_sub_comm, abs_of_nonneg (by linarith)]
  rw [h2]
  have h3 : min |a| |b| ≤ b := (min_le_right _ _).trans_eq (abs_of_pos hb)
  have h0 : 0 ≤ min |a| |b| := le_min (abs_nonneg _) (abs_nonneg _)
  have : tolEps bits * min |a| |b| ≤ 1 * min |a| |b| := mul_le_mul_of_nonneg_right h1 h0
  linarith

/-- what the root finder returns -/
theorem boostSolve_bracket {S : Type} (f : ℝ → S → Res ℝ × S) (a b : ℝ) (bits n : ℕ) (s s' : S) (l r : ℝ) (ha : a < 0) (hb : 0 < b) (hb1 : 1 ≤ bits) (hn : 3 ≤ n)
    (h : boostSolve f a b bits n s = (.ok (l, r), s')) :
    a ≤ l ∧ l ≤ r ∧ r ≤ b ∧ (∃ s1 s2 y1 y2, (f l s1).1 = .ok y1 ∧ (f r s2).1 = .ok y2 ∧ y1 * y2 ≤ 0) ∧
      (l = r ∨ r - l ≤ tolEps bits * min |l| |r| ∨ (bits ≤ 50 → r - l ≤ (b - a) / 2^((n - 4) / 4))) := by
  have hab : a < b := ha.trans hb
  have ht := not_tol_around hb1 ha hb
  unfold boostSolve at h
  rw [if_neg (by omega)] at h
  cases h1 : f b s with
  | mk res s1 =>
  rw [h1] at h
  cases res with
  | error e => cases h
  | ok fb =>
  dsimp only at h
  cases h2 : f a s1 with
  | mk res s2 =>
  rw [h2] at h
  cases res with
  | error e => cases h
  | ok fa =>
  dsimp only at h
  unfold tomsSolve at h
  rw [if_neg (by rw [tle_iff]; linarith)] at h
  by_cases g1 : (tolMet bits a b || tzero fa || tzero fb) = true
  · rw [if_pos g1] at h
    simp only [Bool.or_eq_true, ht, Bool.false_eq_true, false_or, tzero_iff] at g1
    simp only [tzero_iff, Prod.mk.injEq, Except.ok.injEq] at h
    by_cases ga : fa = 0
    · rw [if_pos ga] at h
      simp only [Prod.mk.injEq] at h
      obtain ⟨⟨rfl, rfl⟩, -⟩ := h
      exact ⟨le_rfl, le_rfl, hab.le, ⟨s1, s1, fa, fa, by rw [h2], by rw [h2], by simp [ga]⟩, .inl rfl⟩
    · rw [if_neg ga, if_pos (g1.resolve_left ga)] at h
      simp only [Prod.mk.injEq] at h
      obtain ⟨⟨rfl, rfl⟩, -⟩ := h
      exact ⟨hab.le, le_rfl, le_rfl, ⟨s, s, fb, fb, by rw [h1], by rw [h1], by simp [g1.resolve_left ga]⟩, .inl rfl⟩
  rw [if_neg g1] at h
  by_cases g2 : sameSign fa fb = true
  · rw [if_pos g2] at h; cases h
  · rw [if_neg g2] at h
    simp only [Bool.or_eq_true, ht, Bool.false_eq_true, false_or, tzero_iff, not_or] at g1
    rw [sameSign_iff, not_lt] at g2
    have hne : fa * fb < 0 := lt_of_le_of_ne g2 (mul_ne_zero g1.1 g1.2)
    have hq : TomsInv f a b ⟨a, b, lit 0, lit 100000, fa, fb, lit 100000, lit 100000⟩ :=
      ⟨le_rfl, hab.le, le_rfl, ⟨s1, by rw [h2]⟩, ⟨s, by rw [h1]⟩, .inl hne⟩
    cases hl : tomsLoop f bits (n - 2) .first ⟨a, b, lit 0, lit 100000, fa, fb, lit 100000, lit 100000⟩ s2 with
    | mk res s3 =>
    rw [hl] at h
    cases res with
    | error e => cases h
    | ok q =>
      simp only [Prod.mk.injEq, Except.ok.injEq] at h
      obtain ⟨i1, i2⟩ := tomsLoop_inv (bits := bits) (n - 2) .first _ q s2 s3 hq trivial hl
      obtain ⟨h, -⟩ := h
      unfold tomsResult at h
      simp only [tzero_iff] at h
      obtain ⟨sa, ea⟩ := i1.ea
      obtain ⟨sb, eb⟩ := i1.eb
      split_ifs at h with k1 k2
      · simp only [Prod.mk.injEq] at h
        obtain ⟨rfl, rfl⟩ := h
        exact ⟨i1.left, le_rfl, i1.le.trans i1.right, ⟨sa, sa, _, _, ea, ea, by simp [k1]⟩, .inl rfl⟩
      · have := i1.sign.resolve_right k1
        rw [k2] at this; simp at this
      · simp only [Prod.mk.injEq] at h
        obtain ⟨rfl, rfl⟩ := h
        refine ⟨i1.left, i1.le, i1.right, ⟨sa, sb, _, _, ea, eb, (i1.sign.resolve_right k1).le⟩, .inr ?_⟩
        rcases i2 with i2 | i2 | i2
        · exact absurd i2 k1
        · rw [tolMet_iff, abs_sub_comm, abs_of_nonneg (by linarith [i1.le])] at i2
          exact .inl i2
        · refine .inr fun hb50 => (i2 hb50).trans ?_
          simp only [tomsBound]
          rw [show n - 2 - 2 = n - 4 by omega]

theorem tomsLoop_error {S : Type} (f : ℝ → S → Res ℝ × S) (bits count : ℕ) (ph : TomsPhase ℝ) (q : TomsState ℝ) (s : S) (e : Err)
    (h : (tomsLoop f bits count ph q s).1 = .error e) : ∃ x s', (f x s').1 = .error e := by
  induction count generalizing ph q s with
  | zero => simp [tomsLoop] at h
  | succ n ih =>
    simp only [tomsLoop] at h
    split_ifs at h
    unfold bracketStep at h
    dsimp only at h
    generalize adjustPoint (tomsChoose ph q).1.a (tomsChoose ph q).1.b (tomsChoose ph q).2.1 = c at h
    cases hf : f c s with
    | mk res s1 =>
    rw [hf] at h
    cases res with
    | error e' => dsimp only at h; injection h with h; exact ⟨c, s, by rw [hf, h]⟩
    | ok fc => exact ih _ _ _ h

/-- what the root finder throws -/
theorem boostSolve_error {S : Type} (f : ℝ → S → Res ℝ × S) (a b : ℝ) (bits n : ℕ) (s : S) (e : Err) (h : (boostSolve f a b bits n s).1 = .error e) :
    IsStdException e ∨ ∃ x s', (f x s').1 = .error e := by
  unfold boostSolve at h
  split_ifs at h
  cases h1 : f b s with
  | mk res s1 =>
  rw [h1] at h
  cases res with
  | error e' => dsimp only at h; injection h with h; exact .inr ⟨b, s, by rw [h1, h]⟩
  | ok fb =>
  dsimp only at h
  cases h2 : f a s1 with
  | mk res s2 =>
  rw [h2] at h
  cases res with
  | error e' => dsimp only at h; injection h with h; exact .inr ⟨a, s1, by rw [h2, h]⟩
  | ok fa =>
  dsimp only at h
  unfold tomsSolve at h
  split_ifs at h
  · injection h with h; exact .inl ⟨_, _, h.symm, by simp⟩
  · injection h with h; exact .inl ⟨_, _, h.symm, by simp⟩
  · cases hl : tomsLoop f bits (n - 2) .first ⟨a, b, lit 0, lit 100000, fa, fb, lit 100000, lit 100000⟩ s2 with
    | mk res s3 =>
    rw [hl] at h
    cases res with
    | error e' =>
      dsimp only at h
      refine .inr (tomsLoop_error f bits (n - 2) .first ⟨a, b, lit 0, lit 100000, fa, fb, lit 100000, lit 100000⟩ s2 e ?_)
      rw [hl]; simpa using h
    | ok q => cases h

theorem boostToms_safe : @SafeToms boostToms :=
  @SafeToms.mk boostToms fun f a b bits n s e h => boostSolve_error f a b bits n s e h

theorem boostToms_bracketing : @BracketingToms boostToms := by
  refine @BracketingToms.mk boostToms fun f a b bits n s s' l r ha hb h1 h3 h => ?_
  obtain ⟨i1, i2, i3, i4, -⟩ := boostSolve_bracket f a b bits n s s' l r ha hb h1 h3 h
  exact ⟨i1, i2, i3, i4⟩

theorem boostToms_lawful : @LawfulToms boostToms := by
  refine @LawfulToms.mk boostToms ?_ ?_
  · intro f a b bits n ha hb h1 h3 hs
    cases h : boostSolve (fun x (s : Unit) => (.ok (f x), s)) a b bits n () with
    | mk res s' =>
    cases res with
    | ok lr =>
      obtain ⟨l, r⟩ := lr
      obtain ⟨i1, i2, i3, ⟨_, _, y1, y2, e1, e2, hy⟩, -⟩ := boostSolve_bracket _ a b bits n () s' l r ha hb h1 h3 h
      simp only [Except.ok.injEq] at e1 e2
      exact ⟨l, r, by show (boostSolve _ a b bits n ()).1 = _; rw [h], i1, i2, i3, by rw [e1, e2]; exact hy⟩
    | error e =>
      exfalso
      have ht := not_tol_around h1 ha hb
      unfold boostSolve at h
      rw [if_neg (by omega)] at h
      dsimp only at h
      unfold tomsSolve at h
      rw [if_neg (by rw [tle_iff]; linarith)] at h
      by_cases g1 : (tolMet bits a b || tzero (f a) || tzero (f b)) = true
      · rw [if_pos g1] at h; cases h
      rw [if_neg g1] at h
      by_cases g2 : sameSign (f a) (f b) = true
      · rw [sameSign_iff] at g2; linarith
      · rw [if_neg g2] at h
        cases hl : tomsLoop (fun x (s : Unit) => (.ok (f x), s)) bits (n - 2) .first ⟨a, b, lit 0, lit 100000, f a, f b, lit 100000, lit 100000⟩ () with
        | mk res s3 =>
        rw [hl] at h
        cases res with
        | ok q => cases h
        | error e' =>
          obtain ⟨x, s', hx⟩ := tomsLoop_error (fun x (s : Unit) => (.ok (f x), s)) bits (n - 2) .first ⟨a, b, lit 0, lit 100000, f a, f b, lit 100000, lit 100000⟩ () e' (by rw [hl])
          cases hx
  · intro f a b bits n ha hb h1 h3 hs
    have ht := not_tol_around h1 ha hb
    refine ⟨"Parameters a and b do not bracket the root", ?_⟩
    show (boostSolve _ a b bits n ()).1 = _
    unfold boostSolve
    rw [if_neg (by omega)]
    dsimp only
    unfold tomsSolve
    have hne := (mul_ne_zero_iff.mp hs.ne')
    rw [if_neg (by rw [tle_iff]; linarith), if_neg (by simp only [Bool.or_eq_true, ht, Bool.false_eq_true, false_or, tzero_iff, not_or]; exact hne), if_pos (by rw [sameSign_iff]; exact hs)]

end Trento
