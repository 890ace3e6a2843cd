import Verif.Lemmas.Rounded
import Verif.Spec.Nucleon

/-! # Error bounds for the thickness in rounded arithmetic -/

namespace Trento
namespace Machine
variable (M : Machine)

theorem sq_err (a : ℝ) : |M.fl (M.fl a * M.fl a) - a^2| ≤ 6 * uRound * a^2 + 3 * etaRound := by
  have h1 := M.fl_err a
  have h2 := M.fl_err (M.fl a * M.fl a)
  have hu := uRound_pos
  have hu1 := uRound_le
  have he := etaRound_pos
  have he1 : 4 * etaRound ≤ uRound * 1e-100 := by
    have := etaRound_tiny
    have : (1e-17:ℝ) ≤ uRound := by unfold uRound; norm_num
    nlinarith
  generalize uRound = u at *
  generalize etaRound = η at *
  generalize M.fl a = b at *
  rw [abs_of_nonneg (mul_self_nonneg b)] at h2
  -- |b² - a²|
  have h3 : |b * b - a^2| ≤ 4 * u * a^2 + η := by
    have e : b * b - a^2 = (b - a) * (b - a) + 2 * a * (b - a) := by ring
    have h4 : |(b - a) * (b - a)| ≤ (u * |a| + η)^2 := by
      rw [abs_mul, sq]; exact mul_le_mul h1 h1 (abs_nonneg _) (by positivity)
    have h5 : |2 * a * (b - a)| ≤ 2 * |a| * (u * |a| + η) := by
      rw [abs_mul, abs_mul, abs_two]; exact mul_le_mul_of_nonneg_left h1 (by positivity)
    have h6 := abs_add_le ((b - a) * (b - a)) (2 * a * (b - a))
    rw [e]
    refine h6.trans ((add_le_add h4 h5).trans ?_)
    have ha : |a|^2 = a^2 := sq_abs a
    have hn := abs_nonneg a
    -- 2|a|η(1+u) ≤ u a² + η/2 · ...
    have h7 : 0 ≤ (u * |a| - 2 * η)^2 := sq_nonneg _
    have h10 : 4 * |a| * η ≤ u * a^2 + 4 * η^2 / u := by
      rw [← sub_nonneg]
      have : u * a^2 + 4 * η^2 / u - 4 * |a| * η = (u * |a| - 2 * η)^2 / u := by
        field_simp; rw [← ha]; ring
      rw [this]; positivity
    have h11 : 4 * η^2 / u ≤ η * 1e-90 := by
      rw [div_le_iff₀ hu]; nlinarith
    have h12 : η^2 ≤ η * 1e-90 := by nlinarith
    have h13 : u^2 * a^2 ≤ 1e-15 * (u * a^2) := by nlinarith [mul_nonneg hu.le (sq_nonneg a)]
    have h14 : 0 ≤ u * a^2 := by positivity
    have h15 : 2 * u * |a| * η ≤ |a| * η := by nlinarith [mul_nonneg hn he.le]
    nlinarith [mul_nonneg hn he.le]
  have h16 := abs_le.1 h3
  have h17 := abs_le.1 h2
  have h18 : 0 ≤ u * a^2 := by positivity
  have h19 : u * (b * b) ≤ u * (a^2 + (4 * u * a^2 + η)) := mul_le_mul_of_nonneg_left (by linarith) hu.le
  have h20 : u * (4 * u * a^2) ≤ 1e-15 * (u * a^2) := by nlinarith
  have h21 : u * η ≤ 1e-15 * η := by nlinarith
  rw [abs_le]
  constructor <;> nlinarith

theorem dist_err (a b : ℝ) :
    |M.fl (M.fl (M.fl a * M.fl a) + M.fl (M.fl b * M.fl b)) - (a^2 + b^2)| ≤ 8 * uRound * (a^2 + b^2) + 8 * etaRound := by
  have h1 := M.sq_err a
  have h2 := M.sq_err b
  have h3 := M.fl_err (M.fl (M.fl a * M.fl a) + M.fl (M.fl b * M.fl b))
  have ha : 0 ≤ M.fl (M.fl a * M.fl a) := M.fl_nonneg (mul_self_nonneg _)
  have hb : 0 ≤ M.fl (M.fl b * M.fl b) := M.fl_nonneg (mul_self_nonneg _)
  have hu := uRound_pos
  have hu1 := uRound_le
  have he := etaRound_pos
  rw [abs_of_nonneg (add_nonneg ha hb)] at h3
  generalize M.fl (M.fl (M.fl a * M.fl a) + M.fl (M.fl b * M.fl b)) = d at *
  generalize M.fl (M.fl a * M.fl a) = A at *
  generalize M.fl (M.fl b * M.fl b) = B at *
  generalize uRound = u at *
  generalize etaRound = η at *
  have h1 := abs_le.1 h1
  have h2 := abs_le.1 h2
  have h3 := abs_le.1 h3
  have h4 : u * (A + B) ≤ u * ((a^2 + b^2) + (6 * u * (a^2 + b^2) + 6 * η)) := mul_le_mul_of_nonneg_left (by linarith) hu.le
  have h5 : 0 ≤ u * (a^2 + b^2) := by positivity
  have h6 : u * (6 * u * (a^2 + b^2)) ≤ 1e-15 * (u * (a^2 + b^2)) := by nlinarith
  have h7 : u * η ≤ 1e-15 * η := by nlinarith
  rw [abs_le]
  constructor <;> nlinarith

theorem widthSq_err {v : ℝ} (hv : 1e-10 ≤ v) : |M.fl (v * v) - v^2| ≤ 2e-16 * v^2 := by
  have h := M.fl_rel_err (x := v * v) (by
    rw [abs_of_nonneg (mul_self_nonneg v)]
    nlinarith)
  rw [abs_of_nonneg (mul_self_nonneg v)] at h
  rw [sq]; exact h

theorem radiusSq_err {v : ℝ} (hv : 1e-10 ≤ v) : |M.fl (M.fl (5 * v) * M.fl (5 * v)) - 25 * v^2| ≤ 1e-15 * (25 * v^2) := by
  have hv0 : 0 < v := lt_of_lt_of_le (by norm_num) hv
  have h1 := M.fl_rel_err (x := 5 * v) (by rw [abs_of_pos (by linarith)]; linarith)
  rw [abs_of_pos (show (0:ℝ) < 5 * v by linarith)] at h1
  generalize M.fl (5 * v) = s at *
  have h1 := abs_le.1 h1
  have hs1 : s ≤ 5 * v * (1 + 2e-16) := by linarith
  have hs2 : 5 * v * (1 - 2e-16) ≤ s := by linarith
  have hs0 : 0 < s := lt_of_lt_of_le (by nlinarith) hs2
  have hss1 : s * s ≤ 25 * v^2 * (1 + 5e-16) := by nlinarith [mul_le_mul hs1 hs1 hs0.le (by nlinarith)]
  have hss2 : 25 * v^2 * (1 - 5e-16) ≤ s * s := by nlinarith [mul_le_mul hs2 hs2 (by nlinarith) hs0.le]
  have hv2 : 1e-20 ≤ v^2 := by nlinarith
  have h2 := M.fl_rel_err (x := s * s) (by rw [abs_of_nonneg (mul_self_nonneg s)]; nlinarith)
  rw [abs_of_nonneg (mul_self_nonneg s)] at h2
  have h2 := abs_le.1 h2
  rw [abs_le]
  constructor <;> nlinarith

theorem arg_quotient {n d D W V : ℝ} (hV : 0 < V) (hd : d ≤ 26 * V) (hD0 : 0 ≤ D) (hD : D ≤ 26 * V)
    (a1 : |n + d/2| ≤ 1e-16 * d + 1e-200 * V) (a2 : |d - D| ≤ 1e-15 * D + 8e-200 * V) (a3 : |W - V| ≤ 2e-16 * V) :
    |n / W - -(D / (2 * V))| ≤ 2e-13 := by
  have a3' := abs_le.1 a3
  have hW : 0 < W := by linarith
  have e : n / W - -(D / (2 * V)) = (n * (2 * V) + D * W) / (W * (2 * V)) := by field_simp; ring
  rw [e, abs_div, abs_of_pos (by positivity : 0 < W * (2 * V)), div_le_iff₀ (by positivity)]
  have e2 : n * (2 * V) + D * W = (n + d/2) * (2 * V) - (d - D) * V + D * (W - V) := by ring
  have b1 : |(n + d/2) * (2 * V)| ≤ 6e-15 * V * V := by
    rw [abs_mul, abs_of_pos (by positivity : 0 < 2 * V)]
    calc |n + d/2| * (2 * V) ≤ (3e-15 * V) * (2 * V) := mul_le_mul_of_nonneg_right (by linarith) (by positivity)
      _ = _ := by ring
  have b2 : |(d - D) * V| ≤ 27e-15 * V * V := by
    rw [abs_mul, abs_of_pos hV]
    exact mul_le_mul_of_nonneg_right (by linarith) hV.le
  have b3 : |D * (W - V)| ≤ 52e-16 * V * V := by
    rw [abs_mul, abs_of_nonneg hD0]
    calc D * |W - V| ≤ (26 * V) * (2e-16 * V) := mul_le_mul hD a3 (abs_nonneg _) (by positivity)
      _ = _ := by ring
  rw [e2]
  have t1 := abs_add_le ((n + d/2) * (2 * V) - (d - D) * V) (D * (W - V))
  have t2 := abs_sub ((n + d/2) * (2 * V)) ((d - D) * V)
  have c1 : 2 * V * V * (1 - 2e-16) ≤ W * (2 * V) := by
    have := mul_le_mul_of_nonneg_right (show V * (1 - 2e-16) ≤ W by linarith) (show 0 ≤ 2 * V by positivity)
    linarith
  have c4 : 0 < V * V := by positivity
  linarith

/-- The argument of the exponential: in the range of the table, and close to the exact value. -/
theorem arg_bounds {d D v : ℝ} (hv : 1e-10 ≤ v) (hd0 : 0 ≤ d) (hd : d < M.fl (M.fl (5 * v) * M.fl (5 * v)))
    (hD : |d - D| ≤ 8 * uRound * D + 8 * etaRound) (hD0 : 0 ≤ D) :
    -12.5 - 1e-11 ≤ M.fl (M.fl (-(1/2) * d) / M.fl (v * v)) ∧ M.fl (M.fl (-(1/2) * d) / M.fl (v * v)) ≤ 0 ∧
      |M.fl (M.fl (-(1/2) * d) / M.fl (v * v)) - -(D / (2 * v^2))| ≤ 1e-12 := by
  have hv0 : 0 < v := lt_of_lt_of_le (by norm_num) hv
  have hv2 : 1e-20 ≤ v^2 := by nlinarith
  have h1 := abs_le.1 (M.widthSq_err hv)
  have h2 := abs_le.1 (M.radiusSq_err hv)
  have h3 := M.fl_err (-(1/2) * d)
  have hn : M.fl (-(1/2) * d) ≤ 0 := M.fl_nonpos (by linarith)
  have hu := uRound_pos
  have hu1 := uRound_le
  have he := etaRound_pos
  have he1 := etaRound_tiny
  rw [abs_of_nonpos (by linarith : -(1/2) * d ≤ 0)] at h3
  generalize M.fl (M.fl (5 * v) * M.fl (5 * v)) = rad at *
  generalize M.fl (-(1/2) * d) = n at *
  generalize M.fl (v * v) = W at *
  have h3 := abs_le.1 h3
  have hD := abs_le.1 hD
  have hW : 0 < W := by nlinarith
  have hdv : d ≤ 25 * v^2 * (1 + 1e-15) := by linarith
  have hud : uRound * d ≤ 1.2e-16 * d := mul_le_mul_of_nonneg_right hu1 hd0
  have huD : uRound * D ≤ 1.2e-16 * D := mul_le_mul_of_nonneg_right hu1 hD0
  have heW : etaRound ≤ 1e-200 * v^2 := by nlinarith
  have hDv : D ≤ 25 * v^2 * (1 + 1e-14) := by
    have : D * (1 - 1e-15) ≤ d + 8 * etaRound := by linarith
    nlinarith
  -- the quotient
  have hq0 : n / W ≤ 0 := div_nonpos_of_nonpos_of_nonneg hn hW.le
  have hq : |n / W - -(D / (2 * v^2))| ≤ 2e-13 := by
    have a1 : |n + d/2| ≤ 1e-16 * d + 1e-200 * v^2 := by rw [abs_le]; constructor <;> linarith
    have a2 : |d - D| ≤ 1e-15 * D + 8e-200 * v^2 := by rw [abs_le]; constructor <;> linarith
    have a3 : |W - v^2| ≤ 2e-16 * v^2 := by rw [abs_le]; constructor <;> linarith
    exact arg_quotient (by positivity) (by linarith) hD0 (by linarith) a1 a2 a3
  have hqv := abs_le.1 hq
  have hDq : D / (2 * v^2) ≤ 12.5 + 1e-12 := by
    rw [div_le_iff₀ (by positivity)]; nlinarith
  have hDq0 : 0 ≤ D / (2 * v^2) := by positivity
  have hfl := abs_le.1 (M.fl_abs_err (x := n / W) (by rw [abs_le]; constructor <;> linarith))
  have hfl2 : |M.fl (n / W) - n / W| ≤ 1e-14 := by
    have := M.fl_err (n / W)
    refine this.trans ?_
    have : |n / W| ≤ 13 := by rw [abs_le]; constructor <;> linarith
    have h9 := etaRound_le
    nlinarith
  have hfl2 := abs_le.1 hfl2
  refine ⟨by linarith, M.fl_nonpos hq0, ?_⟩
  rw [abs_le]; constructor <;> linarith

end Machine
end Trento
