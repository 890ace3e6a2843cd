import Verif.Props.Nucleon
import Mathlib.MeasureTheory.Integral.Gamma

/-!
# C69: what is drawn for the constituents of a nucleon

The random source is the abstract class `Rng`: `Rng.normal mean sd` and `Rng.gamma alpha beta` are the C++ distributions
`std::normal_distribution(mean, sd)` and `std::gamma_distribution(alpha, beta)`.  The theorem below pins down which draws are
made, in which order and with which parameters; the mean and the variance of that gamma distribution are then computed from
its density.
-/

namespace Trento
open Spec MeasureTheory Set

/-- `Draws s k n r ds r'`: starting in random state `r`, drawing for `n` constituents one after the other an x and a y
displacement from the normal distribution of mean 0 and standard deviation `s`, and a weight from the gamma distribution of
shape `k` and scale `1/k`, gives the numbers `ds` and ends in state `r'`. -/
inductive Spec.Draws {E D : Type} [Rng ℝ E D] (s k : ℝ) : ℕ → Rand E D → List (ℝ × ℝ × ℝ) → Rand E D → Prop
  | none (r : Rand E D) : Draws s k 0 r [] r
  | next {n : ℕ} {r : Rand E D} {x y f : ℝ} {d1 d2 d3 : D} {e1 e2 e3 : E} {ds : List (ℝ × ℝ × ℝ)} {r' : Rand E D} :
      Rng.normal 0 s r.dist r.eng = (x, d1, e1) → Rng.normal 0 s d1 e1 = (y, d2, e2) → Rng.gamma k (1 / k) d2 e2 = (f, d3, e3) →
      Draws s k n ⟨e3, d3⟩ ds r' → Draws s k (n + 1) r ((x, y, f) :: ds) r'

/-- The constituents of a nucleon at `(x, y)` for the displacements and weights `ds`: displaced from the nucleon position, their
mean displacement subtracted. -/
noncomputable def Spec.placed (x y : ℝ) (ds : List (ℝ × ℝ × ℝ)) : List (Constituent ℝ) :=
  ds.map fun d => ⟨x + (d.1 - (ds.map (·.1)).sum / ds.length), y + (d.2.1 - (ds.map (·.2.1)).sum / ds.length), d.2.2⟩

/-- What a collision test does to one of its nucleons before the collision is decided: nothing if the nucleon already has its
constituents, otherwise it draws and places `m` of them. -/
def Spec.Sampled {E D : Type} [Rng ℝ E D] (s k : ℝ) (m : ℕ) (n n' : NucleonData ℝ) (r r' : Rand E D) : Prop :=
  if n.constituentsExist then n' = n ∧ r' = r
  else ∃ ds, Draws s k m r ds r' ∧ n' = { n with constituents := placed n.x n.y ds, constituentsExist := true }

variable {E D : Type} [Rng ℝ E D]

theorem drawConstituents_draws (nc : NucleonCommon ℝ) (k : ℝ) (ha : nc.gammaAlpha = k) (hb : nc.gammaBeta = 1 / k) (n : ℕ) (xc yc : ℝ)
    (r : Rand E D) :
    ∃ ds, Draws nc.samplingWidth k n r ds (drawConstituents nc n xc yc r).2 ∧
      (drawConstituents nc n xc yc r).1.1 = ds.map (fun d => ⟨d.1, d.2.1, d.2.2⟩) := by
  induction n generalizing xc yc r with
  | zero => exact ⟨[], .none r, rfl⟩
  | succ n ih =>
    unfold drawConstituents
    simp only [ha, hb]
    unfold drawNormal drawGamma
    have hz : (lit 0 : ℝ) = 0 := by simp
    rw [hz]
    rcases h1 : Rng.normal (0:ℝ) nc.samplingWidth r.dist r.eng with ⟨x, d1, e1⟩
    dsimp only
    rcases h2 : Rng.normal (0:ℝ) nc.samplingWidth d1 e1 with ⟨y, d2, e2⟩
    dsimp only
    rcases h3 : Rng.gamma k (1 / k) d2 e2 with ⟨f, d3, e3⟩
    dsimp only
    obtain ⟨ds, hd, hl⟩ := ih (xc + x) (yc + y) ⟨e3, d3⟩
    refine ⟨(x, y, f) :: ds, .next h1 h2 h3 hd, ?_⟩
    rw [hl]
    rfl

theorem draws_length {s k : ℝ} {n : ℕ} {r r' : Rand E D} {ds : List (ℝ × ℝ × ℝ)} (h : Draws s k n r ds r') : ds.length = n := by
  induction h with
  | none => rfl
  | next _ _ _ _ ih => simp [ih]

theorem sampleConstituents_sampled (nc : NucleonCommon ℝ) (k : ℝ) (ha : nc.gammaAlpha = k) (hb : nc.gammaBeta = 1 / k)
    (n : NucleonData ℝ) (r : Rand E D) :
    Sampled nc.samplingWidth k nc.constituentNumber n (nc.sampleConstituents n r).1 r (nc.sampleConstituents n r).2 := by
  unfold Sampled NucleonCommon.sampleConstituents
  by_cases he : n.constituentsExist = true
  · simp [he]
  · simp only [he, Bool.false_eq_true, if_false]
    obtain ⟨ds, h1, h2⟩ := drawConstituents_draws nc k ha hb nc.constituentNumber (lit 0) (lit 0) r
    obtain ⟨h3, h4, h5⟩ := drawConstituents_spec nc nc.constituentNumber (lit 0) (lit 0) r
    refine ⟨ds, h1, ?_⟩
    have hlen := draws_length h1
    have hz : (lit 0 : ℝ) = 0 := by simp
    have hx : (List.map (fun x => x.x) (drawConstituents nc nc.constituentNumber (lit 0) (lit 0) r).1.1).sum = (ds.map (·.1)).sum := by
      rw [h2, List.map_map]; rfl
    have hy : (List.map (fun x => x.y) (drawConstituents nc nc.constituentNumber (lit 0) (lit 0) r).1.1).sum = (ds.map (·.2.1)).sum := by
      rw [h2, List.map_map]; rfl
    rw [hx, hz, zero_add] at h4
    rw [hy, hz, zero_add] at h5
    rw [hz] at h2
    rw [hz]
    simp only [h2, h4, h5, List.map_map]
    congr 1
    unfold placed
    rw [hlen]
    apply List.map_congr_left
    intro d _
    simp only [Function.comp, ofInt_real, Int.cast_natCast]
    congr 1 <;> ring

/-- **C69, draws.** A collision test of two nucleons either draws nothing and changes no constituents (both are participants already
and binary collisions are not counted, or they are further apart than the maximum impact parameter), or it samples the
constituents of the first nucleon, then those of the second, with the sampling width of C09 and a gamma distribution of shape `k` and
scale `1/k`, and then draws exactly one uniform number. -/
theorem C69_draws (w v : ℝ) (m : ℕ) (σ : ℝ) (ncoll : Bool) (k : ℝ) (hw : 0 ≤ w) (A B : NucleonData ℝ) (r : Rand E D) :
    let res := (NucleonCommon.make w v m σ ncoll k).participate A B r
    ((A.isParticipant = true ∧ B.isParticipant = true ∧ ncoll = false ∨ 6 * w < Real.sqrt ((A.x - B.x)^2 + (A.y - B.y)^2)) →
      res.2 = r ∧ res.1.2.1 = A ∧ res.1.2.2 = B) ∧
    (¬ (A.isParticipant = true ∧ B.isParticipant = true ∧ ncoll = false) → Real.sqrt ((A.x - B.x)^2 + (A.y - B.y)^2) ≤ 6 * w →
      ∃ A' B' r1 r2, Sampled (calcSamplingWidth w v m) k m A A' r r1 ∧ Sampled (calcSamplingWidth w v m) k m B B' r1 r2 ∧
        res.1.2.1.constituents = A'.constituents ∧ res.1.2.2.constituents = B'.constituents ∧
        res.2 = ⟨(Rng.canonical (F := ℝ) (D := D) r2.eng).2, r2.dist⟩) := by
  intro res
  have hk : (NucleonCommon.make w v m σ ncoll k).gammaAlpha = k := rfl
  have hb : (NucleonCommon.make w v m σ ncoll k).gammaBeta = 1 / k := by
    change (lit 1 : ℝ) / k = 1 / k
    simp
  have hcn : (NucleonCommon.make w v m σ ncoll k).calcNcoll = ncoll := rfl
  have hmx : lt (NucleonCommon.make w v m σ ncoll k).maxImpactSq (sqr (A.x - B.x) + sqr (A.y - B.y)) =
      decide (6 * w < Real.sqrt ((A.x - B.x)^2 + (A.y - B.y)^2)) := by
    rw [make_maxImpactSq]
    simp only [sqr_real, lt_real]
    rw [decide_eq_decide]
    exact (Real.lt_sqrt (by positivity)).symm
  constructor
  · intro h
    simp only [res]
    unfold NucleonCommon.participate
    rcases h with ⟨h1, h2, h3⟩ | h
    · rw [hcn]; simp [h1, h2, h3]
    · simp only [hmx, h, decide_true, if_true]
      split <;> exact ⟨rfl, rfl, rfl⟩
  · intro h1 h2
    have hA := sampleConstituents_sampled (NucleonCommon.make w v m σ ncoll k) k hk hb A r
    have hB := sampleConstituents_sampled (NucleonCommon.make w v m σ ncoll k) k hk hb B
      ((NucleonCommon.make w v m σ ncoll k).sampleConstituents A r).2
    refine ⟨_, _, _, _, hA, hB, ?_⟩
    have h1' : (A.isParticipant && B.isParticipant && !ncoll) = false := by
      rw [← Bool.not_eq_true]
      intro hh
      simp only [Bool.and_eq_true, Bool.not_eq_true'] at hh
      exact h1 ⟨hh.1.1, hh.1.2, hh.2⟩
    simp only [res]
    unfold NucleonCommon.participate
    simp only [hcn, h1', Bool.false_eq_true, if_false, hmx, not_lt.mpr h2, decide_false]
    generalize NucleonCommon.make w v m σ ncoll k = nc
    by_cases h3 : lt (nc.oneMinusProb (overlapSum nc.constituentWidthSq (nc.sampleConstituents A r).1.constituents
          (nc.sampleConstituents B (nc.sampleConstituents A r).2).1.constituents))
          (canonical (nc.sampleConstituents B (nc.sampleConstituents A r).2).2).1 = true
    · simp only [h3, if_true, setParticipant_eq]; exact ⟨trivial, trivial, rfl⟩
    · simp only [h3, Bool.false_eq_true, if_false]; exact ⟨trivial, trivial, rfl⟩

/-- The density of `std::gamma_distribution(alpha, beta)` on the positive reals. -/
noncomputable def Spec.gammaDensity (α β x : ℝ) : ℝ := x ^ (α - 1) * Real.exp (-x / β) / (β ^ α * Real.Gamma α)

theorem gammaDensity_moment (α β p : ℝ) (hα : 0 < α) (hβ : 0 < β) (hp : 0 ≤ p) :
    ∫ x in Ioi (0:ℝ), x ^ p * gammaDensity α β x = β ^ p * Real.Gamma (α + p) / Real.Gamma α := by
  have h1 : ∀ x ∈ Ioi (0:ℝ), x ^ p * gammaDensity α β x =
      1 / (β ^ α * Real.Gamma α) * (x ^ ((α + p) - 1) * Real.exp (-((1 / β) * x))) := by
    intro x hx
    have hx' : (0:ℝ) < x := hx
    unfold gammaDensity
    have : x ^ (α + p - 1) = x ^ p * x ^ (α - 1) := by
      rw [← Real.rpow_add hx']; congr 1; ring
    rw [this, show -x / β = -((1 / β) * x) by ring]
    ring
  rw [setIntegral_congr_fun measurableSet_Ioi h1, integral_const_mul, Real.integral_rpow_mul_exp_neg_mul_Ioi (by linarith) (by positivity)]
  rw [one_div_one_div, Real.rpow_add hβ]
  have := (Real.rpow_pos_of_pos hβ α).ne'
  have := (Real.Gamma_pos_of_pos hα).ne'
  field_simp

/-- **C69, unit mean.** The gamma distribution of shape `k` and scale `1/k`, `k > 0`, has total mass 1, mean 1 and variance `1/k`. -/
theorem C69_unit_mean (k : ℝ) (hk : 0 < k) :
    ∫ x in Ioi (0:ℝ), gammaDensity k (1 / k) x = 1 ∧ ∫ x in Ioi (0:ℝ), x * gammaDensity k (1 / k) x = 1 ∧
    ∫ x in Ioi (0:ℝ), (x - 1)^2 * gammaDensity k (1 / k) x = 1 / k := by
  have hb : (0:ℝ) < 1 / k := by positivity
  have hG := (Real.Gamma_pos_of_pos hk).ne'
  have hg1 : Real.Gamma (k + 1) = k * Real.Gamma k := Real.Gamma_add_one hk.ne'
  have hg2 : Real.Gamma (k + 2) = (k + 1) * (k * Real.Gamma k) := by
    rw [show k + 2 = (k + 1) + 1 by ring, Real.Gamma_add_one (by positivity), hg1]
  have m0 := gammaDensity_moment k (1 / k) 0 hk hb le_rfl
  have m1 := gammaDensity_moment k (1 / k) 1 hk hb zero_le_one
  have m2 := gammaDensity_moment k (1 / k) 2 hk hb (by norm_num)
  simp only [Real.rpow_zero, one_mul, add_zero] at m0
  rw [div_self hG] at m0
  simp only [Real.rpow_one] at m1
  rw [hg1] at m1
  have m1' : ∫ x in Ioi (0:ℝ), x * gammaDensity k (1 / k) x = 1 := by
    rw [m1]; field_simp
  rw [hg2] at m2
  simp only [Real.rpow_ofNat] at m2
  have m2' : ∫ x in Ioi (0:ℝ), x ^ 2 * gammaDensity k (1 / k) x = 1 + 1 / k := by
    rw [m2]; field_simp
  have i0 : IntegrableOn (fun x : ℝ => gammaDensity k (1 / k) x) (Ioi 0) := by
    by_contra h; rw [integral_undef h] at m0; norm_num at m0
  have i1 : IntegrableOn (fun x : ℝ => x * gammaDensity k (1 / k) x) (Ioi 0) := by
    by_contra h; rw [integral_undef h] at m1'; norm_num at m1'
  have i2 : IntegrableOn (fun x : ℝ => x ^ 2 * gammaDensity k (1 / k) x) (Ioi 0) := by
    by_contra h; rw [integral_undef h] at m2'
    have : (0:ℝ) < 1 + 1 / k := by positivity
    linarith
  refine ⟨m0, m1', ?_⟩
  have : ∀ x : ℝ, (x - 1)^2 * gammaDensity k (1 / k) x =
      (x ^ 2 * gammaDensity k (1 / k) x - 2 * (x * gammaDensity k (1 / k) x)) + gammaDensity k (1 / k) x := by intro x; ring
  simp only [this]
  have i3 : IntegrableOn (fun x : ℝ => x ^ 2 * gammaDensity k (1 / k) x - 2 * (x * gammaDensity k (1 / k) x)) (Ioi 0) :=
    i2.sub (i1.const_mul 2)
  have i4 : IntegrableOn (fun x : ℝ => 2 * (x * gammaDensity k (1 / k) x)) (Ioi 0) := i1.const_mul 2
  rw [integral_add i3 i0, integral_sub i2 i4, integral_const_mul, m0, m1', m2']
  ring

/-- Non-vacuity: a tested pair draws the constituents of both nucleons. -/
example : ∃ A' r1, Sampled (E := Tape) (D := Unit) (calcSamplingWidth 1 0.5 3) 1 3 NucleonData.init A'
    ⟨Tape.const 0.5 (by norm_num), ()⟩ r1 ∧ A'.constituents.length = 3 := by
  obtain ⟨A', B', r1, r2, h, -, -, -⟩ := (C69_draws (E := Tape) (D := Unit) 1 0.5 3 1 false 1 (by norm_num) NucleonData.init
    NucleonData.init ⟨Tape.const 0.5 (by norm_num), ()⟩).2 (by simp [NucleonData.init]) (by simp [NucleonData.init])
  refine ⟨A', r1, h, ?_⟩
  unfold Sampled at h
  simp only [NucleonData.init, Bool.false_eq_true, if_false] at h
  obtain ⟨ds, h1, rfl⟩ := h
  simp only [placed, List.length_map]
  exact draws_length h1

end Trento
