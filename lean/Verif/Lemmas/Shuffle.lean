import Verif.Lemmas.LemireLaw
import Mathlib.GroupTheory.Perm.Basic
import Mathlib.Data.Fintype.Perm

/-!
# The law of `std::shuffle`

`std::shuffle` exchanges positions, whatever the values are: it applies a permutation of the positions that depends on the engine only.  Every
permutation is reached by exactly one sequence of random numbers.
-/

namespace Trento
open MeasureTheory Set ProbabilityTheory Equiv
open scoped ENNReal

variable {N : ℕ}

/-- exchange of two positions; nothing out of bounds -/
def sw (N i j : ℕ) : Perm (Fin N) := if h : i < N ∧ j < N then swap ⟨i, h.1⟩ ⟨j, h.2⟩ else 1

/-- the values `f` in the order `p` -/
def arrOf {F : Type} (f : Fin N → F) (p : Perm (Fin N)) : Array F := Array.ofFn (f ∘ p)

theorem arrOf_swap {F : Type} (f : Fin N → F) (p : Perm (Fin N)) (i j : ℕ) : (arrOf f p).swapIfInBounds i j = arrOf f (p * sw N i j) := by
  unfold Array.swapIfInBounds sw
  have hsz : (arrOf f p).size = N := by simp [arrOf]
  by_cases hi : i < N
  · by_cases hj : j < N
    · rw [dif_pos (by rw [hsz]; exact hi), dif_pos (by rw [hsz]; exact hj), dif_pos ⟨hi, hj⟩]
      apply Array.ext
      · simp [arrOf]
      · intro k hk hk'
        have hkN : k < N := by simpa [arrOf] using hk'
        rw [Array.getElem_swap]
        simp only [arrOf, Array.getElem_ofFn, Function.comp_apply, Perm.mul_apply]
        by_cases h1 : k = i
        · subst h1; rw [if_pos rfl, swap_apply_left]
        · rw [if_neg h1]
          by_cases h2 : k = j
          · subst h2; rw [if_pos rfl, swap_apply_right]
          · rw [if_neg h2, swap_apply_of_ne_of_ne (by simpa [Fin.ext_iff] using h1) (by simpa [Fin.ext_iff] using h2)]
    · rw [dif_pos (by rw [hsz]; exact hi), dif_neg (by rw [hsz]; exact hj), dif_neg (by tauto), mul_one]
  · rw [dif_neg (by rw [hsz]; exact hi), dif_neg (by tauto), mul_one]

section perm
variable {E : Type} [Engine ℝ E]

/-- `shufflePairs` on positions -/
noncomputable def permPairs : ℕ → ℕ → Perm (Fin N) → E → Option (Perm (Fin N) × E)
  | 0, _, p, e => some (p, e)
  | n+1, i, p, e =>
    if i < N then (uniformDraw ℝ ((i+1) * (i+2) - 1) e).bind fun x => permPairs n (i+2) (p * sw N i (x.1 / (i+2)) * sw N (i+1) (x.1 % (i+2))) x.2
    else some (p, e)

/-- `shuffleSingles` on positions -/
noncomputable def permSingles : ℕ → ℕ → Perm (Fin N) → E → Option (Perm (Fin N) × E)
  | 0, _, p, e => some (p, e)
  | n+1, i, p, e =>
    if i < N then (uniformDraw ℝ i e).bind fun x => permSingles n (i+1) (p * sw N i x.1) x.2
    else some (p, e)

/-- `std::shuffle` on positions -/
noncomputable def permDraw (N : ℕ) (e : E) : Option (Perm (Fin N) × E) :=
  if N = 0 then some (1, e)
  else if N ≤ 18446744073709551615 / N then
    if N % 2 = 0 then (uniformDraw ℝ 1 e).bind fun x => permPairs N 2 (sw N 1 x.1) x.2
    else permPairs N 1 1 e
  else permSingles N 1 1 e

theorem shufflePairs_perm_eq (f : Fin N → ℝ) (n i : ℕ) (p : Perm (Fin N)) (e : E) :
    shufflePairs ℝ n i (arrOf f p) e = (permPairs n i p e).map fun r => (arrOf f r.1, r.2) := by
  induction n generalizing i p e with
  | zero => rfl
  | succ n ih =>
    rw [shufflePairs, permPairs, show (arrOf f p).size = N by simp [arrOf]]
    by_cases hi : i < N
    · rw [if_pos hi, if_pos hi]
      cases uniformDraw ℝ ((i+1) * (i+2) - 1) e with
      | none => rfl
      | some x =>
        obtain ⟨x, e'⟩ := x
        simp only [Option.bind_some, arrOf_swap, ih]
    · rw [if_neg hi, if_neg hi]; rfl

theorem shuffleSingles_perm_eq (f : Fin N → ℝ) (n i : ℕ) (p : Perm (Fin N)) (e : E) :
    shuffleSingles ℝ n i (arrOf f p) e = (permSingles n i p e).map fun r => (arrOf f r.1, r.2) := by
  induction n generalizing i p e with
  | zero => rfl
  | succ n ih =>
    rw [shuffleSingles, permSingles, show (arrOf f p).size = N by simp [arrOf]]
    by_cases hi : i < N
    · rw [if_pos hi, if_pos hi]
      cases uniformDraw ℝ i e with
      | none => rfl
      | some x =>
        obtain ⟨x, e'⟩ := x
        simp only [Option.bind_some, arrOf_swap, ih]
    · rw [if_neg hi, if_neg hi]; rfl

/-- **`std::shuffle` applies a permutation of positions** that does not depend on the values. -/
theorem shuffleDraw_perm_eq (f : Fin N → ℝ) (p : Perm (Fin N)) (e : E) :
    shuffleDraw ℝ (List.ofFn (f ∘ p)) e = (permDraw N e).map fun r => (List.ofFn (f ∘ (p * r.1 : Perm (Fin N))), r.2) := by
  have ha : (List.ofFn (f ∘ p)).toArray = arrOf (f ∘ p) 1 := by
    apply Array.ext <;> simp [arrOf]
  have hl : ∀ q : Perm (Fin N), (arrOf (f ∘ p) q).toList = List.ofFn (f ∘ (p * q : Perm (Fin N))) := by
    intro q
    apply List.ext_getElem <;> simp [arrOf]
  unfold shuffleDraw permDraw
  rw [ha]
  simp only [show (arrOf (f ∘ p) 1).size = N by simp [arrOf]]
  by_cases h0 : N = 0
  · rw [if_pos h0, if_pos h0]
    simp
  rw [if_neg h0, if_neg h0]
  by_cases h1 : N ≤ 18446744073709551615 / N
  · rw [if_pos h1, if_pos h1]
    by_cases h2 : N % 2 = 0
    · rw [if_pos h2, if_pos h2]
      cases uniformDraw ℝ 1 e with
      | none => rfl
      | some x =>
        obtain ⟨x, e'⟩ := x
        simp only [Option.bind_some, arrOf_swap, shufflePairs_perm_eq, one_mul]
        cases permPairs N 2 (sw N 1 x) e' with
        | none => rfl
        | some r => simp [hl]
    · rw [if_neg h2, if_neg h2, shufflePairs_perm_eq]
      cases permPairs N 1 (1 : Perm (Fin N)) e with
      | none => rfl
      | some r => simp [hl]
  · rw [if_neg h1, if_neg h1, shuffleSingles_perm_eq]
    cases permSingles N 1 (1 : Perm (Fin N)) e with
    | none => rfl
    | some r => simp [hl]
end perm

/-! ### Counting -/

theorem perm_apply_inv {α : Type} (g : Perm α) (a : α) : g (g⁻¹ a) = a := g.apply_symm_apply a

/-- the probability of reaching `t` from `p` by exchanging the positions `i`, …, `i+k-1`, each with one up to it -/
noncomputable def hit : ℕ → ℕ → Perm (Fin N) → Perm (Fin N) → ℝ≥0∞
  | 0, _, p, t => if p = t then 1 else 0
  | k+1, i, p, t => ((i:ℝ≥0∞) + 1)⁻¹ * ∑ j ∈ Finset.range (i+1), hit k (i+1) (p * sw N i j) t

/-- the permutations that leave the positions from `i` on alone -/
def fixing (N i : ℕ) : Finset (Perm (Fin N)) := Finset.univ.filter fun g => ∀ k : Fin N, i ≤ k → g k = k

theorem fixing_succ {i : ℕ} (hi : i < N) (f : Perm (Fin N) → ℝ≥0∞) :
    ∑ g ∈ fixing N i, ∑ j ∈ Finset.range (i+1), f (g * sw N i j) = ∑ g ∈ fixing N (i+1), f g := by
  rw [← Finset.sum_product' (f := fun g j => f (g * sw N i j))]
  have hsw : ∀ j (hj : j < i + 1), sw N i j = swap (⟨i, hi⟩ : Fin N) ⟨j, by omega⟩ := fun j hj => by
    rw [sw, dif_pos ⟨hi, by omega⟩]
  have hle : ∀ g ∈ fixing N (i+1), ((g⁻¹ (⟨i, hi⟩ : Fin N) : Fin N) : ℕ) < i + 1 := by
    intro g hg
    by_contra hc
    push Not at hc
    have h1 := (Finset.mem_filter.1 hg).2 (g⁻¹ ⟨i, hi⟩) hc
    rw [perm_apply_inv] at h1
    have h2 := congrArg Fin.val h1
    simp only at h2
    omega
  refine Finset.sum_bij' (fun x _ => x.1 * sw N i x.2) (fun g _ => (g * sw N i (g⁻¹ (⟨i, hi⟩ : Fin N)), ((g⁻¹ (⟨i, hi⟩ : Fin N) : Fin N) : ℕ))) ?_ ?_ ?_ ?_ ?_
  · rintro ⟨g, j⟩ hx
    obtain ⟨hg, hj⟩ := Finset.mem_product.1 hx
    have hj := Finset.mem_range.1 hj
    refine Finset.mem_filter.2 ⟨Finset.mem_univ _, fun k hk => ?_⟩
    dsimp only at hj ⊢
    rw [hsw j hj, Perm.mul_apply, swap_apply_of_ne_of_ne]
    · exact (Finset.mem_filter.1 hg).2 k (by omega)
    · intro h; have := congrArg Fin.val h; simp only at this; omega
    · intro h; have := congrArg Fin.val h; simp only at this; omega
  · intro g hg
    refine Finset.mem_product.2 ⟨Finset.mem_filter.2 ⟨Finset.mem_univ _, fun k hk => ?_⟩, Finset.mem_range.2 (hle g hg)⟩
    dsimp only at hk ⊢
    rw [hsw _ (hle g hg), Perm.mul_apply]
    by_cases hki : k = ⟨i, hi⟩
    · subst hki
      rw [swap_apply_left, Fin.eta, perm_apply_inv]
    · rw [swap_apply_of_ne_of_ne hki]
      · refine (Finset.mem_filter.1 hg).2 k ?_
        have : (k:ℕ) ≠ i := fun h => hki (Fin.ext h)
        omega
      · intro h
        rw [Fin.eta] at h
        have h3 := hle g hg
        rw [← h] at h3
        have : (k:ℕ) ≠ i := fun h => hki (Fin.ext h)
        omega
  · rintro ⟨g, j⟩ hx
    obtain ⟨hg, hj⟩ := Finset.mem_product.1 hx
    have hj := Finset.mem_range.1 hj
    dsimp only at hj ⊢
    have e1 : (g * sw N i j)⁻¹ (⟨i, hi⟩ : Fin N) = ⟨j, by omega⟩ := by
      rw [Perm.inv_eq_iff_eq, hsw j hj, Perm.mul_apply, swap_apply_right]
      exact ((Finset.mem_filter.1 hg).2 ⟨i, hi⟩ le_rfl).symm
    rw [e1]
    simp only [Prod.mk.injEq, and_true]
    rw [hsw j hj, mul_assoc, swap_mul_self, mul_one]
  · intro g hg
    dsimp only
    rw [hsw _ (hle g hg), mul_assoc, swap_mul_self, mul_one]
  · rintro ⟨g, j⟩ hx
    rfl

theorem sum_hit {i : ℕ} (hi : i ≤ N) (p t : Perm (Fin N)) :
    ∑ g ∈ fixing N i, hit (N - i) i (p * g) t = (i.factorial : ℝ≥0∞) / N.factorial := by
  have hpos : ∀ n : ℕ, (n.factorial : ℝ≥0∞) ≠ 0 := fun n => by exact_mod_cast n.factorial_ne_zero
  induction h : N - i generalizing i with
  | zero =>
    have : i = N := by omega
    subst this
    rw [ENNReal.div_self (hpos i) (ENNReal.natCast_ne_top _)]
    have e : fixing i i = Finset.univ := Finset.filter_true_of_mem fun g _ k hk => absurd k.2 (by omega)
    rw [e, Finset.sum_eq_single (p⁻¹ * t)]
    · simp [hit]
    · intro g _ hg
      rw [hit, if_neg]
      rintro rfl
      exact hg (by simp)
    · simp
  | succ k ih =>
    have hlt : i < N := by omega
    simp only [hit, ← Finset.mul_sum]
    have := fixing_succ hlt fun g => hit k (i+1) (p * g) t
    simp only [← mul_assoc] at this
    rw [this, ih (i := i+1) (by omega) (by omega), Nat.factorial_succ]
    push_cast
    rw [← mul_div_assoc, ← mul_assoc, ENNReal.inv_mul_cancel (by positivity) (by exact_mod_cast ENNReal.natCast_ne_top (i+1)), one_mul]

/-- **Every permutation is equally likely.** -/
theorem hit_one {i : ℕ} (hi : i ≤ 1) (hN : i ≤ N) (p t : Perm (Fin N)) : hit (N - i) i p t = (N.factorial : ℝ≥0∞)⁻¹ := by
  have h := sum_hit hN p t
  have e : fixing N i = {1} := by
    ext g
    simp only [fixing, Finset.mem_filter, Finset.mem_univ, true_and, Finset.mem_singleton]
    constructor
    · intro hg
      ext k
      by_cases hk : i ≤ k
      · rw [hg k hk]; rfl
      · by_contra hne
        have h1 : i ≤ g k := by
          by_contra h2
          apply hne
          show ((g k : Fin N) : ℕ) = k
          omega
        have h2 := g.injective (hg (g k) h1)
        exact hne (congrArg Fin.val h2)
    · rintro rfl k _
      rfl
  rw [e, Finset.sum_singleton, mul_one] at h
  rw [h]
  interval_cases i <;> simp

/-! ### The law -/

theorem uniformDraw_sum {k : ℕ} (hk : k ≤ 18446744073709551615) (G : ℕ → Tape → ℝ≥0∞) (hG : ∀ i, Measurable (G i)) :
    ∫⁻ e, (uniformDraw ℝ k e).elim 0 (fun x => G x.1 x.2) ∂idealTape = ((k:ℝ≥0∞) + 1)⁻¹ * ∑ i ∈ Finset.range (k+1), ∫⁻ e, G i e ∂idealTape := by
  obtain ⟨K, hK, hl⟩ := (uniformDraw_law k).law
  have hm : Measurable fun x : ℕ × Tape => G x.1 x.2 := measurable_from_prod_countable_right hG
  have h := hl () _ hm
  simp only [Finset.univ_unique, PUnit.default_eq_unit, Finset.sum_singleton] at h hK
  rw [h, hK, one_mul, indexLaw_eq hk]
  have e : ∀ w, ∫⁻ a, G a w ∂uniformOn (Iic k) = ((k:ℝ≥0∞) + 1)⁻¹ * ∑ i ∈ Finset.range (k+1), G i w := by
    intro w
    rw [uniformOn, ProbabilityTheory.cond, lintegral_smul_measure]
    have hs : (Iic k) = ((Finset.range (k+1) : Finset ℕ) : Set ℕ) := by ext; simp
    rw [hs, Measure.count_apply_finset, Finset.card_range, lintegral_finset]
    simp
  simp only [e]
  rw [lintegral_const_mul _ (Finset.measurable_fun_sum _ fun i _ => hG i), lintegral_finsetSum _ fun i _ => hG i]

instance : MeasurableSpace (Perm (Fin N)) := ⊤
instance : DiscreteMeasurableSpace (Perm (Fin N)) := ⟨fun _ => trivial⟩

theorem tapeDraw_meas {k : ℕ} {T : ℕ → Tape → Option (Perm (Fin N) × Tape)} (hT : ∀ x, Measurable (T x)) :
    Measurable fun e : Tape => (uniformDraw ℝ k e).bind fun x => T x.1 x.2 := by
  have hm : Measurable fun x : ℕ × Tape => T x.1 x.2 := measurable_from_prod_countable_right hT
  exact measurable_optBind (g := fun _ x => T x.1 x.2) (uniformDraw_law k).meas (hm.comp measurable_snd)

/-- a draw that ends at `t` with the probability `c t`, and leaves a fresh tape -/
structure Reaches (T : Tape → Option (Perm (Fin N) × Tape)) (c : Perm (Fin N) → ℝ≥0∞) : Prop where
  meas : Measurable T
  law : ∀ t (g : Tape → ℝ≥0∞), Measurable g → ∫⁻ e, (T e).elim 0 (fun r => if r.1 = t then g r.2 else 0) ∂idealTape = c t * ∫⁻ e, g e ∂idealTape

theorem Reaches.pure (p : Perm (Fin N)) : Reaches (fun e => some (p, e)) fun t => if p = t then 1 else 0 := by
  refine ⟨measurable_some.comp (measurable_const.prodMk measurable_id), fun t g _ => ?_⟩
  by_cases h : p = t <;> simp [h]

theorem Reaches.bind {k : ℕ} (hk : k ≤ 18446744073709551615) {T : ℕ → Tape → Option (Perm (Fin N) × Tape)} {c : ℕ → Perm (Fin N) → ℝ≥0∞}
    (h : ∀ x, Reaches (T x) (c x)) :
    Reaches (fun e => (uniformDraw ℝ k e).bind fun x => T x.1 x.2) fun t => ((k:ℝ≥0∞) + 1)⁻¹ * ∑ i ∈ Finset.range (k+1), c i t := by
  refine ⟨tapeDraw_meas fun x => (h x).meas, fun t g hg => ?_⟩
  have hG : ∀ i, Measurable fun e : Tape => (T i e).elim 0 fun r => if r.1 = t then g r.2 else 0 := by
    intro i
    refine measurable_optElim (n := fun _ => (0:ℝ≥0∞)) (g := fun _ r => if r.1 = t then g r.2 else 0) (h i).meas measurable_const ?_
    refine Measurable.ite ?_ (hg.comp (measurable_snd.comp measurable_snd)) measurable_const
    exact (measurable_fst.comp measurable_snd) (MeasurableSet.of_discrete (s := {t}))
  have h1 := uniformDraw_sum hk (fun i e => (T i e).elim 0 fun r => if r.1 = t then g r.2 else 0) hG
  refine Eq.trans (lintegral_congr fun e => ?_) (h1.trans ?_)
  · cases uniformDraw ℝ k e <;> rfl
  · simp only [(h _).law t g hg, ← Finset.sum_mul, mul_assoc]

theorem hit_two (k i : ℕ) (p t : Perm (Fin N)) : hit (k+2) i p t =
    ((((i+1) * (i+2) - 1 : ℕ) : ℝ≥0∞) + 1)⁻¹ * ∑ x ∈ Finset.range ((i+1) * (i+2) - 1 + 1), hit k (i+2) (p * sw N i (x / (i+2)) * sw N (i+1) (x % (i+2))) t := by
  have hpos : 1 ≤ (i+1) * (i+2) := Nat.mul_pos (by omega) (by omega)
  have hc : ((((i+1) * (i+2) - 1 : ℕ) : ℝ≥0∞) + 1) = ((i:ℝ≥0∞) + 1) * (((i+1:ℕ):ℝ≥0∞) + 1) := by
    have : ((((i+1) * (i+2) - 1 + 1 : ℕ)) : ℝ≥0∞) = ((i+1) * (i+1+1) : ℕ) := by congr 1
    push_cast at this ⊢
    exact this
  rw [hc, ENNReal.mul_inv (Or.inl (by positivity)) (Or.inr (by positivity)), Nat.sub_add_cancel hpos, hit]
  simp only [hit, ← Finset.mul_sum]
  rw [← mul_assoc]
  congr 1
  rw [Finset.sum_sigma']
  symm
  refine Finset.sum_bij' (fun x _ => ⟨x / (i+2), x % (i+2)⟩) (fun y _ => (i+2) * y.1 + y.2) ?_ ?_ ?_ ?_ ?_
  · intro x hx
    have hx := Finset.mem_range.1 hx
    refine Finset.mem_sigma.2 ⟨Finset.mem_range.2 ?_, Finset.mem_range.2 (Nat.mod_lt _ (by omega))⟩
    exact Nat.div_lt_of_lt_mul (by rwa [mul_comm])
  · rintro ⟨a, b⟩ hy
    obtain ⟨ha, hb⟩ := Finset.mem_sigma.1 hy
    have ha := Finset.mem_range.1 ha
    have hb := Finset.mem_range.1 hb
    dsimp only at ha hb ⊢
    refine Finset.mem_range.2 ?_
    have : (i+2) * (a + 1) ≤ (i+2) * (i+1) := Nat.mul_le_mul_left _ (by omega)
    calc (i+2) * a + b < (i+2) * a + (i+2) := by omega
      _ = (i+2) * (a+1) := by ring
      _ ≤ (i+1) * (i+2) := by rw [mul_comm (i+1)]; exact this
  · intro x _
    exact Nat.div_add_mod x (i+2)
  · rintro ⟨a, b⟩ hy
    obtain ⟨ha, hb⟩ := Finset.mem_sigma.1 hy
    have hb := Finset.mem_range.1 hb
    dsimp only at hb ⊢
    have h1 : ((i+2) * a + b) / (i+2) = a := by
      rw [Nat.mul_add_div (by omega), Nat.div_eq_of_lt hb, add_zero]
    have h2 : ((i+2) * a + b) % (i+2) = b := by
      rw [Nat.mul_add_mod, Nat.mod_eq_of_lt hb]
    rw [h1, h2]
  · intro x _
    rfl

theorem permPairs_reaches (hN : N * N ≤ 18446744073709551615) (n i : ℕ) (hn : N ≤ n + i) (hpar : (N - i) % 2 = 0) (hi : i ≤ N) (p : Perm (Fin N)) :
    Reaches (permPairs (E := Tape) n i p) (hit (N - i) i p) := by
  induction n generalizing i p with
  | zero =>
    rw [show N - i = 0 by omega]
    exact Reaches.pure p
  | succ n ih =>
    by_cases hlt : i < N
    · have h2 : i + 2 ≤ N := by omega
      have hk : (i+1) * (i+2) - 1 ≤ 18446744073709551615 := by
        have : (i+1) * (i+2) ≤ N * N := Nat.mul_le_mul (by omega) (by omega)
        omega
      have h := Reaches.bind hk (T := fun x e => permPairs n (i+2) (p * sw N i (x / (i+2)) * sw N (i+1) (x % (i+2))) e)
        fun x => ih (i+2) (by omega) (by omega) h2 (p * sw N i (x / (i+2)) * sw N (i+1) (x % (i+2)))
      convert h using 1
      · funext e
        rw [permPairs, if_pos hlt]
      · funext t
        rw [show N - i = (N - (i+2)) + 2 by omega, hit_two]
    · rw [show N - i = 0 by omega]
      have h := Reaches.pure p
      convert h using 1
      · funext e
        rw [permPairs, if_neg hlt]
      · rfl

theorem permSingles_reaches (hN : N ≤ 18446744073709551616) (n i : ℕ) (hn : N ≤ n + i) (hi : i ≤ N) (p : Perm (Fin N)) :
    Reaches (permSingles (E := Tape) n i p) (hit (N - i) i p) := by
  induction n generalizing i p with
  | zero =>
    rw [show N - i = 0 by omega]
    exact Reaches.pure p
  | succ n ih =>
    by_cases hlt : i < N
    · have h := Reaches.bind (k := i) (by omega) (T := fun x e => permSingles n (i+1) (p * sw N i x) e)
        fun x => ih (i+1) (by omega) (by omega) (p * sw N i x)
      convert h using 1
      · funext e
        rw [permSingles, if_pos hlt]
      · funext t
        rw [show N - i = (N - (i+1)) + 1 by omega, hit]
    · rw [show N - i = 0 by omega]
      have h := Reaches.pure p
      convert h using 1
      · funext e
        rw [permSingles, if_neg hlt]
      · rfl

/-- **The law of `std::shuffle`**: uniform on the permutations, and the tape left over is fresh. -/
theorem permDraw_reaches (hN : N ≤ 18446744073709551616) : Reaches (permDraw (E := Tape) N) fun _ => (N.factorial : ℝ≥0∞)⁻¹ := by
  by_cases h0 : N = 0
  · subst h0
    have h := Reaches.pure (1 : Perm (Fin 0))
    convert h using 1
    · funext e
      rw [permDraw, if_pos rfl]
    · funext t
      rw [if_pos (Subsingleton.elim _ _)]
      simp
  by_cases h1 : N ≤ 18446744073709551615 / N
  · have hNN : N * N ≤ 18446744073709551615 := (Nat.mul_le_mul_right N h1).trans (Nat.div_mul_le_self _ _)
    by_cases h2 : N % 2 = 0
    · have h := Reaches.bind (k := 1) (by norm_num) (T := fun x e => permPairs N 2 (sw N 1 x) e)
        fun x => permPairs_reaches hNN N 2 (by omega) (by omega) (by omega) (sw N 1 x)
      convert h using 1
      · funext e
        rw [permDraw, if_neg h0, if_pos h1, if_pos h2]
      · funext t
        rw [← hit_one (i := 1) le_rfl (by omega) 1 t, show N - 1 = N - 2 + 1 by omega, hit]
        simp
    · have h := permPairs_reaches hNN N 1 (by omega) (by omega) (by omega) (1 : Perm (Fin N))
      convert h using 1
      · funext e
        rw [permDraw, if_neg h0, if_pos h1, if_neg h2]
      · funext t
        rw [hit_one (i := 1) le_rfl (by omega)]
  · have h := permSingles_reaches hN N 1 (by omega) (by omega) (1 : Perm (Fin N))
    convert h using 1
    · funext e
      rw [permDraw, if_neg h0, if_neg h1]
    · funext t
      rw [hit_one (i := 1) le_rfl (by omega)]

end Trento
