import Verif.Lemmas.Shuffle
import Verif.Lemmas.LibFresh
import Verif.Props.CyclicNormal
import Mathlib.Data.List.NodupEquivFin

/-!
# C99: shuffling favours no order, and the cyclic sampler no value

With an engine that delivers independent uniform numbers, `std::shuffle` as libstdc++ implements it (one random number for two positions) puts a list into
each order with the same probability; hence every number delivered by the cyclic normal sampler, in whichever pass, is each of its quantiles with the same probability.
-/

namespace Trento
open MeasureTheory Set ProbabilityTheory Equiv Spec
open scoped ENNReal

/-! ### Specification -/

/-- The list `l` with the positions rearranged by `σ`. -/
def Spec.rearranged (l : List ℝ) (σ : Perm (Fin l.length)) : List ℝ := List.ofFn fun k => l.get (σ k)

/-- The `k`-th number (from 0) delivered by a new cyclic normal sampler lies in `S`. -/
def Spec.CyclicDelivers (mean sd : ℝ) (size nLoops k : ℕ) (S : Set ℝ) (w : Rand Tape (LibDist ℝ)) : Prop :=
  ∃ xs c w', draws (k+1) (CyclicNormal.make mean sd size nLoops w).1 (CyclicNormal.make mean sd size nLoops w).2 = .ok (xs, c, w') ∧
    ∃ x, xs[k]? = some x ∧ x ∈ S

/-! ### Proofs -/

variable {N : ℕ}

/-- the permutation of a shuffle (the identity if it never ends) -/
noncomputable def permTotal (N : ℕ) (e : Tape) : Perm (Fin N) × Tape := (permDraw N e).getD (1, e)

theorem permTotal_meas (hN : N ≤ 18446744073709551616) : Measurable (permTotal N) := by
  have h := measurable_optElim (o := permDraw (E := Tape) N) (n := fun e => ((1 : Perm (Fin N)), e)) (g := fun _ r => r) (permDraw_reaches hN).meas
    (measurable_const.prodMk measurable_id) measurable_snd
  convert h using 1
  funext e
  unfold permTotal
  cases permDraw N e <;> rfl

theorem permTotal_law (hN : N ≤ 18446744073709551616) (G : Perm (Fin N) → Tape → ℝ≥0∞) (hG : ∀ t, Measurable (G t)) :
    ∫⁻ e, G (permTotal N e).1 (permTotal N e).2 ∂idealTape = (N.factorial : ℝ≥0∞)⁻¹ * ∑ t, ∫⁻ e, G t e ∂idealTape := by
  have hr := permDraw_reaches hN
  have hsum : ∀ (H : Perm (Fin N) → Tape → ℝ≥0∞) (_ : ∀ t, Measurable (H t)),
      ∫⁻ e, (permDraw N e).elim 0 (fun r => H r.1 r.2) ∂idealTape = (N.factorial : ℝ≥0∞)⁻¹ * ∑ t, ∫⁻ e, H t e ∂idealTape := by
    intro H hH
    have hm : ∀ t, Measurable fun e : Tape => (permDraw N e).elim 0 fun r => if r.1 = t then H t r.2 else 0 := by
      intro t
      refine measurable_optElim (n := fun _ => (0:ℝ≥0∞)) (g := fun _ r => if r.1 = t then H t r.2 else 0) hr.meas measurable_const ?_
      refine Measurable.ite ?_ ((hH t).comp (measurable_snd.comp measurable_snd)) measurable_const
      exact (measurable_fst.comp measurable_snd) (MeasurableSet.of_discrete (s := {t}))
    have e1 : ∀ e : Tape, (permDraw N e).elim 0 (fun r => H r.1 r.2) = ∑ t, (permDraw N e).elim 0 fun r => if r.1 = t then H t r.2 else 0 := by
      intro e
      cases permDraw N e with
      | none => simp
      | some r => simp
    rw [lintegral_congr e1, lintegral_finsetSum _ fun t _ => hm t, Finset.mul_sum]
    exact Finset.sum_congr rfl fun t _ => hr.law t (H t) (hH t)
  have hone := hsum (fun _ _ => 1) fun _ => measurable_const
  have hms : MeasurableSet {e : Tape | permDraw N e ≠ none} := (hr.meas measurableSet_none).compl
  have h1 : idealTape {e : Tape | permDraw N e ≠ none} = 1 := by
    rw [← lintegral_indicator_one hms]
    refine Eq.trans (lintegral_congr fun e => ?_) (hone.trans ?_)
    · cases h : permDraw N e with
      | none => simp [h]
      | some r => simp [h]
    · simp only [lintegral_const, measure_univ, mul_one, Finset.sum_const, Finset.card_univ, Fintype.card_perm, Fintype.card_fin, nsmul_eq_mul]
      exact ENNReal.inv_mul_cancel (by exact_mod_cast N.factorial_ne_zero) (ENNReal.natCast_ne_top _)
  have hnone : ∀ᵐ e ∂idealTape, permDraw N e ≠ none := (prob_compl_eq_zero_iff hms).2 h1
  rw [← hsum G hG]
  refine lintegral_congr_ae (hnone.mono fun e he => ?_)
  dsimp only
  unfold permTotal
  cases h : permDraw N e with
  | none => exact absurd h he
  | some r => rfl

theorem shuffle_perm_eq (f : Fin N → ℝ) (p : Perm (Fin N)) (e : Tape) :
    Rng.shuffle (LibDist ℝ) (List.ofFn (f ∘ p)) e = (List.ofFn (f ∘ (p * (permTotal N e).1 : Perm (Fin N))), (permTotal N e).2) := by
  show (shuffleDraw ℝ (List.ofFn (f ∘ p)) e).getD _ = _
  rw [shuffleDraw_perm_eq, permTotal]
  cases permDraw N e <;> simp

theorem shuffle_rearranged (l : List ℝ) (e : Tape) :
    Rng.shuffle (LibDist ℝ) l e = (rearranged l (permTotal l.length e).1, (permTotal l.length e).2) := by
  have h := shuffle_perm_eq (fun k => l.get k) 1 e
  have hl : List.ofFn ((fun k => l.get k) ∘ (1 : Perm (Fin l.length))) = l := List.ofFn_get l
  rw [hl, one_mul] at h
  exact h

open scoped Classical in
/-- **C99, shuffle.** Every order is as likely as the number of rearrangements of the positions that produce it; the random numbers that remain are fresh and
independent of the order. -/
theorem C99_shuffle (l : List ℝ) (hl : l.length ≤ 2^64) (l' : List ℝ) (A : Set Tape) (hA : MeasurableSet A) :
    idealTape {e | (Rng.shuffle (LibDist ℝ) l e).1 = l' ∧ (Rng.shuffle (LibDist ℝ) l e).2 ∈ A} =
      (Finset.univ.filter fun σ : Perm (Fin l.length) => rearranged l σ = l').card / (l.length.factorial : ℝ≥0∞) * idealTape A := by
  have hN : l.length ≤ 18446744073709551616 := by simpa using hl
  simp only [shuffle_rearranged]
  have hG : ∀ t : Perm (Fin l.length), Measurable fun e : Tape => if rearranged l t = l' then A.indicator (1 : Tape → ℝ≥0∞) e else 0 := by
    intro t
    by_cases h : rearranged l t = l'
    · simp only [if_pos h]; exact measurable_one.indicator hA
    · simp only [if_neg h]; exact measurable_const
  have h := permTotal_law hN _ hG
  have hset : MeasurableSet {e : Tape | rearranged l (permTotal l.length e).1 = l' ∧ (permTotal l.length e).2 ∈ A} :=
    ((measurable_fst.comp (permTotal_meas hN)) (MeasurableSet.of_discrete (s := {t | rearranged l t = l'}))).inter ((measurable_snd.comp (permTotal_meas hN)) hA)
  rw [← lintegral_indicator_one hset]
  refine Eq.trans (lintegral_congr fun e => ?_) (h.trans ?_)
  · by_cases h1 : rearranged l (permTotal l.length e).1 = l' <;> by_cases h2 : (permTotal l.length e).2 ∈ A <;> simp [h1, h2]
  · have h2 : ∀ t : Perm (Fin l.length), ∫⁻ e, (if rearranged l t = l' then A.indicator (1 : Tape → ℝ≥0∞) e else 0) ∂idealTape =
        if rearranged l t = l' then idealTape A else 0 := by
      intro t
      by_cases h : rearranged l t = l'
      · simp only [if_pos h]; exact lintegral_indicator_one hA
      · simp [if_neg h]
    rw [Finset.sum_congr rfl fun t _ => h2 t, ← Finset.sum_filter, Finset.sum_const, nsmul_eq_mul, ← mul_assoc, ENNReal.div_eq_inv_mul]

/-- **C99, distinct values.** Each order of distinct values has the probability 1/n!. -/
theorem C99_orders (l : List ℝ) (hl : l.length ≤ 2^64) (hd : l.Nodup) (l' : List ℝ) (hp : l'.Perm l) :
    idealTape {e | (Rng.shuffle (LibDist ℝ) l e).1 = l'} = 1 / (l.length.factorial : ℝ≥0∞) := by
  classical
  have h := C99_shuffle l hl l' univ MeasurableSet.univ
  simp only [mem_univ, and_true, measure_univ, mul_one] at h
  rw [h]
  congr 1
  have hlen : l.length = l'.length := hp.length_eq.symm
  have hd' : l'.Nodup := hp.nodup_iff.2 hd
  have hcard : (Finset.univ.filter fun σ : Perm (Fin l.length) => rearranged l σ = l').card = 1 := by
    rw [Finset.card_eq_one]
    have hmem : ∀ k : Fin l.length, l'.get (k.cast hlen) ∈ l := fun k => hp.mem_iff.1 (List.get_mem _ _)
    choose g hg using fun k => List.get_of_mem (hmem k)
    have hinj : Function.Injective g := by
      intro a b hab
      have h1 : l'.get (a.cast hlen) = l'.get (b.cast hlen) := by rw [← hg a, ← hg b, hab]
      have h2 := hd'.injective_get h1
      exact Fin.cast_injective hlen h2
    refine ⟨Equiv.ofBijective g (Finite.injective_iff_bijective.1 hinj), ?_⟩
    ext σ
    simp only [Finset.mem_filter, Finset.mem_univ, true_and, Finset.mem_singleton]
    constructor
    · intro hσ
      ext k
      have h1 : l.get (σ k) = l.get (g k) := by
        rw [hg]
        have h2 : (rearranged l σ)[(k:ℕ)]? = l'[(k:ℕ)]? := by rw [hσ]
        unfold rearranged at h2
        rw [List.getElem?_ofFn, dif_pos k.2, List.getElem?_eq_getElem (by rw [← hlen]; exact k.2)] at h2
        exact Option.some.inj h2
      have h3 := hd.injective_get h1
      rw [h3]
      rfl
    · rintro rfl
      unfold rearranged
      apply List.ext_getElem
      · simp [hlen]
      · intro i h1 h2
        rw [List.getElem_ofFn]
        have hi : i < l.length := by rw [hlen]; exact h2
        exact hg ⟨i, hi⟩
  rw [hcard]
  simp

/-! ### The cyclic sampler -/

/-- one call of the sampler on positions: permutation, number of passes, position -/
noncomputable def idxStep [NeZero N] (nLoops : ℕ) (s : Perm (Fin N) × ℕ × ℕ) (e : Tape) : Fin N × (Perm (Fin N) × ℕ × ℕ) × Tape :=
  let q := if nLoops < s.2.1 then s.1 * (permTotal N e).1 else s.1
  let e' := if nLoops < s.2.1 then (permTotal N e).2 else e
  let lc := if nLoops < s.2.1 then 0 else s.2.1
  let pos := if s.2.2 = N then 0 else s.2.2
  let lc := if s.2.2 = N then lc + 1 else lc
  (q (Fin.ofNat N pos), (q, lc, pos + 1), e')

/-- the position of the value of call `k` -/
noncomputable def idxAt [NeZero N] (nLoops : ℕ) : ℕ → Perm (Fin N) × ℕ × ℕ → Tape → Fin N
  | 0, s, e => (idxStep nLoops s e).1
  | k+1, s, e => idxAt nLoops k (idxStep nLoops s e).2.1 (idxStep nLoops s e).2.2

theorem idxStep_meas [NeZero N] (hN : N ≤ 18446744073709551616) (nLoops : ℕ) (s : Perm (Fin N) × ℕ × ℕ) : Measurable (idxStep nLoops s) := by
  have hp := permTotal_meas hN
  by_cases h : nLoops < s.2.1
  · have e : idxStep nLoops s = fun e => ((s.1 * (permTotal N e).1) (Fin.ofNat N (if s.2.2 = N then 0 else s.2.2)),
        (s.1 * (permTotal N e).1, (if s.2.2 = N then 0 + 1 else 0), (if s.2.2 = N then 0 else s.2.2) + 1), (permTotal N e).2) := by
      funext e
      simp only [idxStep, if_pos h]
    rw [e]
    have h1 : Measurable fun e : Tape => s.1 * (permTotal N e).1 :=
      (Measurable.of_discrete (f := fun t : Perm (Fin N) => s.1 * t)).comp (measurable_fst.comp hp)
    have h2 : Measurable fun e : Tape => (s.1 * (permTotal N e).1) (Fin.ofNat N (if s.2.2 = N then 0 else s.2.2)) :=
      (Measurable.of_discrete (f := fun t : Perm (Fin N) => t (Fin.ofNat N (if s.2.2 = N then 0 else s.2.2)))).comp h1
    exact h2.prodMk ((h1.prodMk measurable_const).prodMk (measurable_snd.comp hp))
  · have e : idxStep nLoops s = fun e => (s.1 (Fin.ofNat N (if s.2.2 = N then 0 else s.2.2)),
        (s.1, (if s.2.2 = N then s.2.1 + 1 else s.2.1), (if s.2.2 = N then 0 else s.2.2) + 1), e) := by
      funext e
      simp only [idxStep, if_neg h]
    rw [e]
    exact measurable_const.prodMk (measurable_const.prodMk measurable_id)

theorem idxAt_meas [NeZero N] (hN : N ≤ 18446744073709551616) (nLoops k : ℕ) (s : Perm (Fin N) × ℕ × ℕ) : Measurable (idxAt nLoops k s) := by
  induction k generalizing s with
  | zero => exact measurable_fst.comp (idxStep_meas hN nLoops s)
  | succ k ih =>
    have h : Measurable fun x : (Perm (Fin N) × ℕ × ℕ) × Tape => idxAt nLoops k x.1 x.2 := measurable_from_prod_countable_right ih
    exact h.comp (measurable_snd.comp (idxStep_meas hN nLoops s))

theorem draw_idx [NeZero N] (f : Fin N → ℝ) (p : Perm (Fin N)) (nLoops : ℕ) (s : Perm (Fin N) × ℕ × ℕ) (hs : s.2.2 ≤ N) (e : Tape) (d : LibDist ℝ) :
    CyclicNormal.draw ⟨List.ofFn (f ∘ (p * s.1 : Perm (Fin N))), nLoops, s.2.1, s.2.2⟩ (⟨e, d⟩ : Rand Tape (LibDist ℝ)) =
      .ok (f (p (idxStep nLoops s e).1), ⟨List.ofFn (f ∘ (p * (idxStep nLoops s e).2.1.1 : Perm (Fin N))), nLoops, (idxStep nLoops s e).2.1.2.1,
        (idxStep nLoops s e).2.1.2.2⟩, ⟨(idxStep nLoops s e).2.2, d⟩) ∧ (idxStep nLoops s e).2.1.2.2 ≤ N := by
  obtain ⟨q, lc, pos⟩ := s
  have hpos : 0 < N := Nat.pos_of_ne_zero (NeZero.ne N)
  have hget : ∀ (g : Fin N → ℝ) (i : ℕ), i < N → (List.ofFn g)[i]? = some (g (Fin.ofNat N i)) := by
    intro g i hi
    rw [List.getElem?_ofFn, dif_pos hi]
    congr 2
    ext
    simp [Nat.mod_eq_of_lt hi]
  dsimp only at hs
  constructor
  · unfold CyclicNormal.draw idxStep
    dsimp only
    by_cases h1 : nLoops < lc
    · simp only [if_pos h1, shuffle_perm_eq]
      by_cases h2 : pos = N
      · simp only [List.length_ofFn, if_pos h2]
        rw [hget _ 0 hpos]
        simp [mul_assoc]
      · simp only [List.length_ofFn, if_neg h2]
        rw [hget _ pos (by omega)]
        simp [mul_assoc]
    · simp only [if_neg h1]
      by_cases h2 : pos = N
      · simp only [List.length_ofFn, if_pos h2]
        rw [hget _ 0 hpos]
        simp
      · simp only [List.length_ofFn, if_neg h2]
        rw [hget _ pos (by omega)]
        simp
  · unfold idxStep
    dsimp only
    split <;> omega

theorem draws_idx [NeZero N] (f : Fin N → ℝ) (p : Perm (Fin N)) (nLoops k : ℕ) (s : Perm (Fin N) × ℕ × ℕ) (hs : s.2.2 ≤ N) (e : Tape) (d : LibDist ℝ) :
    ∃ xs c w', draws (k+1) ⟨List.ofFn (f ∘ (p * s.1 : Perm (Fin N))), nLoops, s.2.1, s.2.2⟩ (⟨e, d⟩ : Rand Tape (LibDist ℝ)) = .ok (xs, c, w') ∧
      xs[k]? = some (f (p (idxAt nLoops k s e))) := by
  induction k generalizing s e with
  | zero =>
    obtain ⟨h1, h2⟩ := draw_idx f p nLoops s hs e d
    rw [draws, h1]
    exact ⟨_, _, _, rfl, rfl⟩
  | succ k ih =>
    obtain ⟨h1, h2⟩ := draw_idx f p nLoops s hs e d
    obtain ⟨xs, c, w', h3, h4⟩ := ih (idxStep nLoops s e).2.1 h2 (idxStep nLoops s e).2.2
    rw [draws, h1]
    dsimp only
    rw [h3]
    exact ⟨_, _, _, rfl, by rw [List.getElem?_cons_succ, h4]; rfl⟩

theorem sum_perm_apply [NeZero N] (h : Fin N → ℝ≥0∞) (j : Fin N) :
    (N.factorial : ℝ≥0∞)⁻¹ * ∑ t : Perm (Fin N), h (t j) = (∑ i, h i) / N := by
  have hn0 : (N : ℝ≥0∞) ≠ 0 := by exact_mod_cast NeZero.ne N
  have hf0 : (N.factorial : ℝ≥0∞) ≠ 0 := by exact_mod_cast N.factorial_ne_zero
  have h1 : ∀ k, ∑ t : Perm (Fin N), h (t k) = ∑ t : Perm (Fin N), h (t j) := by
    intro k
    refine Fintype.sum_equiv (Equiv.mulRight (swap j k)) _ _ fun t => ?_
    simp [swap_apply_left]
  have h2 : (N:ℝ≥0∞) * ∑ t : Perm (Fin N), h (t j) = N.factorial * ∑ i, h i := by
    calc (N:ℝ≥0∞) * ∑ t : Perm (Fin N), h (t j) = ∑ k : Fin N, ∑ t : Perm (Fin N), h (t k) := by
          rw [Finset.sum_congr rfl fun k _ => h1 k]; simp
      _ = ∑ t : Perm (Fin N), ∑ k, h (t k) := Finset.sum_comm
      _ = ∑ t : Perm (Fin N), ∑ i, h i := Finset.sum_congr rfl fun t _ => Equiv.sum_comp t h
      _ = N.factorial * ∑ i, h i := by simp [Fintype.card_perm]
  rw [ENNReal.eq_div_iff hn0 (ENNReal.natCast_ne_top _), mul_left_comm, h2, ← mul_assoc, ENNReal.inv_mul_cancel hf0 (ENNReal.natCast_ne_top _), one_mul]

open scoped Classical in
/-- **C99, sampler.** The number delivered by any call of the cyclic sampler - in the first pass or after any number of passes and reshuffles - is each of the
`size` quantiles with the same probability. -/
theorem C99_sampler (mean sd : ℝ) (size nLoops k : ℕ) (h1 : 1 ≤ size) (h2 : size ≤ 2^64) (d : LibDist ℝ) (S : Set ℝ) :
    idealTape {e | CyclicDelivers mean sd size nLoops k S ⟨e, d⟩} =
      ((Finset.range size).filter fun i => CyclicNormal.quantile mean sd size (i+1) ∈ S).card / (size : ℝ≥0∞) := by
  have hz : NeZero size := ⟨by omega⟩
  have hN : size ≤ 18446744073709551616 := by simpa using h2
  set f : Fin size → ℝ := fun i => CyclicNormal.quantile mean sd size (i+1) with hf
  have hq : CyclicNormal.quantiles mean sd size = List.ofFn (f ∘ (1 : Perm (Fin size))) := by
    apply List.ext_getElem
    · simp [CyclicNormal.quantiles]
    · intro i _ _
      simp [CyclicNormal.quantiles, hf]
  have hmake : ∀ e : Tape, CyclicNormal.make mean sd size nLoops (⟨e, d⟩ : Rand Tape (LibDist ℝ)) =
      (⟨List.ofFn (f ∘ (permTotal size e).1), nLoops, 0, 0⟩, ⟨(permTotal size e).2, d⟩) := by
    intro e
    unfold CyclicNormal.make
    rw [hq, shuffle_perm_eq, one_mul]
  have hev : ∀ e : Tape, CyclicDelivers mean sd size nLoops k S ⟨e, d⟩ ↔ f ((permTotal size e).1 (idxAt nLoops k (1, 0, 0) (permTotal size e).2)) ∈ S := by
    intro e
    unfold CyclicDelivers
    rw [hmake]
    obtain ⟨xs, c, w', h3, h4⟩ := draws_idx f (permTotal size e).1 nLoops k (1, 0, 0) (Nat.zero_le _) (permTotal size e).2 d
    rw [mul_one] at h3
    dsimp only at h3 ⊢
    rw [h3]
    constructor
    · rintro ⟨xs', c', w'', hok, x, hx, hS⟩
      injection hok with hok
      injection hok with hok _
      subst hok
      rw [h4] at hx
      injection hx with hx
      rwa [hx]
    · intro hS
      exact ⟨xs, c, w', rfl, _, h4, hS⟩
  have hJ := idxAt_meas hN nLoops k ((1 : Perm (Fin size)), 0, 0)
  have hG : ∀ t : Perm (Fin size), Measurable fun e : Tape => if f (t (idxAt nLoops k (1, 0, 0) e)) ∈ S then (1:ℝ≥0∞) else 0 := fun t =>
    (Measurable.of_discrete (f := fun i : Fin size => if f (t i) ∈ S then (1:ℝ≥0∞) else 0)).comp hJ
  have hlaw := permTotal_law hN _ hG
  have hset : MeasurableSet {e : Tape | f ((permTotal size e).1 (idxAt nLoops k (1, 0, 0) (permTotal size e).2)) ∈ S} := by
    have hm : Measurable fun e : Tape => ((permTotal size e).1, idxAt nLoops k (1, 0, 0) (permTotal size e).2) :=
      (measurable_fst.comp (permTotal_meas hN)).prodMk (hJ.comp (measurable_snd.comp (permTotal_meas hN)))
    exact hm (MeasurableSet.of_discrete (s := {x : Perm (Fin size) × Fin size | f (x.1 x.2) ∈ S}))
  simp only [hev]
  rw [← lintegral_indicator_one hset]
  refine Eq.trans (lintegral_congr fun e => ?_) (hlaw.trans ?_)
  · simp only [indicator_apply, mem_ofPred_eq, Pi.one_apply]
  · rw [← lintegral_finsetSum _ fun t _ => hG t, ← lintegral_const_mul _ (Finset.measurable_fun_sum _ fun t _ => hG t)]
    have hc : ∀ e : Tape, (size.factorial : ℝ≥0∞)⁻¹ * ∑ t : Perm (Fin size), (if f (t (idxAt nLoops k (1, 0, 0) e)) ∈ S then (1:ℝ≥0∞) else 0) =
        (∑ i, if f i ∈ S then (1:ℝ≥0∞) else 0) / size := fun e => sum_perm_apply (fun i => if f i ∈ S then (1:ℝ≥0∞) else 0) _
    rw [lintegral_congr hc, lintegral_const, measure_univ, mul_one]
    congr 1
    rw [Finset.sum_fin_eq_sum_range]
    rw [Finset.card_filter]
    push_cast
    refine Finset.sum_congr rfl fun i hi => ?_
    rw [dif_pos (Finset.mem_range.1 hi)]

/-! ### The hypotheses can be met -/

example : idealTape {e | (Rng.shuffle (LibDist ℝ) ([1, 2, 3] : List ℝ) e).1 = [3, 1, 2]} = 1 / 6 := by
  have h := C99_orders [1, 2, 3] (by norm_num) (by norm_num) [3, 1, 2] (by
    refine (List.Perm.swap 1 3 [2]).trans ?_
    exact List.Perm.cons 1 (List.Perm.swap 2 3 []))
  rw [h]
  norm_num [Nat.factorial]

/-- a sampler of 1000 values: call number 12345 delivers one of them -/
example : idealTape {e | CyclicDelivers 0 0.4 1000 10 12345 univ ⟨e, Rng.freshDist ℝ Tape⟩} = 1 := by
  rw [C99_sampler 0 0.4 1000 10 12345 (by norm_num) (by norm_num)]
  simp only [mem_univ, Finset.filter_true, Finset.card_range]
  exact ENNReal.div_self (by norm_num) (ENNReal.natCast_ne_top _)

end Trento
