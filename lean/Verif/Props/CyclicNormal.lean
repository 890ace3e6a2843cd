import Verif.Model.CrossSection
import Verif.Lemmas.Erf

/-! # C55: the cyclic normal sampler -/

namespace Trento
set_option linter.unusedSectionVars false

/-- `n` draws in a row. -/
def Spec.draws {F E D : Type} [Arith F] [Rng F E D] : ℕ → CyclicNormal F → Rand E D → Res (List F × CyclicNormal F × Rand E D)
  | 0, c, w => .ok ([], c, w)
  | n+1, c, w =>
    match c.draw w with
    | .error e => .error e
    | .ok (x, c, w) =>
      match draws n c w with
      | .error e => .error e
      | .ok (xs, c, w) => .ok (x :: xs, c, w)

open Spec

section
variable {E D : Type} [Rng ℝ E D]

theorem draws_add (m n : ℕ) (c : CyclicNormal ℝ) (w : Rand E D) (xs : List ℝ) (c1 : CyclicNormal ℝ) (w1 : Rand E D)
    (h : draws m c w = .ok (xs, c1, w1)) (ys : List ℝ) (c2 : CyclicNormal ℝ) (w2 : Rand E D) (h' : draws n c1 w1 = .ok (ys, c2, w2)) :
    draws (m + n) c w = .ok (xs ++ ys, c2, w2) := by
  induction m generalizing c w xs with
  | zero =>
    simp only [draws, Except.ok.injEq, Prod.mk.injEq] at h
    obtain ⟨rfl, rfl, rfl⟩ := h
    rw [Nat.zero_add, List.nil_append]; exact h'
  | succ m ih =>
    rw [Nat.succ_add, draws]
    rw [draws] at h
    cases hd : c.draw w with
    | error e => simp only [hd] at h; cases h
    | ok y =>
      obtain ⟨x, c', w'⟩ := y
      simp only [hd] at h ⊢
      cases hr : draws m c' w' with
      | error e => simp only [hr] at h; cases h
      | ok z =>
        obtain ⟨zs, c'', w''⟩ := z
        simp only [hr, Except.ok.injEq, Prod.mk.injEq] at h
        obtain ⟨rfl, rfl, rfl⟩ := h
        rw [ih c' w' zs hr]
        rfl

/-- Draws inside a pass, without a pending shuffle, walk along the cache. -/
theorem draws_walk (k : ℕ) (c : CyclicNormal ℝ) (w : Rand E D) (hl : c.loopCount ≤ c.nLoops) (hp : c.pos + k ≤ c.cache.length) :
    draws k c w = .ok ((c.cache.drop c.pos).take k, { c with pos := c.pos + k }, w) := by
  induction k generalizing c with
  | zero => rw [draws, List.take_zero]; rfl
  | succ k ih =>
    have hlt : c.pos < c.cache.length := by omega
    have hd : c.draw w = .ok (c.cache[c.pos], { c with pos := c.pos + 1 }, w) := by
      unfold CyclicNormal.draw
      simp only [if_neg (not_lt.mpr hl), if_neg hlt.ne, List.getElem?_eq_getElem hlt]
    rw [draws, hd]
    dsimp only
    rw [ih { c with pos := c.pos + 1 } hl (by dsimp only; omega)]
    dsimp only
    rw [List.drop_eq_getElem_cons hlt, List.take_succ_cons, show c.pos + 1 + k = c.pos + (k + 1) by omega]

/-- The first draw of a later pass. -/
theorem draw_wrap (c : CyclicNormal ℝ) (w : Rand E D) (hl : c.loopCount ≤ c.nLoops) (hp : c.pos = c.cache.length) (x : ℝ) (xs : List ℝ)
    (hc : c.cache = x :: xs) : c.draw w = .ok (x, { c with pos := 1, loopCount := c.loopCount + 1 }, w) := by
  unfold CyclicNormal.draw
  simp only [if_neg (not_lt.mpr hl), hp, if_true]
  simp [hc]

/-- A draw with a pending shuffle, inside a pass. -/
theorem draw_shuffle (c : CyclicNormal ℝ) (w : Rand E D) (hl : c.nLoops < c.loopCount)
    (hp : c.pos < (Rng.shuffle D c.cache w.eng).1.length) :
    c.draw w = .ok ((Rng.shuffle D c.cache w.eng).1[c.pos],
      { c with cache := (Rng.shuffle D c.cache w.eng).1, loopCount := 0, pos := c.pos + 1 },
      { w with eng := (Rng.shuffle D c.cache w.eng).2 }) := by
  unfold CyclicNormal.draw
  simp only [if_pos hl, if_neg hp.ne, List.getElem?_eq_getElem hp]

/-- The state between two passes: at the end of some permutation of the quantiles. -/
structure AtEnd (q : List ℝ) (n L : ℕ) (c : CyclicNormal ℝ) : Prop where
  perm : c.cache.Perm q
  nLoops : c.nLoops = n
  loop : c.loopCount = L
  pos : c.pos = c.cache.length

variable [LawfulRng E D]

/-- A later pass, for at least two cached values. -/
theorem pass_step (q : List ℝ) (hq : 2 ≤ q.length) (n L : ℕ) (hL : L ≤ n) (c : CyclicNormal ℝ) (h : AtEnd q n L c) (w : Rand E D) :
    ∃ ys c' w', draws q.length c w = .ok (ys, c', w') ∧
      (L < n → ys.Perm q ∧ AtEnd q n (L+1) c') ∧
      (L = n → (∃ l l' : List ℝ, l.Perm q ∧ l'.Perm q ∧ ys = l.take 1 ++ l'.drop 1) ∧ AtEnd q n 0 c') := by
  have hlen : c.cache.length = q.length := h.perm.length_eq
  obtain ⟨x, xs, hc⟩ : ∃ x xs, c.cache = x :: xs := by
    cases hcc : c.cache with
    | nil => rw [hcc] at hlen; simp at hlen; omega
    | cons x xs => exact ⟨x, xs, rfl⟩
  have hxs : xs.length + 1 = q.length := by rw [← hlen, hc]; rfl
  have hd := draw_wrap c w (by rw [h.loop, h.nLoops]; exact hL) h.pos x xs hc
  have hdraws1 : draws 1 c w = .ok ([x], { c with pos := 1, loopCount := c.loopCount + 1 }, w) := by
    rw [draws, hd]; rfl
  rcases Nat.lt_or_ge L n with hLn | hLn
  · have hw := draws_walk xs.length { c with pos := 1, loopCount := c.loopCount + 1 } w
      (by dsimp only; rw [h.loop, h.nLoops]; omega) (by dsimp only; rw [hlen]; omega)
    have := draws_add 1 _ c w _ _ _ hdraws1 _ _ _ hw
    refine ⟨_, _, _, by rw [← hxs, Nat.add_comm]; exact this, ?_, fun h => by omega⟩
    intro _
    refine ⟨?_, ?_⟩
    · have : [x] ++ (c.cache.drop 1).take xs.length = c.cache := by rw [hc]; simp
      dsimp only
      rw [this]; exact h.perm
    · exact ⟨h.perm, h.nLoops, by dsimp only; rw [h.loop], by dsimp only; rw [hlen]; omega⟩
  · have hLn : L = n := le_antisymm hL hLn
    have hperm := (LawfulRng.shuffle_perm (D := D) c.cache w.eng).trans h.perm
    have hlen' := hperm.length_eq
    set c1 : CyclicNormal ℝ := { c with pos := 1, loopCount := c.loopCount + 1 } with hc1
    have hd2 := draw_shuffle c1 w (by rw [hc1]; dsimp only; rw [h.loop, h.nLoops]; omega)
      (by show 1 < (Rng.shuffle D c.cache w.eng).1.length; omega)
    obtain ⟨k, hk⟩ : ∃ k, xs.length = k + 1 := ⟨xs.length - 1, by omega⟩
    have hw := draws_walk k { c1 with cache := (Rng.shuffle D c.cache w.eng).1, loopCount := 0, pos := 2 }
      { w with eng := (Rng.shuffle D c.cache w.eng).2 } (by dsimp only; exact Nat.zero_le _) (by dsimp only; omega)
    have hrest : draws (k+1) c1 w = .ok ((Rng.shuffle D c.cache w.eng).1[1]'(by omega) ::
        ((Rng.shuffle D c.cache w.eng).1.drop 2).take k,
        { c1 with cache := (Rng.shuffle D c.cache w.eng).1, loopCount := 0, pos := 2 + k },
        { w with eng := (Rng.shuffle D c.cache w.eng).2 }) := by
      rw [draws, hd2]
      dsimp only
      erw [hw]
    have := draws_add 1 _ c w _ _ _ hdraws1 _ _ _ hrest
    refine ⟨_, _, _, by rw [← hxs, Nat.add_comm, hk]; exact this, fun h => by omega, ?_⟩
    intro _
    refine ⟨⟨c.cache, (Rng.shuffle D c.cache w.eng).1, h.perm, hperm, ?_⟩, ⟨hperm, h.nLoops, rfl, ?_⟩⟩
    · have ht : c.cache.take 1 = [x] := by rw [hc]; rfl
      rw [ht, List.drop_eq_getElem_cons (show 1 < (Rng.shuffle D c.cache w.eng).1.length by omega)]
      simp only [List.singleton_append, List.cons.injEq, true_and]
      apply List.take_of_length_le
      rw [List.length_drop]
      omega
    · dsimp only; omega

theorem quantiles_length (m s : ℝ) (size : ℕ) : (CyclicNormal.quantiles m s size).length = size := by
  simp [CyclicNormal.quantiles]

/-- The first `p + 1` passes. -/
theorem passes (m s : ℝ) (size n : ℕ) (hs : 2 ≤ size) (w : Rand E D) (p : ℕ) :
    ∃ xs c w', draws ((p + 1) * size) (CyclicNormal.make m s size n w).1 (CyclicNormal.make m s size n w).2 = .ok (xs, c, w') ∧
      AtEnd (CyclicNormal.quantiles m s size) n (p % (n+1)) c := by
  induction p with
  | zero =>
    have hperm := LawfulRng.shuffle_perm (D := D) (CyclicNormal.quantiles m s size) w.eng
    have hlen := hperm.length_eq
    rw [quantiles_length] at hlen
    have hw := draws_walk size (CyclicNormal.make m s size n w).1 (CyclicNormal.make m s size n w).2 (Nat.zero_le _)
      (by show 0 + size ≤ (Rng.shuffle D _ w.eng).1.length; omega)
    rw [Nat.zero_add, Nat.one_mul]
    refine ⟨_, _, _, hw, ⟨hperm, rfl, by rw [Nat.zero_mod]; rfl, ?_⟩⟩
    show 0 + size = (Rng.shuffle D _ w.eng).1.length
    omega
  | succ p ih =>
    obtain ⟨xs, c, w', h1, h2⟩ := ih
    obtain ⟨ys, c', w'', h3, h4, h5⟩ := pass_step (CyclicNormal.quantiles m s size) (by rw [quantiles_length]; exact hs) n (p % (n+1))
      (Nat.le_of_lt_succ (Nat.mod_lt _ (Nat.succ_pos n))) c h2 w'
    rw [quantiles_length] at h3
    refine ⟨_, _, _, by rw [Nat.succ_mul (p+1) size]; exact draws_add _ _ _ _ _ _ _ h1 _ _ _ h3, ?_⟩
    rcases Nat.lt_or_ge (p % (n+1)) n with h | h
    · have : (p+1) % (n+1) = p % (n+1) + 1 := by
        rw [Nat.add_mod, Nat.mod_eq_of_lt (show 1 < n+1 by omega), Nat.mod_eq_of_lt (by omega)]
      rw [this]; exact (h4 h).2
    · have hp : p % (n+1) = n := le_antisymm (Nat.le_of_lt_succ (Nat.mod_lt _ (Nat.succ_pos n))) h
      have : (p+1) % (n+1) = 0 := by
        apply Nat.mod_eq_zero_of_dvd
        refine ⟨p / (n+1) + 1, ?_⟩
        have := Nat.div_add_mod p (n+1)
        rw [Nat.mul_add, Nat.mul_one]
        omega
      rw [this]; exact (h5 hp).2

/-- **C55, values.** With at least one cached value any number of draws succeeds and returns cached quantiles only. -/
theorem C55_values (m s : ℝ) (size n : ℕ) (hs : 1 ≤ size) (w : Rand E D) (k : ℕ) :
    ∃ xs c w', draws k (CyclicNormal.make m s size n w).1 (CyclicNormal.make m s size n w).2 = .ok (xs, c, w') ∧ xs.length = k ∧
      ∀ x ∈ xs, x ∈ CyclicNormal.quantiles m s size := by
  -- any state whose cache is a permutation of the quantiles
  have key : ∀ (k : ℕ) (c : CyclicNormal ℝ) (w : Rand E D), c.cache.Perm (CyclicNormal.quantiles m s size) → c.pos ≤ c.cache.length →
      ∃ xs c' w', draws k c w = .ok (xs, c', w') ∧ xs.length = k ∧ ∀ x ∈ xs, x ∈ CyclicNormal.quantiles m s size := by
    intro k
    induction k with
    | zero => intro c w _ _; exact ⟨[], c, w, rfl, rfl, by simp⟩
    | succ k ih =>
      intro c w hc hp
      have hd : ∃ x c' w', c.draw w = .ok (x, c', w') ∧ x ∈ CyclicNormal.quantiles m s size ∧
          c'.cache.Perm (CyclicNormal.quantiles m s size) ∧ c'.pos ≤ c'.cache.length := by
        -- after a possible shuffle
        obtain ⟨c1, w1, h1, h2, h3⟩ : ∃ (c1 : CyclicNormal ℝ) (w1 : Rand E D),
            (if c.nLoops < c.loopCount then
              let (cache, e) := Rng.shuffle D c.cache w.eng
              (({ c with cache := cache, loopCount := 0 } : CyclicNormal ℝ), ({ w with eng := e } : Rand E D))
            else (c, w)) = (c1, w1) ∧ c1.cache.Perm (CyclicNormal.quantiles m s size) ∧ c1.pos ≤ c1.cache.length := by
          by_cases h : c.nLoops < c.loopCount
          · rw [if_pos h]
            have hp1 := LawfulRng.shuffle_perm (D := D) c.cache w.eng
            exact ⟨_, _, rfl, hp1.trans hc, hp.trans hp1.length_eq.ge⟩
          · rw [if_neg h]; exact ⟨c, w, rfl, hc, hp⟩
        have hlen := h2.length_eq
        rw [quantiles_length] at hlen
        unfold CyclicNormal.draw
        rw [h1]
        dsimp only
        by_cases hpe : c1.pos = c1.cache.length
        · rw [if_pos hpe]
          have h0 : 0 < c1.cache.length := by omega
          dsimp only
          rw [List.getElem?_eq_getElem h0]
          exact ⟨_, _, _, rfl, h2.subset (List.getElem_mem h0), h2, by dsimp only; omega⟩
        · rw [if_neg hpe]
          have h0 : c1.pos < c1.cache.length := by omega
          rw [List.getElem?_eq_getElem h0]
          exact ⟨_, _, _, rfl, h2.subset (List.getElem_mem h0), h2, by dsimp only; omega⟩
      obtain ⟨x, c', w', h1, h2, h3, h4⟩ := hd
      obtain ⟨xs, c'', w'', h5, h6, h7⟩ := ih c' w' h3 h4
      refine ⟨x :: xs, c'', w'', by rw [draws, h1]; dsimp only; rw [h5], by simp [h6], ?_⟩
      intro y hy
      rcases List.mem_cons.mp hy with rfl | hy
      · exact h2
      · exact h7 y hy
  exact key k _ _ (LawfulRng.shuffle_perm _ _) (Nat.zero_le _)

/-- **C55, passes.** The draws number `p * size`, …, `p * size + size - 1` return every cached value exactly once, in every pass `p`
except those in which the cache is reshuffled (`p` a positive multiple of `n + 1`, where `n` is the loop limit): there the
first value is from one order and the others are all but the first of another order.  Such a pass can
return a value twice (`C55_repeats`). -/
theorem C55_pass (m s : ℝ) (size n : ℕ) (hs : 1 ≤ size) (w : Rand E D) (p : ℕ) :
    ∃ xs c w', draws (p * size) (CyclicNormal.make m s size n w).1 (CyclicNormal.make m s size n w).2 = .ok (xs, c, w') ∧
    ∃ ys c' w'', draws size c w' = .ok (ys, c', w'') ∧
      ((p = 0 ∨ ¬ (n + 1) ∣ p) → ys.Perm (CyclicNormal.quantiles m s size)) ∧
      ((n + 1) ∣ p → ∃ l l' : List ℝ, l.Perm (CyclicNormal.quantiles m s size) ∧ l'.Perm (CyclicNormal.quantiles m s size) ∧
        ys = l.take 1 ++ l'.drop 1) := by
  rcases Nat.lt_or_ge 1 size with hs2 | hs2
  · have hq2 : 2 ≤ (CyclicNormal.quantiles m s size).length := by rw [quantiles_length]; exact hs2
    cases p with
    | zero =>
      have hperm := LawfulRng.shuffle_perm (D := D) (CyclicNormal.quantiles m s size) w.eng
      have hlen := hperm.length_eq
      rw [quantiles_length] at hlen
      refine ⟨[], _, _, by rw [Nat.zero_mul]; rfl, _, _, _, draws_walk size _ _ (Nat.zero_le _)
        (by show 0 + size ≤ (Rng.shuffle D _ w.eng).1.length; omega), ?_⟩
      have hy : (((CyclicNormal.make m s size n w).1.cache.drop (CyclicNormal.make m s size n w).1.pos).take size) =
          (Rng.shuffle D (CyclicNormal.quantiles m s size) w.eng).1 := by
        show ((Rng.shuffle D (CyclicNormal.quantiles m s size) w.eng).1.drop 0).take size = _
        rw [List.drop_zero]
        exact List.take_of_length_le (by omega)
      rw [hy]
      exact ⟨fun _ => hperm, fun _ => ⟨_, _, hperm, hperm, (List.take_append_drop 1 _).symm⟩⟩
    | succ p =>
      obtain ⟨xs, c, w', h1, h2⟩ := passes m s size n hs2 w p
      obtain ⟨ys, c', w'', h3, h4, h5⟩ := pass_step (CyclicNormal.quantiles m s size) hq2 n (p % (n+1))
        (Nat.le_of_lt_succ (Nat.mod_lt _ (Nat.succ_pos n))) c h2 w'
      rw [quantiles_length] at h3
      refine ⟨xs, c, w', h1, ys, c', w'', h3, ?_, ?_⟩
      · intro hp
        refine (h4 ?_).1
        by_contra hge
        have hpn : p % (n+1) = n := by have := Nat.mod_lt p (show 0 < n+1 by omega); omega
        rcases hp with hp | hp
        · omega
        · apply hp
          refine ⟨p / (n+1) + 1, ?_⟩
          have := Nat.div_add_mod p (n+1)
          rw [Nat.mul_add, Nat.mul_one]
          omega
      · intro hp
        refine (h5 ?_).1
        by_contra hne
        have hlt : p % (n+1) < n := by have := Nat.mod_lt p (show 0 < n+1 by omega); omega
        have : (p+1) % (n+1) = p % (n+1) + 1 := by
          rw [Nat.add_mod, Nat.mod_eq_of_lt (show 1 < n+1 by omega), Nat.mod_eq_of_lt (by omega)]
        rw [Nat.mod_eq_zero_of_dvd hp] at this
        omega
  · -- a single cached value
    obtain rfl : size = 1 := by omega
    obtain ⟨xs, c, w', h1, h2, h3⟩ := C55_values m s 1 n le_rfl w (p * 1 + 1)
    obtain ⟨xs0, c0, w0, h10, -, -⟩ := C55_values m s 1 n le_rfl w (p * 1)
    refine ⟨xs0, c0, w0, h10, ?_⟩
    -- split the last draw off
    cases hd : draws 1 c0 w0 with
    | error e =>
      exfalso
      have : ∀ (k : ℕ) (c : CyclicNormal ℝ) (w : Rand E D) (xs0 : List ℝ), draws k c w = .ok (xs0, c0, w0) →
          draws (k+1) c w = .error e := by
        intro k
        induction k with
        | zero =>
          intro c w xs0 h
          simp only [draws, Except.ok.injEq, Prod.mk.injEq] at h
          obtain ⟨-, rfl, rfl⟩ := h
          exact hd
        | succ k ih =>
          intro c w xs0 h
          rw [draws] at h ⊢
          cases hdr : c.draw w with
          | error e => simp only [hdr] at h; cases h
          | ok y =>
            obtain ⟨x, c', w'⟩ := y
            simp only [hdr] at h ⊢
            cases hr : draws k c' w' with
            | error e => simp only [hr] at h; cases h
            | ok z =>
              obtain ⟨zs, c'', w''⟩ := z
              simp only [hr, Except.ok.injEq, Prod.mk.injEq] at h
              obtain ⟨-, rfl, rfl⟩ := h
              rw [ih c' w' zs hr]
      rw [this _ _ _ _ h10] at h1
      cases h1
    | ok y =>
      obtain ⟨ys, c', w''⟩ := y
      have h4 := draws_add _ _ _ _ _ _ _ h10 _ _ _ hd
      rw [h4] at h1
      simp only [Except.ok.injEq, Prod.mk.injEq] at h1
      obtain ⟨rfl, rfl, rfl⟩ := h1
      have hys : ys.length = 1 := by
        rw [draws] at hd
        cases hdr : c0.draw w0 with
        | error e => simp only [hdr] at hd; cases hd
        | ok y =>
          obtain ⟨x, c', w'⟩ := y
          simp only [hdr, draws, Except.ok.injEq, Prod.mk.injEq] at hd
          rw [← hd.1]; rfl
      obtain ⟨y, rfl⟩ := List.length_eq_one_iff.mp hys
      obtain ⟨q, hq⟩ := List.length_eq_one_iff.mp (quantiles_length m s 1)
      have hy : y ∈ CyclicNormal.quantiles m s 1 := h3 y (by simp)
      rw [hq] at hy ⊢
      rw [List.mem_singleton] at hy
      subst hy
      exact ⟨_, _, _, rfl, fun _ => List.Perm.refl _, fun _ => ⟨[y], [y], List.Perm.refl _, List.Perm.refl _, rfl⟩⟩

end

/-! ## The cached values -/

theorem quantile_eq (m s : ℝ) (size i : ℕ) :
    CyclicNormal.quantile m s size i = m + s * (Real.sqrt 2 * erfInv (-1 + 2 * (i:ℝ) / ((size:ℝ) + 1))) := by
  unfold CyclicNormal.quantile
  simp only [lit_real, ofInt_real, rootTwo_real]
  push_cast
  ring_nf

theorem quantile_arg {size i : ℕ} (h1 : 1 ≤ i) (h2 : i ≤ size) :
    -1 < -1 + 2 * (i:ℝ) / ((size:ℝ) + 1) ∧ -1 + 2 * (i:ℝ) / ((size:ℝ) + 1) < 1 := by
  have hi : (1:ℝ) ≤ i := by exact_mod_cast h1
  have hs : (i:ℝ) ≤ size := by exact_mod_cast h2
  have hpos : (0:ℝ) < (size:ℝ) + 1 := by linarith
  constructor
  · have : 0 < 2 * (i:ℝ) / ((size:ℝ) + 1) := by positivity
    linarith
  · have : 2 * (i:ℝ) / ((size:ℝ) + 1) < 2 := by rw [div_lt_iff₀ hpos]; linarith
    linarith

open ProbabilityTheory in
/-- **C55, quantiles.** The cached values are, in order, the values at which the distribution function of the normal
distribution with the given mean and standard deviation equals `1/(size+1), …, size/(size+1)`; they lie symmetric about the mean. -/
theorem C55_quantiles (m s : ℝ) (hs : 0 < s) (size : ℕ) :
    ∃ q : ℕ → ℝ, CyclicNormal.quantiles m s size = (List.range size).map q ∧
      (∀ i < size, (gaussianReal m (Real.toNNReal (s^2))).real (Set.Iic (q i)) = ((i:ℝ) + 1) / ((size:ℝ) + 1)) ∧
      (∀ i < size, q i - m = -(q (size - 1 - i) - m)) := by
  refine ⟨fun i => CyclicNormal.quantile m s size (i+1), rfl, ?_, ?_⟩
  · intro i hi
    dsimp only
    rw [quantile_eq, gaussian_cdf m s hs]
    have h := quantile_arg (size := size) (i := i+1) (by omega) (by omega)
    rw [erf_erfInv h.1 h.2]
    push_cast
    ring
  · intro i hi
    dsimp only
    rw [quantile_eq, quantile_eq]
    have h := quantile_arg (size := size) (i := i+1) (by omega) (by omega)
    have hz : -1 + 2 * ((size - 1 - i + 1 : ℕ) : ℝ) / ((size:ℝ) + 1) = -(-1 + 2 * ((i + 1 : ℕ) : ℝ) / ((size:ℝ) + 1)) := by
      have : ((size - 1 - i + 1 : ℕ) : ℝ) = (size:ℝ) - i := by
        have : size - 1 - i + 1 = size - i := by omega
        rw [this, Nat.cast_sub hi.le]
      rw [this]
      have hpos : (0:ℝ) < (size:ℝ) + 1 := by positivity
      field_simp
      push_cast
      ring
    rw [hz, erfInv_neg h.1 h.2]
    ring

/-- Symmetry also for zero width, and the consequence for complete passes: they average to the mean. -/
theorem C55_pass_mean (m s : ℝ) (size : ℕ) (ys : List ℝ) (h : ys.Perm (CyclicNormal.quantiles m s size)) :
    ys.sum = size * m := by
  rw [h.sum_eq]
  unfold CyclicNormal.quantiles
  -- add the list to its reverse
  have hsym : ∀ i ∈ Finset.range size, CyclicNormal.quantile m s size (i+1) + CyclicNormal.quantile m s size (size - 1 - i + 1) = 2 * m := by
    intro i hi
    rw [Finset.mem_range] at hi
    rw [quantile_eq, quantile_eq]
    have h := quantile_arg (size := size) (i := i+1) (by omega) (by omega)
    have hz : -1 + 2 * ((size - 1 - i + 1 : ℕ) : ℝ) / ((size:ℝ) + 1) = -(-1 + 2 * ((i + 1 : ℕ) : ℝ) / ((size:ℝ) + 1)) := by
      have : ((size - 1 - i + 1 : ℕ) : ℝ) = (size:ℝ) - i := by
        have : size - 1 - i + 1 = size - i := by omega
        rw [this, Nat.cast_sub hi.le]
      rw [this]
      have hpos : (0:ℝ) < (size:ℝ) + 1 := by positivity
      field_simp
      push_cast
      ring
    rw [hz, erfInv_neg h.1 h.2]
    ring
  have hsum : ((List.range size).map fun i => CyclicNormal.quantile m s size (i+1)).sum =
      ∑ i ∈ Finset.range size, CyclicNormal.quantile m s size (i+1) := by
    rw [← List.toFinset_range, List.sum_toFinset _ List.nodup_range]
  rw [hsum]
  have hrefl := Finset.sum_range_reflect (fun i => CyclicNormal.quantile m s size (i+1)) size
  have h2 : ∑ i ∈ Finset.range size, (CyclicNormal.quantile m s size (i+1) + CyclicNormal.quantile m s size (size - 1 - i + 1)) =
      ∑ i ∈ Finset.range size, 2 * m := Finset.sum_congr rfl hsym
  rw [Finset.sum_add_distrib, hrefl] at h2
  simp at h2
  linarith

/-- A pass with a reshuffle can repeat a value: with two cached values and loop limit 0 there is a lawful random source for
which the second pass returns the same value twice and never the other one. -/
theorem C55_repeats (t : Tape) :
    ∃ xs c w', draws 2 (CyclicNormal.make (0:ℝ) 1 2 0 (⟨t, ()⟩ : Rand Tape Unit)).1 (CyclicNormal.make (0:ℝ) 1 2 0 (⟨t, ()⟩ : Rand Tape Unit)).2
        = .ok (xs, c, w') ∧
      ∃ y c' w'', draws 2 c w' = .ok ([y, y], c', w'') ∧ ¬ List.Perm [y, y] (CyclicNormal.quantiles (0:ℝ) 1 2) := by
  set q1 := CyclicNormal.quantile (0:ℝ) 1 2 1 with h1
  set q2 := CyclicNormal.quantile (0:ℝ) 1 2 2 with h2
  have hq : CyclicNormal.quantiles (0:ℝ) 1 2 = [q1, q2] := rfl
  refine ⟨[q2, q1], _, _, rfl, q2, _, _, rfl, ?_⟩
  intro h
  rw [hq] at h
  have hmem : q1 ∈ [q2, q2] := h.mem_iff.mpr (by simp)
  have heq : q1 = q2 := by simpa using hmem
  rw [h1, h2, quantile_eq, quantile_eq] at heq
  have hs := Real.sqrt_pos.mpr (show (0:ℝ) < 2 by norm_num)
  have heq' : (erfInv (-1 + 2 * ((1:ℕ):ℝ) / (((2:ℕ):ℝ) + 1)) : ℝ) = erfInv (-1 + 2 * ((2:ℕ):ℝ) / (((2:ℕ):ℝ) + 1)) := by
    have : Real.sqrt 2 * erfInv (-1 + 2 * ((1:ℕ):ℝ) / (((2:ℕ):ℝ) + 1)) = Real.sqrt 2 * erfInv (-1 + 2 * ((2:ℕ):ℝ) / (((2:ℕ):ℝ) + 1)) := by
      linarith
    exact mul_left_cancel₀ hs.ne' this
  have := congrArg erf heq'
  rw [erf_erfInv (by norm_num) (by norm_num), erf_erfInv (by norm_num) (by norm_num)] at this
  norm_num at this

end Trento
