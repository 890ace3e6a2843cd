import Verif.Props.MonteCarloFit

/-! # C75: which positions the Monte Carlo fit uses -/

namespace Trento
set_option linter.unusedSectionVars false
open Spec

section
variable {E D : Type} [Rng ℝ E D]

/-- Draws with arbitrary other uses of the random engine in between. -/
inductive DrawSeq (E D : Type) [Rng ℝ E D] : CyclicNormal ℝ → List ℝ → CyclicNormal ℝ → Prop
  | nil (c : CyclicNormal ℝ) : DrawSeq E D c [] c
  | cons {c c1 c2 : CyclicNormal ℝ} {x : ℝ} {xs : List ℝ} (r r1 : Rand E D) (h : c.draw r = .ok (x, c1, r1))
      (t : DrawSeq E D c1 xs c2) : DrawSeq E D c (x :: xs) c2

theorem DrawSeq.append {c c1 c2 : CyclicNormal ℝ} {xs ys : List ℝ} (h : DrawSeq E D c xs c1) (h' : DrawSeq E D c1 ys c2) :
    DrawSeq E D c (xs ++ ys) c2 := by
  induction h with
  | nil c => exact h'
  | cons r r1 h t ih => exact .cons r r1 h (ih h')

theorem DrawSeq.split {c c2 : CyclicNormal ℝ} (xs : List ℝ) {ys : List ℝ} (h : DrawSeq E D c (xs ++ ys) c2) :
    ∃ c1, DrawSeq E D c xs c1 ∧ DrawSeq E D c1 ys c2 := by
  induction xs generalizing c with
  | nil => exact ⟨c, .nil c, h⟩
  | cons x xs ih =>
    cases h with
    | cons r r1 h t =>
      obtain ⟨c1, h1, h2⟩ := ih t
      exact ⟨c1, .cons r r1 h h1, h2⟩

theorem DrawSeq.walk {c c' : CyclicNormal ℝ} {xs : List ℝ} (h : DrawSeq E D c xs c') (hl : c.loopCount ≤ c.nLoops)
    (hp : c.pos + xs.length ≤ c.cache.length) :
    xs = (c.cache.drop c.pos).take xs.length ∧ c' = { c with pos := c.pos + xs.length } := by
  induction h with
  | nil c => simp
  | @cons c c1 c2 x xs r r1 h t ih =>
    rw [List.length_cons] at hp
    have hlt : c.pos < c.cache.length := by omega
    have hd : c.draw r = .ok (c.cache[c.pos], { c with pos := c.pos + 1 }, r) := by
      unfold CyclicNormal.draw
      simp only [if_neg (not_lt.mpr hl), if_neg hlt.ne, List.getElem?_eq_getElem hlt]
    rw [hd] at h
    simp only [Except.ok.injEq, Prod.mk.injEq] at h
    obtain ⟨rfl, rfl, rfl⟩ := h
    obtain ⟨h1, h2⟩ := ih hl (by dsimp only; omega)
    dsimp only at h1 h2
    refine ⟨?_, ?_⟩
    · rw [List.length_cons, List.drop_eq_getElem_cons hlt, List.take_succ_cons, ← h1]
    · rw [h2, List.length_cons, show c.pos + 1 + xs.length = c.pos + (xs.length + 1) by omega]

variable [LawfulRng E D]

theorem DrawSeq.pass (q : List ℝ) (hq : 2 ≤ q.length) (n L : ℕ) (hL : L ≤ n) {c c' : CyclicNormal ℝ} (h : AtEnd q n L c) {ys : List ℝ}
    (hs : DrawSeq E D c ys c') (hy : ys.length = q.length) :
    (L < n → ys.Perm q ∧ AtEnd q n (L+1) c') ∧
      (L = n → (∃ l l' : List ℝ, l.Perm q ∧ l'.Perm q ∧ ys = l.take 1 ++ l'.drop 1) ∧ AtEnd q n 0 c') := by
  have hlen : c.cache.length = q.length := h.perm.length_eq
  obtain ⟨x, xs, hc⟩ : ∃ x xs, c.cache = x :: xs := by
    cases hcc : c.cache with
    | nil => rw [hcc] at hlen; simp at hlen; omega
    | cons x xs => exact ⟨x, xs, rfl⟩
  have hxs : xs.length + 1 = q.length := by rw [← hlen, hc]; rfl
  cases hs with
  | nil => simp at hy; omega
  | @cons _ c1 _ y ys r r1 hd t =>
    rw [draw_wrap c r (by rw [h.loop, h.nLoops]; exact hL) h.pos x xs hc] at hd
    simp only [Except.ok.injEq, Prod.mk.injEq] at hd
    obtain ⟨rfl, rfl, rfl⟩ := hd
    rw [List.length_cons] at hy
    rcases Nat.lt_or_ge L n with hLn | hLn
    · obtain ⟨h1, h2⟩ := t.walk (by dsimp only; rw [h.loop, h.nLoops]; omega) (by dsimp only; rw [hlen]; omega)
      refine ⟨fun _ => ⟨?_, ?_⟩, fun h => by omega⟩
      · have : x :: ys = c.cache := by
          rw [h1]
          dsimp only
          rw [hc]
          simp only [List.drop_succ_cons, List.drop_zero]
          rw [List.take_of_length_le (by omega)]
        rw [this]; exact h.perm
      · rw [h2]
        exact ⟨h.perm, h.nLoops, by dsimp only; rw [h.loop], by dsimp only; rw [hlen]; omega⟩
    · have hLn : L = n := le_antisymm hL hLn
      cases t with
      | nil => simp at hy; omega
      | @cons _ c2 _ z zs r' r1' hd t =>
        have hperm := (LawfulRng.shuffle_perm (D := D) c.cache r'.eng).trans h.perm
        have hlen' := hperm.length_eq
        rw [draw_shuffle _ r' (by dsimp only; rw [h.loop, h.nLoops]; omega)
          (by show 1 < (Rng.shuffle D c.cache r'.eng).1.length; omega)] at hd
        simp only [Except.ok.injEq, Prod.mk.injEq] at hd
        obtain ⟨hz, rfl, rfl⟩ := hd
        rw [List.length_cons] at hy
        obtain ⟨h1, h2⟩ := t.walk (by dsimp only; exact Nat.zero_le _) (by dsimp only; omega)
        refine ⟨fun h => by omega, fun _ => ⟨⟨c.cache, _, h.perm, hperm, ?_⟩, ?_⟩⟩
        · have ht : c.cache.take 1 = [x] := by rw [hc]; rfl
          rw [ht, List.drop_eq_getElem_cons (show 1 < (Rng.shuffle D c.cache r'.eng).1.length by omega)]
          simp only [List.singleton_append, List.cons.injEq, true_and]
          refine ⟨hz.symm, ?_⟩
          rw [h1]
          dsimp only
          apply List.take_of_length_le
          rw [List.length_drop]
          omega
        · rw [h2]
          exact ⟨hperm, h.nLoops, rfl, by dsimp only; omega⟩

/-- Any draw returns a cached value and permutes the cache. -/
theorem draw_value {c c' : CyclicNormal ℝ} {r r' : Rand E D} {x : ℝ} (h : c.draw r = .ok (x, c', r')) :
    x ∈ c.cache ∧ c'.cache.Perm c.cache := by
  have key : ∀ d : CyclicNormal ℝ, (if d.pos = d.cache.length then { d with pos := 0, loopCount := d.loopCount + 1 } else d).cache = d.cache := by
    intro d; split <;> rfl
  unfold CyclicNormal.draw at h
  obtain ⟨d, r1, he, hp⟩ : ∃ (d : CyclicNormal ℝ) (r1 : Rand E D),
      (if c.nLoops < c.loopCount then
        let (cache, e) := Rng.shuffle D c.cache r.eng
        (({ c with cache := cache, loopCount := 0 } : CyclicNormal ℝ), ({ r with eng := e } : Rand E D))
      else (c, r)) = (d, r1) ∧ d.cache.Perm c.cache := by
    split
    · exact ⟨_, _, rfl, LawfulRng.shuffle_perm (D := D) c.cache r.eng⟩
    · exact ⟨_, _, rfl, List.Perm.refl _⟩
  rw [he] at h
  have hk := key d
  dsimp only at h
  generalize (if d.pos = d.cache.length then { d with pos := 0, loopCount := d.loopCount + 1 } else d) = d' at h hk
  cases hx : d'.cache[d'.pos]? with
  | none => simp only [hx] at h; cases h
  | some y =>
    simp only [hx, Except.ok.injEq, Prod.mk.injEq] at h
    obtain ⟨rfl, rfl, -⟩ := h
    have hm := List.mem_of_getElem? hx
    rw [hk] at hm
    exact ⟨hp.subset hm, by dsimp only; rw [hk]; exact hp⟩

theorem DrawSeq.values {c c' : CyclicNormal ℝ} {xs : List ℝ} (h : DrawSeq E D c xs c') : ∀ x ∈ xs, x ∈ c.cache := by
  induction h with
  | nil c => simp
  | cons r r1 h t ih =>
    intro y hy
    obtain ⟨h1, h2⟩ := draw_value h
    rcases List.mem_cons.mp hy with rfl | hy
    · exact h1
    · exact h2.subset (ih y hy)

/-- The passes of a fresh sampler. -/
theorem DrawSeq.passes (m s : ℝ) (size n : ℕ) (hs : 2 ≤ size) (w : Rand E D) (p : ℕ) :
    ∀ (zs : List ℝ) (c : CyclicNormal ℝ), DrawSeq E D (CyclicNormal.make m s size n w).1 zs c → zs.length = (p + 1) * size →
      AtEnd (CyclicNormal.quantiles m s size) n (p % (n+1)) c ∧
      ((p = 0 ∨ ¬ (n + 1) ∣ p) → (zs.drop (p * size)).Perm (CyclicNormal.quantiles m s size)) ∧
      ((n + 1) ∣ p → ∃ l l' : List ℝ, l.Perm (CyclicNormal.quantiles m s size) ∧ l'.Perm (CyclicNormal.quantiles m s size) ∧
        zs.drop (p * size) = l.take 1 ++ l'.drop 1) := by
  have hq := quantiles_length m s size
  induction p with
  | zero =>
    intro zs c h hz
    have hperm := LawfulRng.shuffle_perm (D := D) (CyclicNormal.quantiles m s size) w.eng
    have hlen := hperm.length_eq
    rw [hq] at hlen
    rw [Nat.zero_add, Nat.one_mul] at hz
    obtain ⟨h1, h2⟩ := h.walk (Nat.zero_le _) (by show 0 + zs.length ≤ (Rng.shuffle D _ w.eng).1.length; omega)
    have h1' : zs = (Rng.shuffle D (CyclicNormal.quantiles m s size) w.eng).1 := by
      rw [h1]
      show ((Rng.shuffle D _ w.eng).1.drop 0).take zs.length = _
      rw [List.drop_zero, List.take_of_length_le (by omega)]
    rw [Nat.zero_mul, List.drop_zero, Nat.zero_mod]
    refine ⟨?_, fun _ => by rw [h1']; exact hperm, fun _ => ⟨zs, zs, by rw [h1']; exact hperm, by rw [h1']; exact hperm, (List.take_append_drop 1 zs).symm⟩⟩
    rw [h2]
    refine ⟨hperm, rfl, rfl, ?_⟩
    show 0 + zs.length = (Rng.shuffle D _ w.eng).1.length
    omega
  | succ p ih =>
    intro zs c h hz
    have hz' : zs.length = (p + 1) * size + size := by rw [hz]; ring
    rw [← List.take_append_drop ((p+1) * size) zs] at h
    obtain ⟨c1, h1, h2⟩ := h.split
    obtain ⟨h3, -, -⟩ := ih _ _ h1 (by rw [List.length_take]; omega)
    obtain ⟨h4, h5⟩ := h2.pass (CyclicNormal.quantiles m s size) (by rw [hq]; exact hs) n (p % (n+1))
      (Nat.le_of_lt_succ (Nat.mod_lt _ (Nat.succ_pos n))) h3 (by rw [List.length_drop, hq]; omega)
    rcases Nat.lt_or_ge (p % (n+1)) n with hlt | hge
    · have hm : (p+1) % (n+1) = p % (n+1) + 1 := by
        rw [Nat.add_mod, Nat.mod_eq_of_lt (show 1 < n+1 by omega), Nat.mod_eq_of_lt (by omega)]
      refine ⟨by rw [hm]; exact (h4 hlt).2, fun _ => (h4 hlt).1, fun hd => ?_⟩
      rw [Nat.mod_eq_zero_of_dvd hd] at hm
      omega
    · have hp : p % (n+1) = n := le_antisymm (Nat.le_of_lt_succ (Nat.mod_lt _ (Nat.succ_pos n))) hge
      have hd : (n+1) ∣ (p+1) := by
        refine ⟨p / (n+1) + 1, ?_⟩
        have := Nat.div_add_mod p (n+1)
        rw [Nat.mul_add, Nat.mul_one]
        omega
      refine ⟨by rw [Nat.mod_eq_zero_of_dvd hd]; exact (h5 hp).2, fun hn => ?_, fun _ => (h5 hp).1⟩
      rcases hn with hn | hn
      · omega
      · exact absurd hd hn

/-- The coordinates of a list of points, x before y. -/
def Spec.coords (l : List (ℝ × ℝ)) : List ℝ := l.flatMap fun q => [q.1, q.2]

theorem drawCyclicPositions_seq (k : ℕ) : ∀ (c : CyclicNormal ℝ) (r : Rand E D) (l : List (ℝ × ℝ)) (c' : CyclicNormal ℝ) (r' : Rand E D),
    drawCyclicPositions k c r = .ok (l, c', r') → DrawSeq E D c (coords l) c' := by
  induction k with
  | zero =>
    intro c r l c' r' h
    simp only [drawCyclicPositions, Except.ok.injEq, Prod.mk.injEq] at h
    obtain ⟨rfl, rfl, -⟩ := h
    exact .nil _
  | succ k ih =>
    intro c r l c' r' h
    rw [drawCyclicPositions] at h
    cases h1 : c.draw r with
    | error e => simp only [h1] at h; cases h
    | ok y =>
      obtain ⟨x, c1, r1⟩ := y
      simp only [h1] at h
      cases h2 : c1.draw r1 with
      | error e => simp only [h2] at h; cases h
      | ok z =>
        obtain ⟨y, c2, r2⟩ := z
        simp only [h2] at h
        cases h3 : drawCyclicPositions k c2 r2 with
        | error e => simp only [h3] at h; cases h
        | ok t =>
          obtain ⟨l', c3, r3⟩ := t
          simp only [h3, Except.ok.injEq, Prod.mk.injEq] at h
          obtain ⟨rfl, rfl, -⟩ := h
          exact .cons _ _ h1 (.cons _ _ h2 (ih _ _ _ _ _ h3))

/-- One sample of the Monte Carlo cross section: the variable `u` of the impact parameter and the constituents of both nucleons. -/
structure Spec.PairSample where
  u : ℝ
  as : List (ℝ × ℝ)
  bs : List (ℝ × ℝ)

theorem mcSample_seq (w v : ℝ) (m : ℕ) (σ : ℝ) (c c' : CyclicNormal ℝ) (r r' : Rand E D) (p : ℝ)
    (hs : mcSample (MonteCarlo.make w v m) σ c r = .ok (p, c', r')) :
    ∃ s : PairSample, 0 ≤ s.u ∧ s.u < 1 ∧ s.as.length = m ∧ s.bs.length = m ∧
      p = Real.exp (-σ * overlapTAB v m (atPoints (6 * w * Real.sqrt s.u) s.as) (atPoints 0 s.bs)) ∧
      DrawSeq E D c (coords s.as ++ coords s.bs) c' := by
  unfold mcSample at hs
  have hu := LawfulRng.canonical_mem (D := D) r.eng
  cases h1 : drawCyclicPositions (MonteCarlo.make w v m).constituentNumber c (canonical (F := ℝ) r).2 with
  | error e => simp only [h1] at hs; cases hs
  | ok y =>
    obtain ⟨as, c3, r3⟩ := y
    simp only [h1] at hs
    cases h2 : drawCyclicPositions (MonteCarlo.make w v m).constituentNumber c3 r3 with
    | error e => simp only [h2] at hs; cases hs
    | ok z =>
      obtain ⟨bs, c4, r4⟩ := z
      simp only [h2, Except.ok.injEq, Prod.mk.injEq] at hs
      obtain ⟨h3, rfl, -⟩ := hs
      refine ⟨⟨(Rng.canonical (F := ℝ) (D := D) r.eng).1, as, bs⟩, hu.1, hu.2, drawCyclicPositions_length _ _ _ _ _ _ h1,
        drawCyclicPositions_length _ _ _ _ _ _ h2, ?_, (drawCyclicPositions_seq _ _ _ _ _ _ h1).append (drawCyclicPositions_seq _ _ _ _ _ _ h2)⟩
      rw [← h3, ← mcOverlap_eq]
      simp only [MonteCarlo.make, maxImpactWidths, canonical, exp_real, sqr_real, lit_real, ofInt_real, oneDivTwoPi_real, sqrt_real]
      push_cast
      ring_nf

/-- The list of samples behind a run of the loop. -/
theorem mcLoop_seq (w v : ℝ) (m : ℕ) (σ : ℝ) (nPass : ℕ) (tol : ℝ) (k : ℕ) :
    ∀ (n : ℕ) (ref : Option ℝ) (S : ℝ) (pass : ℕ) (c : CyclicNormal ℝ) (r : Rand E D) (x : ℝ) (ps : List ℝ) (r' : Rand E D),
      mcLoop (MonteCarlo.make w v m) σ nPass tol k n ref S pass c r = .ok (x, ps, r') →
      ∃ (ss : List PairSample) (c' : CyclicNormal ℝ),
        ps = ss.map (fun s => Real.exp (-σ * overlapTAB v m (atPoints (6 * w * Real.sqrt s.u) s.as) (atPoints 0 s.bs))) ∧
        (∀ s ∈ ss, 0 ≤ s.u ∧ s.u < 1 ∧ s.as.length = m ∧ s.bs.length = m) ∧
        DrawSeq E D c (ss.flatMap fun s => coords s.as ++ coords s.bs) c' := by
  induction k with
  | zero => intro n ref S pass c r v ps r' h; simp [mcLoop] at h
  | succ k ih =>
    intro n ref S pass c r x ps r' h
    rw [mcLoop] at h
    cases hsam : mcSample (MonteCarlo.make w v m) σ c r with
    | error e => simp only [hsam] at h; cases h
    | ok y =>
      obtain ⟨p, c1, r1⟩ := y
      simp only [hsam] at h
      obtain ⟨s, h1, h2, h3, h4, h5, h6⟩ := mcSample_seq _ _ _ _ _ _ _ _ _ hsam
      generalize (if mcWithin tol n (mcEstimate (MonteCarlo.make w v m) (S + p) n) ref = true then pass + 1 else 0) = pass' at h
      generalize (if mcWithin tol n (mcEstimate (MonteCarlo.make w v m) (S + p) n) ref = true then ref
        else mcReference n (mcEstimate (MonteCarlo.make w v m) (S + p) n)) = ref' at h
      by_cases hret : nPass < pass'
      · simp only [if_pos hret, Except.ok.injEq, Prod.mk.injEq] at h
        obtain ⟨-, rfl, -⟩ := h
        refine ⟨[s], c1, by simp [h5], by simpa using ⟨h1, h2, h3, h4⟩, by simpa using h6⟩
      · simp only [if_neg hret] at h
        cases hl : mcLoop (MonteCarlo.make w v m) σ nPass tol k (n+1) ref' (S + p) pass' c1 r1 with
        | error e => simp only [hl] at h; cases h
        | ok z =>
          obtain ⟨x', ps', r2⟩ := z
          simp only [hl, Except.ok.injEq, Prod.mk.injEq] at h
          obtain ⟨-, rfl, -⟩ := h
          obtain ⟨ss, c', h7, h8, h9⟩ := ih _ _ _ _ _ _ _ _ _ hl
          refine ⟨s :: ss, c', by rw [List.map_cons, ← h7, ← h5], ?_, ?_⟩
          · intro t ht
            rcases List.mem_cons.mp ht with rfl | ht
            · exact ⟨h1, h2, h3, h4⟩
            · exact h8 t ht
          · rw [List.flatMap_cons]
            exact h6.append h9

/-- **C75, stratified positions.** Behind every successful Monte Carlo run with more than one constituent there is a list of samples, one per
recorded miss probability, such that each probability is `exp(-σ T_AB)` of its sample; and all the coordinates of all samples, in the
order of use, are taken from the one million values which cut the normal distribution with the sampling width into equally likely parts, with every
value used exactly once in each full block of one million - except in every 11th block (number 11, 22, … from 0), which starts with a
value of one order and continues with all but the first of another order. -/
theorem C75_stratified (w v : ℝ) (hv : 0 < v) (hw : v + 1e-6 ≤ w) (m : ℕ) (hm : 2 ≤ m) (σ : ℝ) (r r' : Rand E D) (x : ℝ) (ps : List ℝ)
    (h : (MonteCarlo.make w v m).run mcConst σ r = .ok (x, ps, r')) :
    ∃ (ss : List PairSample) (q : ℕ → ℝ),
      ps = ss.map (fun s => Real.exp (-σ * overlapTAB v m (atPoints (6 * w * Real.sqrt s.u) s.as) (atPoints 0 s.bs))) ∧
      (∀ s ∈ ss, 0 ≤ s.u ∧ s.u < 1 ∧ s.as.length = m ∧ s.bs.length = m) ∧
      (∀ i < 1000000, (ProbabilityTheory.gaussianReal 0 (Real.toNNReal ((w^2 - v^2) / (1 - 1 / m)))).real (Set.Iic (q i)) = ((i:ℝ) + 1) / (1000000 + 1)) ∧
      (∀ z ∈ ss.flatMap fun s => coords s.as ++ coords s.bs, ∃ i < 1000000, z = q i) ∧
      ∀ p, (p + 1) * 1000000 ≤ (ss.flatMap fun s => coords s.as ++ coords s.bs).length →
        ((p = 0 ∨ ¬ 11 ∣ p) →
          (((ss.flatMap fun s => coords s.as ++ coords s.bs).drop (p * 1000000)).take 1000000).Perm ((List.range 1000000).map q)) ∧
        (11 ∣ p → ∃ l l' : List ℝ, l.Perm ((List.range 1000000).map q) ∧ l'.Perm ((List.range 1000000).map q) ∧
          ((ss.flatMap fun s => coords s.as ++ coords s.bs).drop (p * 1000000)).take 1000000 = l.take 1 ++ l'.drop 1) := by
  unfold MonteCarlo.run at h
  obtain ⟨ss, c', h1, h2, h3⟩ := mcLoop_seq _ _ _ _ _ _ _ _ _ _ _ _ _ _ _ _ h
  have hm' : (2:ℝ) ≤ m := by exact_mod_cast hm
  have hs2 : 0 < (w^2 - v^2) / (1 - 1 / (m:ℝ)) := by
    apply div_pos
    · have : v < w := by linarith
      nlinarith
    · rw [sub_pos, div_lt_one (by linarith)]; linarith
  have hsw : (MonteCarlo.make w v m).samplingWidth = Real.sqrt ((w^2 - v^2) / (1 - 1 / (m:ℝ))) := by
    simp only [MonteCarlo.make, calcSamplingWidth]
    rw [if_neg (by simpa using And.intro (show m ≠ 1 by omega) (show (1e-6:ℝ) ≤ w - v by linarith))]
    simp [sqr_real, sqrt_real, pow_two]
  rw [hsw] at h3
  have hsp := Real.sqrt_pos.mpr hs2
  obtain ⟨q, hq, hqv, -⟩ := C55_quantiles 0 _ hsp mcConst.cacheSize
  have hcs : mcConst.cacheSize = 1000000 := rfl
  have hnl : mcConst.nLoops = 10 := rfl
  rw [hcs, hnl, lit_real, Rat.cast_zero] at h3
  rw [hcs] at hq hqv
  rw [Real.sq_sqrt hs2.le] at hqv
  refine ⟨ss, q, h1, h2, fun i hi => by simpa using hqv i hi, ?_, ?_⟩
  · intro z hz
    have hv := h3.values z hz
    have hperm := LawfulRng.shuffle_perm (D := D) (CyclicNormal.quantiles 0 (Real.sqrt ((w^2 - v^2) / (1 - 1 / (m:ℝ)))) 1000000) r.eng
    have hv' := hperm.subset hv
    rw [hq, List.mem_map] at hv'
    obtain ⟨i, hi, rfl⟩ := hv'
    exact ⟨i, List.mem_range.mp hi, rfl⟩
  · intro p hp
    generalize hz : (ss.flatMap fun s => coords s.as ++ coords s.bs) = zs at h3 hp
    rw [← List.take_append_drop ((p+1) * 1000000) zs] at h3
    obtain ⟨c1, h4, -⟩ := h3.split
    obtain ⟨-, h5, h6⟩ := DrawSeq.passes 0 (Real.sqrt ((w^2 - v^2) / (1 - 1 / (m:ℝ)))) 1000000 10 (by norm_num) r p _ _ h4 (by rw [List.length_take]; omega)
    rw [hq] at h5 h6
    rw [List.drop_take, show (p + 1) * 1000000 - p * 1000000 = 1000000 by omega] at h5 h6
    exact ⟨h5, h6⟩

/-- The hypothesis is met: with parameter 0 every run returns (`C54_negative`). -/
example (r : Rand E D) : ∃ x ps r', (MonteCarlo.make (1/2:ℝ) (1/4) 3).run mcConst 0 r = .ok (x, ps, r') := by
  obtain ⟨x, ps, r', h, -⟩ := C54_negative (E := E) (D := D) (1/2) (1/4) (by norm_num) (by norm_num) 3 r
  exact ⟨x, ps, r', h⟩

end

end Trento
