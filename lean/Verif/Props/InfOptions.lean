import Verif.Props.NanOptions

/-! # An infinite range of impact parameters (C110)

`inf` is accepted as the value of `--b-max` and `--b-min`, and passes every check of `main`. -/

namespace Trento
open Spec XReal

/-! ## Arithmetic with infinite operands -/

/-- Infinite or not a number. -/
def Endless (x : XReal) : Prop := ∀ r, x ≠ fin r

theorem endless_infMul (x : ℝ) : Endless (infMul x) := by
  intro r
  unfold infMul
  split
  · simp
  · split <;> simp

theorem endless_mul {x : XReal} (h : Endless x) (y : XReal) : Endless (x * y) := by
  cases x with
  | fin r => exact absurd rfl (h r)
  | pinf => cases y with
    | fin s => exact endless_infMul s
    | pinf => intro r; exact fun h => by cases h
    | ninf => intro r; exact fun h => by cases h
    | nan => intro r; exact fun h => by cases h
  | ninf => cases y with
    | fin s => exact endless_infMul (-s)
    | pinf => intro r; exact fun h => by cases h
    | ninf => intro r; exact fun h => by cases h
    | nan => intro r; exact fun h => by cases h
  | nan => rw [nan_mul]; intro r; exact fun h => by cases h

theorem mul_endless {x : XReal} (h : Endless x) (y : XReal) : Endless (y * x) := by
  have : y * x = x * y := by
    cases x <;> cases y <;> first | rfl | (show fin _ = fin _; rw [mul_comm])
  rw [this]; exact endless_mul h y

theorem endless_add {x : XReal} (h : Endless x) (y : XReal) : Endless (x + y) := by
  intro r
  cases x with
  | fin s => exact absurd rfl (h s)
  | pinf => cases y <;> exact fun h => by cases h
  | ninf => cases y <;> exact fun h => by cases h
  | nan => cases y <;> exact fun h => by cases h

theorem add_endless {x : XReal} (h : Endless x) (y : XReal) : Endless (y + x) := by
  intro r
  cases x with
  | fin s => exact absurd rfl (h s)
  | pinf => cases y <;> exact fun h => by cases h
  | ninf => cases y <;> exact fun h => by cases h
  | nan => cases y <;> exact fun h => by cases h

theorem endless_sub {x : XReal} (h : Endless x) (y : XReal) : Endless (x - y) := endless_add h (-y)

theorem endless_sqrt {x : XReal} (h : Endless x) : Endless (sqrt x) := by
  intro r
  cases x with
  | fin s => exact absurd rfl (h s)
  | pinf => exact fun h => by cases h
  | ninf => exact fun h => by cases h
  | nan => exact fun h => by cases h

theorem impact_endless (bmin bmax u : XReal) (h : Endless bmin ∨ Endless bmax) : Endless (impactFormula bmin bmax u) := by
  unfold impactFormula
  apply endless_sqrt
  rcases h with h | h
  · exact endless_add (endless_mul h _) _
  · exact add_endless (endless_mul (endless_sub (endless_mul h _) _) _) _

/-- the square of an infinite number plus any square -/
theorem endless_dist {x : XReal} (h : Endless x) (y : XReal) : sqr x + sqr y = pinf ∨ sqr x + sqr y = nan := by
  cases x with
  | fin s => exact absurd rfl (h s)
  | nan => right; rw [sqr_nan, nan_add]
  | pinf => cases y with
    | fin s => left; rfl
    | pinf => left; rfl
    | ninf => left; rfl
    | nan => right; rfl
  | ninf => cases y with
    | fin s => left; rfl
    | pinf => left; rfl
    | ninf => left; rfl
    | nan => right; rfl

/-- the overlap of two constituents at infinite distance is 0 or not a number -/
theorem endless_overlap {x : XReal} (h : Endless x) (y v : XReal) :
    exp (-(lit 0.25) * (sqr x + sqr y) / sqr v) = fin 0 ∨ exp (-(lit 0.25) * (sqr x + sqr y) / sqr v) = nan := by
  rcases endless_dist h y with e | e
  · rw [e]
    have h1 : (-(lit 0.25) * pinf : XReal) = ninf := by
      show infMul (-((lit 0.25 : ℝ))) = ninf
      unfold infMul
      rw [lit_real]
      rw [if_neg (by norm_num), if_pos (by norm_num)]
    rw [h1]
    cases v with
    | fin s =>
      left
      have : (ninf / sqr (fin s) : XReal) = ninf := by
        show (if 0 ≤ s * s then ninf else pinf) = ninf
        rw [if_pos (mul_self_nonneg s)]
      rw [this]; rfl
    | pinf => right; rfl
    | ninf => right; rfl
    | nan => right; rfl
  · right
    rw [e, mul_nan, nan_div, exp_nan]

variable {E D : Type} [Rng ℝ E D]

/-! ## Nucleons infinitely far away -/

/-- A nucleon that has not participated, infinitely far away (or at no definite place). -/
structure Lost (n : NucleonData XReal) : Prop where
  idle : n.isParticipant = false
  x : Endless n.x
  constituents : n.constituentsExist = true → ∀ c ∈ n.constituents, Endless c.x

theorem sampleConstituents_lost (nc : NucleonCommon XReal) (n : NucleonData XReal) (w : Rand E D) (h : Lost n) :
    Lost (nc.sampleConstituents n w).1 ∧ ∀ c ∈ (nc.sampleConstituents n w).1.constituents, Endless c.x := by
  unfold NucleonCommon.sampleConstituents
  by_cases he : n.constituentsExist = true
  · simp only [he, if_true]; exact ⟨h, h.constituents he⟩
  · simp only [he, Bool.false_eq_true, if_false]
    have key : ∀ cs : List (Constituent XReal), ∀ a b c : XReal,
        ∀ q ∈ (cs.map fun q => { q with x := q.x + (n.x - a), y := q.y + (b - c) }), Endless q.x := by
      intro cs a b c q hq
      obtain ⟨q', -, rfl⟩ := List.mem_map.mp hq
      exact add_endless (endless_sub h.x _) _
    exact ⟨⟨h.idle, h.x, fun _ => key _ _ _ _⟩, key _ _ _ _⟩

theorem foldl_zero_or_nan {α : Type} (f : XReal → α → XReal) (l : List α)
    (hf : ∀ x, (x = fin 0 ∨ x = nan) → ∀ a ∈ l, f x a = fin 0 ∨ f x a = nan) (x : XReal) (hx : x = fin 0 ∨ x = nan) :
    l.foldl f x = fin 0 ∨ l.foldl f x = nan := by
  induction l generalizing x with
  | nil => exact hx
  | cons a l ih =>
    rw [List.foldl_cons]
    exact ih (fun x hx b hb => hf x hx b (by simp [hb])) _ (hf x hx a (by simp))

theorem overlapSum_lost (v : XReal) (as bs : List (Constituent XReal)) (hax : ∀ c ∈ as, Endless c.x) :
    overlapSum (sqr v) as bs = fin 0 ∨ overlapSum (sqr v) as bs = nan := by
  unfold overlapSum
  refine foldl_zero_or_nan _ as (fun x hx a hma => ?_) _ (.inl (by simp))
  refine foldl_zero_or_nan _ bs (fun y hy b _ => ?_) _ hx
  dsimp only
  rcases hy with rfl | rfl
  · rcases endless_overlap (endless_sub (hax a hma) b.x) (a.y - b.y) v with e | e
    · left; rw [e]; simp
    · right; rw [e, add_nan]
  · right; rw [nan_add]

theorem oneMinusProb_lost (nc : NucleonCommon XReal) (x : XReal) (hx : x = fin 0 ∨ x = nan) : nc.oneMinusProb x = fin 1 ∨ nc.oneMinusProb x = nan := by
  unfold NucleonCommon.oneMinusProb
  rcases hx with rfl | rfl
  · generalize (-nc.sigmaPartonic * nc.prefactor / (lit 2 * ofInt nc.constituentNumber) : XReal) = c
    cases c with
    | fin r => left; rw [fin_mul, mul_zero]; show fin (exp 0) = fin 1; simp
    | pinf => right; show exp (infMul 0) = nan; simp [infMul, exp_nan]
    | ninf => right; show exp (infMul (-0)) = nan; simp [infMul, exp_nan]
    | nan => right; rfl
  · right; rw [mul_nan, exp_nan]

theorem participate_lost [LawfulRng E D] (nc : NucleonCommon XReal) (v : XReal) (hv : nc.constituentWidthSq = sqr v) (A B : NucleonData XReal) (w : Rand E D)
    (hA : Lost A) (hB : Lost B) :
    (nc.participate A B w).1.1 = false ∧ Lost (nc.participate A B w).1.2.1 ∧ Lost (nc.participate A B w).1.2.2 := by
  unfold NucleonCommon.participate
  simp only [hA.idle, Bool.false_and, Bool.false_eq_true, if_false]
  split
  · exact ⟨rfl, hA, hB⟩
  · obtain ⟨a1, a2⟩ := sampleConstituents_lost nc A w hA
    obtain ⟨b1, -⟩ := sampleConstituents_lost nc B (nc.sampleConstituents A w).2 hB
    have ho := overlapSum_lost v _ (nc.sampleConstituents B (nc.sampleConstituents A w).2).1.constituents a2
    rw [← hv] at ho
    have hp := oneMinusProb_lost nc _ ho
    have hl : ∀ w' : Rand E D, lt (nc.oneMinusProb (overlapSum nc.constituentWidthSq (nc.sampleConstituents A w).1.constituents
        (nc.sampleConstituents B (nc.sampleConstituents A w).2).1.constituents)) (canonical (F := XReal) w').1 = false := by
      intro w'
      have hu : (canonical (F := XReal) w').1 = fin (Rng.canonical (F := ℝ) (D := D) w'.eng).1 := rfl
      rw [hu]
      rcases hp with e | e
      · rw [e, fin_lt, lt_real]
        exact decide_eq_false (not_lt.mpr (LawfulRng.canonical_mem (D := D) w'.eng).2.le)
      · rw [e, nan_lt]
    simp only [hl, Bool.false_eq_true, if_false]
    exact ⟨trivial, a1, b1⟩

/-- **C110, infinity.** An infinite upper end of the range of impact parameters (`--b-max inf`), or an infinite lower end, passes all checks of the program, but then every pair of
nuclei is infinitely far apart and no pair of nucleons ever collides: whatever the other options and the random sequence, a run of at least one event never delivers a result. -/
theorem C110_inf_never_ends [LawfulRng E D] (rfuel fuel : ℕ) (o : Options XReal) (sigma : XReal) (debug : Bool)
    (h : o.bMax = pinf ∨ o.bMin = pinf ∨ o.bMin = ninf) (hN : 0 < o.numberEvents)
    (hA : NucleusHistory E D o.projectileA) (hB : NucleusHistory E D o.projectileB)
    (ev0 : (n : ℕ) → Event XReal n) (w : Rand E D) (r : (n : ℕ) × List (EventRecord XReal n)) : runAll rfuel fuel o sigma debug ev0 w ≠ .ok r := by
  have hi : ∀ u, Endless (impactFormula (Collider.make o sigma).bmin (Collider.make o sigma).bmax u) := by
    intro u
    apply impact_endless
    have e1 : (Collider.make o sigma).bmin = o.bMin := rfl
    rw [e1]
    rcases h with h | h | h
    · right
      have : (Collider.make o sigma).bmax = pinf := by
        show determineBmax o.bMax _ _ _ = pinf
        unfold determineBmax
        rw [h]
        have : lt (pinf : XReal) (lit 0) = false := rfl
        rw [this]; rfl
      rw [this]; intro r; exact fun h => by cases h
    · left; rw [h]; intro r; exact fun h => by cases h
    · left; rw [h]; intro r; exact fun h => by cases h
  refine runAll_dud rfuel fuel o sigma debug Lost ?_ ?_ (fun A B w => participate_lost _ o.constitWidth rfl A B w) hN hA hB ev0 w r
  · intro u n x y z
    exact ⟨rfl, add_endless (mul_endless (hi u) _) x, fun h => by cases h⟩
  · intro u n x y z
    exact ⟨rfl, add_endless (mul_endless (hi u) _) x, fun h => by cases h⟩

/-- A concrete case: two protons, ten events, `--b-max inf`. -/
example (rfuel fuel : ℕ) (debug : Bool) (ev0 : (n : ℕ) → Event XReal n) (w : Rand Tape Unit) (r : (n : ℕ) × List (EventRecord XReal n)) :
    runAll rfuel fuel { exampleOptions.map fin with bMax := pinf } (fin 1) debug ev0 w ≠ .ok r :=
  C110_inf_never_ends rfuel fuel _ _ debug (.inl rfl) (by simp [Options.map, exampleOptions])
    (.create false (fun _ => .missing) "p" (fin 0) _ rfl) (.create false (fun _ => .missing) "p" (fin 0) _ rfl) ev0 w r

end Trento
