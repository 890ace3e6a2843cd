import Verif.Lemmas.Rounded
import Verif.Lemmas.RunInvariant

/-! # Sampling in rounded arithmetic: every nucleon stays within a bound, and nothing but non-termination can go wrong -/

namespace Trento
open Spec
set_option linter.unusedSectionVars false
variable {M : Machine} {E D : Type} [Rng (Fl M) E D]

@[simp] theorem Fl.cbrt_val (a : Fl M) : (cbrt a).val = M.cbrt a.val := rfl
@[simp] theorem Fl.log_val (a : Fl M) : (log a).val = M.log a.val := rfl

/-- The C++ library contract for the random sources, at `double`.  (The upper end 1 of `std::generate_canonical` is allowed, it is
delivered by some implementations; rounding may put a piecewise linear variate slightly outside its support.) -/
class LawfulRngFl (M : Machine) (E D : Type) [Rng (Fl M) E D] : Prop where
  canonical_mem : ∀ e : E, 0 ≤ (Rng.canonical (F := Fl M) (D := D) e).1.val ∧ (Rng.canonical (F := Fl M) (D := D) e).1.val ≤ 1
  gamma_nonneg : ∀ (a b : Fl M) (d : D) (e : E), 0 ≤ (Rng.gamma a b d e).1.val
  piecewiseLinear_mem : ∀ (t : List (Fl M × Fl M)) (d : D) (e : E) (N : ℕ), t ≠ [] → (∀ p ∈ t, 0 ≤ p.1.val ∧ p.1.val ≤ N) →
    |(Rng.piecewiseLinear t d e).1.val| ≤ N + 1
  uniformInt_le : ∀ (k : Nat) (d : D) (e : E), (Rng.uniformInt (Fl M) k d e).1 ≤ k

section bounds
variable (M)

theorem Machine.abs_mul_unit {x y : ℝ} {N : ℕ} (hN : N < 2 ^ 53) (hx : |x| ≤ N) (hy : |y| ≤ 1) : |M.fl (x * y)| ≤ N := by
  apply M.abs_fl_le_nat hN
  rw [abs_mul]
  calc |x| * |y| ≤ N * 1 := mul_le_mul hx hy (abs_nonneg _) (Nat.cast_nonneg _)
    _ = N := mul_one _

theorem Machine.abs_add_nat {x y : ℝ} {N K : ℕ} (hN : N + K < 2 ^ 53) (hx : |x| ≤ N) (hy : |y| ≤ K) : |M.fl (x + y)| ≤ (N + K : ℕ) := by
  apply M.abs_fl_le_nat hN
  push_cast
  exact (abs_add_le _ _).trans (add_le_add hx hy)

theorem Machine.abs_sub_nat {x y : ℝ} {N K : ℕ} (hN : N + K < 2 ^ 53) (hx : |x| ≤ N) (hy : |y| ≤ K) : |M.fl (x - y)| ≤ (N + K : ℕ) := by
  apply M.abs_fl_le_nat hN
  push_cast
  exact (abs_sub _ _).trans (add_le_add hx hy)

theorem Machine.abs_mul_nat {x y : ℝ} {N K : ℕ} (hN : N * K < 2 ^ 53) (hx : |x| ≤ N) (hy : |y| ≤ K) : |M.fl (x * y)| ≤ (N * K : ℕ) := by
  apply M.abs_fl_le_nat hN
  rw [abs_mul]
  push_cast
  exact mul_le_mul hx hy (abs_nonneg _) (Nat.cast_nonneg _)

end bounds

theorem canonicalFl_mem [LawfulRngFl M E D] (w : Rand E D) : 0 ≤ (canonical (F := Fl M) w).1.val ∧ (canonical (F := Fl M) w).1.val ≤ 1 :=
  LawfulRngFl.canonical_mem (M := M) (D := D) w.eng

theorem cosTheta_fl [LawfulRngFl M E D] (w : Rand E D) : |(cosTheta (F := Fl M) w).1.val| ≤ 1 := by
  have h := canonicalFl_mem (M := M) w
  unfold cosTheta
  dsimp only
  rw [Fl.sub_val, Fl.mul_val, M.lit_two, M.lit_one]
  generalize (canonical (F := Fl M) w).1.val = u at *
  have h1 : 0 ≤ M.fl (2 * u) := M.fl_nonneg (by linarith)
  have h2 : M.fl (2 * u) ≤ 2 := by
    have := M.fl_le_int (k := 2) (by norm_num) (x := 2 * u) (by push_cast; linarith)
    exact_mod_cast this
  apply M.abs_fl_le_one
  rw [abs_le]; constructor <;> linarith

theorem sinFromCos_fl {c : Fl M} (_h : |c.val| ≤ 1) : 0 ≤ (sqrt (lit 1 - c * c)).val ∧ (sqrt (lit 1 - c * c)).val ≤ 1 := by
  rw [Fl.sqrt_val, Fl.sub_val, Fl.mul_val, M.lit_one]
  have h1 : 0 ≤ M.fl (c.val * c.val) := M.fl_nonneg (mul_self_nonneg _)
  have h2 : M.fl (1 - M.fl (c.val * c.val)) ≤ 1 := by
    have := M.fl_le_int (k := 1) (by norm_num) (x := 1 - M.fl (c.val * c.val)) (by push_cast; linarith)
    exact_mod_cast this
  have h3 : Real.sqrt (M.fl (1 - M.fl (c.val * c.val))) ≤ 1 := (Real.sqrt_le_sqrt h2).trans Real.sqrt_one.le
  refine ⟨M.fl_nonneg (Real.sqrt_nonneg _), ?_⟩
  have := M.fl_le_int (k := 1) (by norm_num) (x := Real.sqrt (M.fl (1 - M.fl (c.val * c.val)))) (by push_cast; exact h3)
  exact_mod_cast this

theorem sinFromCos_abs {c : Fl M} (h : |c.val| ≤ 1) : |(sqrt (lit 1 - c * c)).val| ≤ 1 := by
  obtain ⟨h1, h2⟩ := sinFromCos_fl h
  rw [abs_of_nonneg h1]; exact h2

theorem spherical_fl {r c ph : Fl M} {N : ℕ} (hN : N < 2 ^ 53) (hr : |r.val| ≤ N) (hc : |c.val| ≤ 1) :
    |(spherical r c ph).1.val| ≤ N ∧ |(spherical r c ph).2.1.val| ≤ N ∧ |(spherical r c ph).2.2.val| ≤ N := by
  unfold spherical
  dsimp only
  have h1 : |(r * sqrt (lit 1 - c * c)).val| ≤ N := by
    rw [Fl.mul_val]; exact M.abs_mul_unit hN hr (sinFromCos_abs hc)
  refine ⟨?_, ?_, ?_⟩
  · rw [Fl.mul_val, Fl.cos_val]; exact M.abs_mul_unit hN h1 (M.cos_mem _)
  · rw [Fl.mul_val, Fl.sin_val]; exact M.abs_mul_unit hN h1 (M.sin_mem _)
  · rw [Fl.mul_val]; exact M.abs_mul_unit hN hr hc

/-- A nucleon whose transverse coordinates are bounded (`X` along the impact parameter, `Y` across), freshly placed. -/
def PlacedFl (X Y : ℕ) (n : NucleonData (Fl M)) : Prop := |n.x.val| ≤ X ∧ |n.y.val| ≤ Y

theorem setNucleonPosition_fl {N K : ℕ} (hN : N + K < 2 ^ 53) {off : Fl M} (ho : |off.val| ≤ K) (n : NucleonData (Fl M)) {x y : Fl M} (z : Fl M)
    (hx : |x.val| ≤ N) (hy : |y.val| ≤ N) : PlacedFl (N + K) N (setNucleonPosition off n x y z) := by
  refine ⟨?_, hy⟩
  show |(x + off).val| ≤ _
  rw [Fl.add_val]
  exact M.abs_add_nat hN hx ho

/-- The reach of a nucleus in rounded arithmetic: sampled nucleons are within `N` of the offset in each transverse coordinate. -/
def Spec.ReachFl (M : Machine) (E D : Type) [Rng (Fl M) E D] (kind : Kind (Fl M)) (N : ℕ) : Prop :=
  ∀ (nuc nuc' : Nucleus (Fl M)) (rfuel : Nat) (off : Fl M) (w w' : Rand E D) (K : ℕ), NucleusHistory E D nuc → nuc.kind = kind →
    |off.val| ≤ K → N + K < 2 ^ 53 → nuc.sampleNucleons rfuel off w = .ok (nuc', w') → ∀ n ∈ nuc'.nucleons, PlacedFl (N + K) N n

theorem reachFl_proton : ReachFl M E D .proton 0 := by
  intro nuc nuc' rfuel off w w' K hh hk ho hK hs n hn
  have hw := hh.wf
  unfold Nucleus.WF at hw
  rw [hk] at hw
  obtain ⟨m1, hm⟩ := List.length_eq_one_iff.mp hw
  unfold Nucleus.sampleNucleons at hs
  simp only [hk, hm, sampleProton, Except.ok.injEq, Prod.mk.injEq] at hs
  rw [← hs.1] at hn
  simp only [List.mem_singleton] at hn
  rw [hn]
  exact setNucleonPosition_fl hK ho _ _ (by rw [M.lit_zero]; simp) (by rw [M.lit_zero]; simp)

/-! ### Woods–Saxon -/

theorem mem_insertBy {α : Type} (key : α → Fl M) (a b : α) (l : List α) : b ∈ insertBy key a l ↔ b = a ∨ b ∈ l := by
  induction l with
  | nil => simp [insertBy]
  | cons c l ih =>
    unfold insertBy
    split
    · simp only [List.mem_cons, ih]; tauto
    · simp only [List.mem_cons]

theorem mem_sortBy {α : Type} (key : α → Fl M) (b : α) (l : List α) : b ∈ sortBy key l ↔ b ∈ l := by
  induction l with
  | nil => simp [sortBy]
  | cons a l ih => unfold sortBy; rw [mem_insertBy, ih, List.mem_cons]

theorem length_insertBy {α : Type} (key : α → Fl M) (a : α) (l : List α) : (insertBy key a l).length = l.length + 1 := by
  induction l with
  | nil => rfl
  | cons c l ih => unfold insertBy; split <;> simp [ih]

theorem length_sortBy {α : Type} (key : α → Fl M) (l : List α) : (sortBy key l).length = l.length := by
  induction l with
  | nil => rfl
  | cons a l ih => unfold sortBy; rw [length_insertBy, ih, List.length_cons]

/-- The breakpoints of the Woods–Saxon table lie in `[0, N + 1]`. -/
theorem woodsSaxonTable_fl {R a : Fl M} {N : ℕ} (hN : N ≤ 10^15) (h0 : 0 ≤ (R + lit 10 * a).val) (h : (R + lit 10 * a).val ≤ N) :
    woodsSaxonTable R a ≠ [] ∧ ∀ p ∈ woodsSaxonTable R a, 0 ≤ p.1.val ∧ p.1.val ≤ (N + 1 : ℕ) := by
  unfold woodsSaxonTable linearTable
  dsimp only
  constructor
  · intro hc
    have := congrArg List.length hc
    simp at this
  · intro p hp
    obtain ⟨k, hk, rfl⟩ := List.mem_map.1 hp
    rw [List.mem_range] at hk
    dsimp only
    rw [Fl.add_val, Fl.mul_val, Fl.div_val, Fl.sub_val, M.lit_zero, sub_zero,
      M.ofInt_exact ((1000:ℕ):ℤ) (by norm_num), M.ofInt_exact (k:ℤ) (by rw [Nat.abs_cast]; exact_mod_cast (by omega : k < 2^53)), zero_add]
    generalize (R + lit 10 * a).val = x at *
    have hNr : (N:ℝ) ≤ 1e15 := by
      have : ((N:ℕ):ℝ) ≤ ((10^15:ℕ):ℝ) := by exact_mod_cast hN
      norm_num at this ⊢; exact this
    have x0 : 0 ≤ M.fl x := M.fl_nonneg h0
    have x1 : M.fl x ≤ N := by
      have := M.abs_fl_le_nat (k := N) (by omega) (x := x) (by rw [abs_of_nonneg h0]; exact h)
      exact (le_abs_self _).trans this
    have d0 : 0 ≤ M.fl x / ((1000:ℕ):ℤ) := by positivity
    have e0 : 0 ≤ M.fl (M.fl x / ((1000:ℕ):ℤ)) := M.fl_nonneg d0
    have herr := M.fl_err (M.fl x / ((1000:ℕ):ℤ))
    rw [abs_of_nonneg d0] at herr
    have herr := (abs_le.1 herr).2
    have hu := Machine.uRound_le
    have hu0 := Machine.uRound_pos
    have hη := Machine.etaRound_le
    have hk' : ((k:ℤ):ℝ) ≤ 1000 := by
      have : ((k:ℕ):ℝ) ≤ ((1000:ℕ):ℝ) := by exact_mod_cast (by omega : k ≤ 1000)
      push_cast at this ⊢; exact this
    have hk0 : (0:ℝ) ≤ ((k:ℤ):ℝ) := by positivity
    push_cast at d0 e0 herr ⊢
    push_cast at hk' hk0
    generalize M.fl x = y at *
    generalize M.fl (y / 1000) = d at *
    have hd : d ≤ (N + 0.5) / 1000 := by
      have h1 : uRound * (y / 1000) ≤ 1.2e-16 * (1e15 / 1000) := mul_le_mul hu (by linarith) d0 (by norm_num)
      linarith
    have hkd0 : 0 ≤ (k:ℝ) * d := mul_nonneg hk0 e0
    have hkd : (k:ℝ) * d ≤ N + 1 := by
      have : (k:ℝ) * d ≤ 1000 * ((N + 0.5) / 1000) := mul_le_mul hk' hd e0 (by norm_num)
      linarith
    have f1 := M.abs_fl_le_nat (k := N + 1) (by omega) (x := (k:ℝ) * d) (by rw [abs_of_nonneg hkd0]; push_cast; exact hkd)
    have f0 := M.fl_nonneg hkd0
    have f2 := M.abs_fl_le_nat (k := N + 1) (by omega) (x := M.fl ((k:ℝ) * d)) f1
    refine ⟨M.fl_nonneg f0, (le_abs_self _).trans ?_⟩
    push_cast at f2; exact f2

theorem drawRadii_fl [LawfulRngFl M E D] {R a : Fl M} {N : ℕ} (hN : N ≤ 10^15) (h0 : 0 ≤ (R + lit 10 * a).val) (h : (R + lit 10 * a).val ≤ N)
    (k : ℕ) (w : Rand E D) : ∀ r ∈ (drawRadii R a k w).1, |r.val| ≤ (N + 2 : ℕ) := by
  induction k generalizing w with
  | zero => simp [drawRadii]
  | succ k ih =>
    intro r hr
    unfold drawRadii at hr
    dsimp only at hr
    rcases List.mem_cons.1 hr with rfl | hr
    · obtain ⟨t1, t2⟩ := woodsSaxonTable_fl hN h0 h
      have := LawfulRngFl.piecewiseLinear_mem (woodsSaxonTable R a) w.dist w.eng (N + 1) t1 t2
      unfold drawPiecewiseLinear
      push_cast at this ⊢
      linarith
    · exact ih _ r hr

theorem placeWS_fl [LawfulRngFl M E D] {off dm r : Fl M} {N K : ℕ} (hK : N + K < 2 ^ 53) (ho : |off.val| ≤ K) (hr : |r.val| ≤ N)
    (placed : List (NucleonData (Fl M))) (left : ℕ) (n : NucleonData (Fl M)) (w : Rand E D) (hl : 0 < left) :
    PlacedFl (N + K) N (placeWS off dm r placed left n w).1 := by
  induction left generalizing n w with
  | zero => omega
  | succ left ih =>
    unfold placeWS
    dsimp only
    split
    · rename_i hc
      have : 0 < left := by
        simp only [Bool.and_eq_true, decide_eq_true_eq] at hc
        exact hc.1
      exact ih _ _ this
    · obtain ⟨h1, h2, -⟩ := spherical_fl (M := M) (ph := (phi (F := Fl M) (cosTheta (F := Fl M) w).2).1) (by omega : N < 2^53) hr (cosTheta_fl w)
      exact setNucleonPosition_fl hK ho _ _ h1 h2

theorem placeAllWS_fl [LawfulRngFl M E D] {off dm : Fl M} {N K : ℕ} (hK : N + K < 2 ^ 53) (ho : |off.val| ≤ K) :
    ∀ (ns placed : List (NucleonData (Fl M))) (rs : List (Fl M)) (w : Rand E D), rs.length = ns.length → (∀ r ∈ rs, |r.val| ≤ N) →
      (∀ n ∈ placed, PlacedFl (N + K) N n) → ∀ n ∈ (placeAllWS off dm placed rs ns w).1, PlacedFl (N + K) N n := by
  intro ns
  induction ns with
  | nil =>
    intro placed rs w hl hr hp
    cases rs with
    | nil => unfold placeAllWS; simpa using hp
    | cons r rs => simp at hl
  | cons n ns ih =>
    intro placed rs w hl hr hp
    cases rs with
    | nil => simp at hl
    | cons r rs =>
      unfold placeAllWS
      dsimp only
      apply ih _ rs _ (by simpa using hl) (fun r' h' => hr r' (by simp [h']))
      intro n' hn'
      rcases List.mem_append.1 hn' with h1 | h1
      · exact hp n' h1
      · rw [List.mem_singleton] at h1
        rw [h1]
        exact placeWS_fl hK ho (hr r (by simp)) placed 1000 n w (by norm_num)

/-- Woods–Saxon nucleons are within `R + 10 a` (rounded up, plus 2). -/
theorem reachFl_woodsSaxon [LawfulRngFl M E D] (R a d : Fl M) {N : ℕ} (hN : N ≤ 10^15) (h0 : 0 ≤ (R + lit 10 * a).val)
    (h : (R + lit 10 * a).val ≤ N) : ReachFl M E D (.woodsSaxon R a d) (N + 2) := by
  intro nuc nuc' rfuel off w w' K hh hk ho hK hs n hn
  unfold Nucleus.sampleNucleons at hs
  simp only [hk, Except.ok.injEq, Prod.mk.injEq, sampleWS] at hs
  rw [← hs.1] at hn
  refine placeAllWS_fl hK ho _ _ _ _ ?_ ?_ (by simp) n hn
  · rw [length_sortBy, drawRadii_length]
  · intro r hr
    rw [mem_sortBy] at hr
    exact drawRadii_fl hN h0 h _ w r hr

/-! ### Deformed -/

theorem deformedReject_fl [LawfulRngFl M E D] {R a b2 b4 rmax : Fl M} {N : ℕ} (hN : N < 2 ^ 53) (hr : |rmax.val| ≤ N) (fuel : ℕ) (w w' : Rand E D)
    (s : Fl M × Fl M) (h : deformedReject R a b2 b4 rmax fuel w = .ok (s, w')) : |s.1.val| ≤ N ∧ |s.2.val| ≤ 1 := by
  induction fuel generalizing w with
  | zero => cases h
  | succ fuel ih =>
    rw [deformedReject] at h
    dsimp only at h
    split at h
    · exact ih _ h
    · simp only [Except.ok.injEq, Prod.mk.injEq] at h
      rw [← h.1]
      refine ⟨?_, cosTheta_fl _⟩
      have hu := canonicalFl_mem (M := M) w
      obtain ⟨c0, c1⟩ := M.cbrt_mem _ hu.1 hu.2
      show |(rmax * cbrt (canonical (F := Fl M) w).1).val| ≤ N
      rw [Fl.mul_val, Fl.cbrt_val]
      exact M.abs_mul_unit hN hr (by rw [abs_of_nonneg c0]; exact c1)

theorem drawDeformed_fl [LawfulRngFl M E D] {R a b2 b4 rmax : Fl M} {N : ℕ} (hN : N < 2 ^ 53) (hr : |rmax.val| ≤ N) (fuel k : ℕ) (w w' : Rand E D)
    (ss : List (Fl M × Fl M)) (h : drawDeformed fuel R a b2 b4 rmax k w = .ok (ss, w')) :
    ss.length = k ∧ ∀ s ∈ ss, |s.1.val| ≤ N ∧ |s.2.val| ≤ 1 := by
  induction k generalizing w ss with
  | zero =>
    simp only [drawDeformed, Except.ok.injEq, Prod.mk.injEq] at h
    rw [← h.1]; simp
  | succ k ih =>
    rw [drawDeformed] at h
    cases hd : deformedReject R a b2 b4 rmax fuel w with
    | error e => simp only [hd] at h; cases h
    | ok r =>
      obtain ⟨s, w1⟩ := r
      simp only [hd] at h
      cases hr' : drawDeformed fuel R a b2 b4 rmax k w1 with
      | error e => simp only [hr'] at h; cases h
      | ok r =>
        obtain ⟨ss', w2⟩ := r
        simp only [hr', Except.ok.injEq, Prod.mk.injEq] at h
        obtain ⟨i1, i2⟩ := ih _ _ (by rw [hr', h.2])
        rw [← h.1]
        refine ⟨by simp [i1], ?_⟩
        intro s' hs'
        rcases List.mem_cons.1 hs' with rfl | hs'
        · exact deformedReject_fl hN hr fuel w _ _ hd
        · exact i2 s' hs'

theorem rotateTS_fl {t : TiltSpin (Fl M)} {x y z : Fl M} {N : ℕ} (hN : 3 * N < 2 ^ 53) (h1 : |t.cosA.val| ≤ 1) (h2 : |t.sinA.val| ≤ 1)
    (h3 : |t.cosB.val| ≤ 1) (h4 : |t.sinB.val| ≤ 1) (hx : |x.val| ≤ N) (hy : |y.val| ≤ N) (hz : |z.val| ≤ N) :
    |(rotateTS t x y z).1.val| ≤ (3 * N : ℕ) ∧ |(rotateTS t x y z).2.1.val| ≤ (3 * N : ℕ) := by
  have hN1 : N < 2 ^ 53 := by omega
  have e : (3 * N : ℕ) = N + N + N := by ring
  have m1 := fun {a b : ℝ} (ha : |a| ≤ (N:ℝ)) (hb : |b| ≤ 1) => M.abs_mul_unit hN1 ha hb
  unfold rotateTS
  dsimp only
  rw [e]
  constructor
  · simp only [Fl.add_val, Fl.sub_val, Fl.mul_val]
    exact M.abs_add_nat (by omega) (M.abs_sub_nat (by omega) (m1 hx h3) (m1 (m1 hy h1) h4)) (m1 (m1 hz h2) h4)
  · simp only [Fl.add_val, Fl.sub_val, Fl.mul_val]
    exact M.abs_sub_nat (by omega) (M.abs_add_nat (by omega) (m1 hx h4) (m1 (m1 hy h1) h3)) (m1 (m1 hz h2) h3)

theorem placeDef_fl {off dm : Fl M} {t : TiltSpin (Fl M)} {N K : ℕ} (hK : 3 * N + K < 2 ^ 53) (ho : |off.val| ≤ K)
    (h1 : |t.cosA.val| ≤ 1) (h2 : |t.sinA.val| ≤ 1) (h3 : |t.cosB.val| ≤ 1) (h4 : |t.sinB.val| ≤ 1) {rSin : Fl M} (hr : |rSin.val| ≤ N)
    (placed : List (NucleonData (Fl M))) (left : ℕ) (z : Fl M) (hz : |z.val| ≤ N) (n : NucleonData (Fl M)) (w : Rand E D) (hl : 0 < left) :
    PlacedFl (3 * N + K) (3 * N) (placeDef off dm t rSin placed left z n w).1 := by
  induction left generalizing n w z with
  | zero => omega
  | succ left ih =>
    have hN1 : N < 2 ^ 53 := by omega
    unfold placeDef
    dsimp only
    split
    · rename_i hc
      have : 0 < left := by
        simp only [Bool.and_eq_true, decide_eq_true_eq] at hc
        exact hc.1
      refine ih _ ?_ _ _ this
      rw [Fl.mul_val, M.lit_exact (-1) (-1) 0 (by norm_num) (by norm_num) (by norm_num)]
      exact M.abs_mul_unit hN1 hz (by norm_num)
    · have hx : |(rSin * cos (phi (F := Fl M) w).1).val| ≤ N := by rw [Fl.mul_val, Fl.cos_val]; exact M.abs_mul_unit hN1 hr (M.cos_mem _)
      have hy : |(rSin * sin (phi (F := Fl M) w).1).val| ≤ N := by rw [Fl.mul_val, Fl.sin_val]; exact M.abs_mul_unit hN1 hr (M.sin_mem _)
      obtain ⟨g1, g2⟩ := rotateTS_fl (M := M) (t := t) (by omega) h1 h2 h3 h4 hx hy hz
      exact setNucleonPosition_fl hK ho _ _ g1 g2

theorem placeAllDef_fl {off dm : Fl M} {t : TiltSpin (Fl M)} {N K : ℕ} (hK : 3 * N + K < 2 ^ 53) (ho : |off.val| ≤ K)
    (h1 : |t.cosA.val| ≤ 1) (h2 : |t.sinA.val| ≤ 1) (h3 : |t.cosB.val| ≤ 1) (h4 : |t.sinB.val| ≤ 1) :
    ∀ (ns placed : List (NucleonData (Fl M))) (rs : List (Fl M × Fl M)) (w : Rand E D), rs.length = ns.length →
      (∀ r ∈ rs, |r.1.val| ≤ N ∧ |r.2.val| ≤ 1) →
      (∀ n ∈ placed, PlacedFl (3 * N + K) (3 * N) n) → ∀ n ∈ (placeAllDef off dm t placed rs ns w).1, PlacedFl (3 * N + K) (3 * N) n := by
  intro ns
  induction ns with
  | nil =>
    intro placed rs w hl hr hp
    cases rs with
    | nil => unfold placeAllDef; simpa using hp
    | cons r rs => simp at hl
  | cons n ns ih =>
    intro placed rs w hl hr hp
    cases rs with
    | nil => simp at hl
    | cons r rs =>
      unfold placeAllDef
      dsimp only
      apply ih _ rs _ (by simpa using hl) (fun r' h' => hr r' (by simp [h']))
      intro n' hn'
      rcases List.mem_append.1 hn' with g1 | g1
      · exact hp n' g1
      · rw [List.mem_singleton] at g1
        rw [g1]
        have hN1 : N < 2 ^ 53 := by omega
        obtain ⟨q1, q2⟩ := hr r (by simp)
        refine placeDef_fl hK ho h1 h2 h3 h4 ?_ placed 1000 _ ?_ n w (by norm_num)
        · rw [Fl.mul_val]; exact M.abs_mul_unit hN1 q1 (sinFromCos_abs q2)
        · rw [Fl.mul_val]; exact M.abs_mul_unit hN1 q1 q2

theorem drawTiltSpin_fl [LawfulRngFl M E D] (w : Rand E D) : |(drawTiltSpin (F := Fl M) w).1.cosA.val| ≤ 1 ∧ |(drawTiltSpin (F := Fl M) w).1.sinA.val| ≤ 1 ∧
    |(drawTiltSpin (F := Fl M) w).1.cosB.val| ≤ 1 ∧ |(drawTiltSpin (F := Fl M) w).1.sinB.val| ≤ 1 := by
  unfold drawTiltSpin
  dsimp only
  have := cosTheta_fl (M := M) w
  exact ⟨this, sinFromCos_abs this, M.cos_mem _, M.sin_mem _⟩

theorem reachFl_deformed [LawfulRngFl M E D] (R a b2 b4 rmax d : Fl M) {N : ℕ} (h : |rmax.val| ≤ N) :
    ReachFl M E D (.deformed R a b2 b4 rmax d) (3 * N) := by
  intro nuc nuc' rfuel off w w' K hh hk ho hK hs n hn
  unfold Nucleus.sampleNucleons at hs
  simp only [hk, sampleDeformed] at hs
  cases hd : drawDeformed rfuel R a b2 b4 rmax nuc.nucleons.length (drawTiltSpin (F := Fl M) w).2 with
  | error e => simp only [hd] at hs; cases hs
  | ok r =>
    obtain ⟨ss, w1⟩ := r
    simp only [hd, Except.ok.injEq, Prod.mk.injEq] at hs
    rw [← hs.1] at hn
    obtain ⟨d1, d2⟩ := drawDeformed_fl (by omega) h _ _ _ _ _ hd
    obtain ⟨t1, t2, t3, t4⟩ := drawTiltSpin_fl (M := M) w
    refine placeAllDef_fl hK ho t1 t2 t3 t4 _ _ _ _ ?_ ?_ (by simp) n hn
    · rw [length_sortBy, d1]
    · intro r hr
      rw [mem_sortBy] at hr
      exact d2 r hr

/-! ### Manual -/

theorem rotateEuler_fl {e : Euler (Fl M)} {x y z : Fl M} {N : ℕ} (hN : 5 * N < 2 ^ 53) (h1 : |e.c1.val| ≤ 1) (h2 : |e.s1.val| ≤ 1)
    (h3 : |e.c2.val| ≤ 1) (h4 : |e.s2.val| ≤ 1) (h5 : |e.c3.val| ≤ 1) (h6 : |e.s3.val| ≤ 1) (hx : |x.val| ≤ N) (hy : |y.val| ≤ N) (hz : |z.val| ≤ N) :
    |(rotateEuler e x y z).1.val| ≤ (5 * N : ℕ) ∧ |(rotateEuler e x y z).2.1.val| ≤ (5 * N : ℕ) := by
  have hN1 : N < 2 ^ 53 := by omega
  have e5 : (5 * N : ℕ) = N * 2 + N * 2 + N := by ring
  have m1 := fun {a b : ℝ} (ha : |a| ≤ (N:ℝ)) (hb : |b| ≤ 1) => M.abs_mul_unit hN1 ha hb
  have u1 : ∀ {a b : ℝ}, |a| ≤ 1 → |b| ≤ 1 → |M.fl (a * b)| ≤ 1 := by
    intro a b ha hb
    apply M.abs_fl_le_one
    rw [abs_mul]
    exact mul_le_one₀ ha (abs_nonneg _) hb
  have u2 : ∀ {a b : ℝ}, |a| ≤ 1 → |b| ≤ 1 → |M.fl (a - b)| ≤ (2:ℕ) := by
    intro a b ha hb
    exact M.abs_sub_nat (N := 1) (K := 1) (by norm_num) (by simpa using ha) (by simpa using hb)
  have u3 : ∀ {a b : ℝ}, |a| ≤ 1 → |b| ≤ 1 → |M.fl (a + b)| ≤ (2:ℕ) := by
    intro a b ha hb
    exact M.abs_add_nat (N := 1) (K := 1) (by norm_num) (by simpa using ha) (by simpa using hb)
  have m2 := fun {a b : ℝ} (ha : |a| ≤ (N:ℝ)) (hb : |b| ≤ (2:ℕ)) => M.abs_mul_nat (N := N) (K := 2) (by omega) ha hb
  unfold rotateEuler
  dsimp only
  rw [e5]
  constructor
  · simp only [Fl.add_val, Fl.sub_val, Fl.mul_val]
    exact M.abs_add_nat (by omega) (M.abs_sub_nat (by omega) (m2 hx (u2 (u1 h1 h5) (u1 (u1 h3 h2) h6)))
      (m2 hy (u3 (u1 h5 h2) (u1 (u1 h1 h3) h6)))) (m1 (m1 hz h4) h6)
  · simp only [Fl.add_val, Fl.sub_val, Fl.mul_val]
    exact M.abs_sub_nat (by omega) (M.abs_sub_nat (by omega) (m2 hx (u3 (u1 h1 h6) (u1 (u1 h3 h5) h2)))
      (m2 hy (u2 (u1 h2 h6) (u1 (u1 h1 h3) h5)))) (m1 (m1 hz h5) h4)

theorem placeManual_fl {off : Fl M} {e : Euler (Fl M)} {N K : ℕ} (hK : 5 * N + K < 2 ^ 53) (ho : |off.val| ≤ K) (h1 : |e.c1.val| ≤ 1) (h2 : |e.s1.val| ≤ 1)
    (h3 : |e.c2.val| ≤ 1) (h4 : |e.s2.val| ≤ 1) (h5 : |e.c3.val| ≤ 1) (h6 : |e.s3.val| ≤ 1) :
    ∀ (ps : List (Fl M × Fl M × Fl M)) (ns ns' : List (NucleonData (Fl M))), (∀ p ∈ ps, |p.1.val| ≤ N ∧ |p.2.1.val| ≤ N ∧ |p.2.2.val| ≤ N) →
      placeManual off e ps ns = .ok ns' → ∀ n ∈ ns', PlacedFl (5 * N + K) (5 * N) n := by
  intro ps ns
  induction ns generalizing ps with
  | nil =>
    intro ns' hp h
    unfold placeManual at h
    cases h; simp
  | cons n ns ih =>
    intro ns' hp h
    cases ps with
    | nil => unfold placeManual at h; cases h
    | cons p ps =>
      obtain ⟨x, y, z⟩ := p
      unfold placeManual at h
      cases hr : placeManual off e ps ns with
      | error er => simp only [hr] at h; cases h
      | ok ns1 =>
        simp only [hr, Except.ok.injEq] at h
        rw [← h]
        intro n' hn'
        rcases List.mem_cons.1 hn' with rfl | hn'
        · obtain ⟨p1, p2, p3⟩ := hp (x, y, z) (by simp)
          obtain ⟨g1, g2⟩ := rotateEuler_fl (M := M) (e := e) (by omega) h1 h2 h3 h4 h5 h6 p1 p2 p3
          exact setNucleonPosition_fl hK ho _ _ g1 g2
        · exact ih ps ns1 (fun p hp' => hp p (by simp [hp'])) hr n' hn'

theorem reachFl_manual [LawfulRngFl M E D] (configs : List (List (Fl M × Fl M × Fl M))) (rmax : Fl M) {N : ℕ}
    (h : ∀ c ∈ configs, ∀ p ∈ c, |p.1.val| ≤ N ∧ |p.2.1.val| ≤ N ∧ |p.2.2.val| ≤ N) : ReachFl M E D (.manual configs rmax) (5 * N) := by
  intro nuc nuc' rfuel off w w' K hh hk ho hK hs n hn
  unfold Nucleus.sampleNucleons at hs
  simp only [hk, sampleManual] at hs
  split at hs
  · cases hs
  · rename_i ns w1 hm
    split at hm
    · cases hm
    · rename_i ps hps
      split at hm
      · cases hm
      · rename_i ns1 hpl
        simp only [Except.ok.injEq, Prod.mk.injEq] at hm hs
        rw [← hs.1, ← hm.1] at hn
        have hc : |(drawEuler (F := Fl M) w).1.c2.val| ≤ 1 := cosTheta_fl _
        exact placeManual_fl hK ho (M.cos_mem _) (M.sin_mem _) hc (sinFromCos_abs hc) (M.cos_mem _) (M.sin_mem _) ps _ _
          (h ps (List.mem_of_getElem? hps)) hpl n hn

/-! ### Deuteron -/

theorem deuteronLoop_fl {a b : Fl M} {N : ℕ} (hr : ∀ e : E, |(deuteronRadius a (Rng.canonical (F := Fl M) (D := D) e).1).val| ≤ N) (fuel : ℕ) (w w' : Rand E D)
    (r : Fl M) (h : deuteronLoop a b fuel w = .ok (r, w')) : |r.val| ≤ N := by
  induction fuel generalizing w with
  | zero => cases h
  | succ fuel ih =>
    rw [deuteronLoop] at h
    dsimp only at h
    split at h
    · exact ih _ h
    · simp only [Except.ok.injEq, Prod.mk.injEq] at h
      rw [← h.1]; exact hr w.eng

/-- Deuterons: if no uniform number is so small that the radius `-log u / (2a)` exceeds `N`. -/
theorem reachFl_deuteron [LawfulRngFl M E D] (a b : Fl M) {N : ℕ}
    (hr : ∀ e : E, |(deuteronRadius a (Rng.canonical (F := Fl M) (D := D) e).1).val| ≤ N) : ReachFl M E D (.deuteron a b) N := by
  intro nuc nuc' rfuel off w w' K hh hk ho hK hs n hn
  have hw := hh.wf
  unfold Nucleus.WF at hw
  rw [hk] at hw
  obtain ⟨m1, m2, hm⟩ := List.length_eq_two.mp hw
  unfold Nucleus.sampleNucleons at hs
  simp only [hk, sampleDeuteron, hm] at hs
  cases hd : deuteronLoop a b rfuel w with
  | error e => simp only [hd] at hs; cases hs
  | ok r =>
    obtain ⟨r, w1⟩ := r
    simp only [hd, Except.ok.injEq, Prod.mk.injEq] at hs
    rw [← hs.1] at hn
    have hrr := deuteronLoop_fl hr _ _ _ _ hd
    obtain ⟨g1, g2, -⟩ := spherical_fl (M := M) (ph := (phi (F := Fl M) (cosTheta (F := Fl M) w1).2).1) (by omega : N < 2^53) hrr (cosTheta_fl w1)
    simp only [List.mem_cons, List.not_mem_nil, or_false] at hn
    rcases hn with rfl | rfl
    · exact setNucleonPosition_fl hK ho _ _ g1 g2
    · exact setNucleonPosition_fl hK ho _ _ (by rw [Fl.neg_val, abs_neg]; exact g1) (by rw [Fl.neg_val, abs_neg]; exact g2)

end Trento
