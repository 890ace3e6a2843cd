import Verif.Props.RoundedSafe
import Verif.Props.ExampleRun

/-! # C77, C78: the documented species with ordinary options, and a concrete run in rounded arithmetic -/

namespace Trento
open Spec
set_option linter.unusedSectionVars false
variable {M : Machine} {E D : Type} [Rng (Fl M) E D]

/-! ## Documented species -/

theorem lit_abs_le (q : ℚ) (k : ℕ) (hk : k < 2 ^ 53) (h : |q| ≤ k) : |(lit q : Fl M).val| ≤ k := by
  rw [Fl.lit_val]
  apply M.abs_fl_le_nat hk
  exact_mod_cast h

theorem reachFl_mono {kind : Kind (Fl M)} {N N' : ℕ} (h : N ≤ N') (hr : ReachFl M E D kind N) : ReachFl M E D kind N' := by
  intro nuc nuc' rfuel off w w' K hh hk ho hK hs n hn
  obtain ⟨h1, h2⟩ := hr nuc nuc' rfuel off w w' K hh hk ho (by omega) hs n hn
  have c1 : ((N + K : ℕ):ℝ) ≤ (N' + K : ℕ) := Nat.cast_le.2 (by omega)
  have c2 : ((N : ℕ):ℝ) ≤ (N' : ℕ) := Nat.cast_le.2 h
  exact ⟨h1.trans c1, h2.trans c2⟩

theorem ws_fl [LawfulRngFl M E D] (A : ℕ) (R a : ℚ) (d : Fl M) (hR0 : 0 ≤ R) (hR : R ≤ 7) (ha0 : 0 ≤ a) (ha : a ≤ 1) :
    NonEmptyConfigs (mkWoodsSaxon A (lit R) (lit a) d : Nucleus (Fl M)).kind ∧
    ReachFl M E D (mkWoodsSaxon A (lit R) (lit a) d : Nucleus (Fl M)).kind 100 ∧ (mkWoodsSaxon A (lit R) (lit a) d : Nucleus (Fl M)).radius.val ≤ 100 := by
  have hR' := lit_abs_le (M := M) R 7 (by norm_num) (by rw [abs_of_nonneg hR0]; exact_mod_cast hR)
  have ha' := lit_abs_le (M := M) a 1 (by norm_num) (by rw [abs_of_nonneg ha0]; exact_mod_cast ha)
  have h10 := lit_abs_le (M := M) 10 10 (by norm_num) (by norm_num)
  have h3 := lit_abs_le (M := M) 3 3 (by norm_num) (by norm_num)
  have hm := M.abs_mul_nat (by norm_num : 10 * 1 < 2 ^ 53) h10 ha'
  have hm3 := M.abs_mul_nat (by norm_num : 3 * 1 < 2 ^ 53) h3 ha'
  have hs := M.abs_add_nat (by norm_num : 7 + 10 * 1 < 2 ^ 53) hR' hm
  have hs3 := M.abs_add_nat (by norm_num : 7 + 3 * 1 < 2 ^ 53) hR' hm3
  refine ⟨trivial, ?_, ?_⟩
  · refine reachFl_mono (N := 7 + 10 * 1 + 2) (by norm_num) (reachFl_woodsSaxon _ _ _ (by norm_num) ?_ ?_)
    · have lit0 : ∀ q : ℚ, 0 ≤ q → 0 ≤ (lit q : Fl M).val := fun q hq => by rw [Fl.lit_val]; exact M.fl_nonneg (by exact_mod_cast hq)
      exact M.fl_nonneg (add_nonneg (lit0 R hR0) (M.fl_nonneg (mul_nonneg (lit0 10 (by norm_num)) (lit0 a ha0))))
    · exact (le_abs_self _).trans hs
  · refine (le_abs_self _).trans (hs3.trans ?_)
    norm_num

theorem def_fl [LawfulRngFl M E D] (A : ℕ) (R a b2 b4 : ℚ) (d : Fl M) (hR : |R| ≤ 7) (ha : |a| ≤ 1) (hb2 : |b2| ≤ 1) (hb4 : |b4| ≤ 1) :
    NonEmptyConfigs (mkDeformed A (lit R) (lit a) (lit b2) (lit b4) d : Nucleus (Fl M)).kind ∧
    ReachFl M E D (mkDeformed A (lit R) (lit a) (lit b2) (lit b4) d : Nucleus (Fl M)).kind 100 ∧
    (mkDeformed A (lit R) (lit a) (lit b2) (lit b4) d : Nucleus (Fl M)).radius.val ≤ 100 := by
  have hR' := lit_abs_le (M := M) R 7 (by norm_num) (by exact_mod_cast hR)
  have ha' := lit_abs_le (M := M) a 1 (by norm_num) (by exact_mod_cast ha)
  have hfab : ∀ b : ℚ, |b| ≤ 1 → |(fabs (lit b : Fl M)).val| ≤ (1:ℕ) := fun b hb => by
    rw [Fl.fabs_val, abs_abs]; exact lit_abs_le (M := M) b 1 (by norm_num) (by exact_mod_cast hb)
  have h1 := lit_abs_le (M := M) 1 1 (by norm_num) (by norm_num)
  have h10 := lit_abs_le (M := M) 10 10 (by norm_num) (by norm_num)
  have h7 := lit_abs_le (M := M) 7 7 (by norm_num) (by norm_num)
  have h63 := lit_abs_le (M := M) 0.63 1 (by norm_num) (by norm_num [abs_le])
  have h85 := lit_abs_le (M := M) 0.85 1 (by norm_num) (by norm_num [abs_le])
  have m1 := M.abs_mul_nat (by norm_num : 1 * 1 < 2 ^ 53) h63 (hfab b2 hb2)
  have m2 := M.abs_mul_nat (by norm_num : 1 * 1 < 2 ^ 53) h85 (hfab b4 hb4)
  have s1 := M.abs_add_nat (by norm_num : 1 + 1 * 1 < 2 ^ 53) h1 m1
  have s2 := M.abs_add_nat (by norm_num : 1 + 1 * 1 + 1 * 1 < 2 ^ 53) s1 m2
  have m3 := M.abs_mul_nat (by norm_num : 7 * (1 + 1 * 1 + 1 * 1) < 2 ^ 53) hR' s2
  have m10 := M.abs_mul_nat (by norm_num : 10 * 1 < 2 ^ 53) h10 ha'
  have m7 := M.abs_mul_nat (by norm_num : 7 * 1 < 2 ^ 53) h7 ha'
  have r := M.abs_add_nat (by norm_num : 7 * (1 + 1 * 1 + 1 * 1) + 10 * 1 < 2 ^ 53) m3 m10
  have r7 := M.abs_sub_nat (by norm_num : 7 * (1 + 1 * 1 + 1 * 1) + 10 * 1 + 7 * 1 < 2 ^ 53) r m7
  refine ⟨trivial, ?_, ?_⟩
  · exact reachFl_mono (by norm_num) (reachFl_deformed _ _ _ _ _ _ r)
  · refine (le_abs_self _).trans (r7.trans ?_)
    norm_num

/-- Every documented species but the deuteron has a reach and a radius of at most 100 fm. -/
theorem named_fl [LawfulRngFl M E D] (hdf5 : Bool) (disk : String → H5View (Fl M)) (species : String) (dmin : Fl M) (nuc : Nucleus (Fl M))
    (hs : species ∈ speciesTable.map Prod.fst) (hd : species ≠ "d") (h : createNucleus hdf5 disk species dmin = .ok nuc) :
    UsableFl M E D nuc 100 ∧ nuc.radius.val ≤ 100 := by
  have hist : NucleusHistory E D nuc := .create hdf5 disk species dmin nuc h
  suffices hc : NonEmptyConfigs nuc.kind ∧ ReachFl M E D nuc.kind 100 ∧ nuc.radius.val ≤ 100 from ⟨⟨hist, hc.1, hc.2.1⟩, hc.2.2⟩
  unfold speciesTable at hs
  simp only [List.map_cons, List.map_nil, List.mem_cons, List.not_mem_nil, or_false] at hs
  rcases hs with rfl | rfl | rfl | rfl | rfl | rfl | rfl | rfl | rfl | rfl | rfl | rfl <;>
  (first | exact absurd rfl hd | skip) <;>
  (injection h with h; subst h)
  · refine ⟨trivial, reachFl_mono (Nat.zero_le _) reachFl_proton, ?_⟩
    show (lit 0 : Fl M).val ≤ 100
    rw [M.lit_zero]; norm_num
  all_goals first
    | exact ws_fl _ _ _ _ (by norm_num) (by norm_num) (by norm_num) (by norm_num)
    | exact def_fl _ _ _ _ _ _ (by norm_num [abs_le]) (by norm_num [abs_le]) (by norm_num [abs_le]) (by norm_num [abs_le])

theorem samplingWidth_fl_le (w v : Fl M) (m : ℕ) (hm : 1 ≤ m) (hm6 : m ≤ 10^6) (hw : |w.val| ≤ (1000:ℕ)) (hv : |v.val| ≤ (1000:ℕ)) :
    (calcSamplingWidth w v m).val ≤ 2000 := by
  unfold calcSamplingWidth
  dsimp only
  split
  · rw [M.lit_zero]; norm_num
  · rename_i hc
    have h2 : 2 ≤ m := by
      simp only [Bool.or_eq_true, decide_eq_true_eq, not_or] at hc
      have := hc.1
      omega
    have hww := M.abs_mul_nat (by norm_num : 1000 * 1000 < 2 ^ 53) hw hw
    have hvv := M.abs_mul_nat (by norm_num : 1000 * 1000 < 2 ^ 53) hv hv
    have hnum := M.abs_sub_nat (by norm_num) hww hvv
    have hinv0 : 0 ≤ M.fl (1 / (m:ℝ)) := M.fl_nonneg (by positivity)
    have hinv : M.fl (1 / (m:ℝ)) ≤ 1/2 := by
      have e : M.fl (1/2) = 1/2 := M.exact_dyadic 1 1 _ (by norm_num) (by norm_num) (by norm_num)
      rw [← e]
      refine M.fl_mono _ _ ?_
      have : (2:ℝ) ≤ m := by exact_mod_cast h2
      exact one_div_le_one_div_of_le (by norm_num) this
    have hden : 1/2 ≤ M.fl (1 - M.fl (1 / (m:ℝ))) := by
      have e : M.fl (1/2) = 1/2 := M.exact_dyadic 1 1 _ (by norm_num) (by norm_num) (by norm_num)
      nth_rewrite 1 [← e]
      exact M.fl_mono _ _ (by linarith)
    have hmv : (ofInt (m:ℤ) : Fl M).val = m := by
      rw [M.ofInt_exact _ (by rw [Nat.abs_cast]; exact_mod_cast (by omega : m < 2^53))]; simp
    rw [Fl.sqrt_val, Fl.div_val, Fl.sub_val, Fl.sqr_val, Fl.sqr_val, Fl.sub_val, Fl.div_val, M.lit_one, hmv]
    generalize M.fl (1 - M.fl (1 / (m:ℝ))) = den at *
    generalize M.fl (M.fl (w.val * w.val) - M.fl (v.val * v.val)) = num at *
    have hq : |M.fl (num / den)| ≤ (4000000 : ℕ) := by
      apply M.abs_fl_le_nat (by norm_num)
      rw [abs_div, abs_of_pos (by linarith : 0 < den), div_le_iff₀ (by linarith)]
      push_cast at hnum ⊢
      linarith
    have hsq : |Real.sqrt (M.fl (num / den))| ≤ (2000:ℕ) := by
      rw [abs_of_nonneg (Real.sqrt_nonneg _)]
      rw [Real.sqrt_le_left (by positivity)]
      refine (le_abs_self _).trans (hq.trans ?_)
      norm_num
    have := (le_abs_self _).trans (M.abs_fl_le_nat (by norm_num) hsq)
    exact_mod_cast this

theorem bmax_fl (o : Options (Fl M)) (sigma : Fl M) (hA : NucleusHistory E D o.projectileA) (hB : NucleusHistory E D o.projectileB)
    (rA : o.projectileA.radius.val ≤ 100) (rB : o.projectileB.radius.val ≤ 100) (hw : |o.nucleonWidth.val| ≤ (1000:ℕ)) (hb : o.bMax.val ≤ 10000) :
    (Collider.make o sigma).bmax.val ≤ 10000 ∧ (o.bMax.val < 0 → 0 ≤ (Collider.make o sigma).bmax.val) ∧
      (0 ≤ o.bMax.val → (Collider.make o sigma).bmax = o.bMax) := by
  have e : (Collider.make o sigma).bmax = if lt o.bMax (lit 0) then o.projectileA.radius + o.projectileB.radius + (Collider.make o sigma).nc.maxImpact else o.bMax := rfl
  have h6 := lit_abs_le (M := M) 6 6 (by norm_num) (by norm_num)
  have m1 := M.abs_mul_nat (by norm_num : 6 * 1000 < 2 ^ 53) h6 hw
  have m2 := M.abs_mul_nat (by norm_num) m1 m1
  have n0A := radius_fl_nonneg hA
  have n0B := radius_fl_nonneg hB
  have hr : |M.fl (Real.sqrt (M.fl (M.fl ((lit 6 : Fl M).val * o.nucleonWidth.val) * M.fl ((lit 6 : Fl M).val * o.nucleonWidth.val))))| ≤ (6000:ℕ) := by
    apply M.abs_fl_le_nat (by norm_num)
    rw [abs_of_nonneg (Real.sqrt_nonneg _), Real.sqrt_le_left (by positivity)]
    refine (le_abs_self _).trans (m2.trans ?_)
    norm_num
  have hr0 : 0 ≤ M.fl (Real.sqrt (M.fl (M.fl ((lit 6 : Fl M).val * o.nucleonWidth.val) * M.fl ((lit 6 : Fl M).val * o.nucleonWidth.val)))) := M.fl_nonneg (Real.sqrt_nonneg _)
  have s1 := M.abs_add_nat (by norm_num : 100 + 100 < 2 ^ 53) (x := o.projectileA.radius.val) (y := o.projectileB.radius.val)
    (by rw [abs_of_nonneg n0A]; exact_mod_cast rA) (by rw [abs_of_nonneg n0B]; exact_mod_cast rB)
  have s2 := M.abs_add_nat (by norm_num : 100 + 100 + 6000 < 2 ^ 53) s1 hr
  by_cases hc : o.bMax.val < 0
  · have hlt : lt o.bMax (lit 0) = true := by rw [Fl.lt_eq, M.lit_zero]; simpa using hc
    rw [e, hlt, if_pos rfl]
    have e2 : (o.projectileA.radius + o.projectileB.radius + (Collider.make o sigma).nc.maxImpact).val =
      M.fl (M.fl (o.projectileA.radius.val + o.projectileB.radius.val) +
        M.fl (Real.sqrt (M.fl (M.fl ((lit 6 : Fl M).val * o.nucleonWidth.val) * M.fl ((lit 6 : Fl M).val * o.nucleonWidth.val))))) := rfl
    rw [e2]
    refine ⟨?_, fun _ => M.fl_nonneg (add_nonneg (M.fl_nonneg (add_nonneg n0A n0B)) hr0), fun h => absurd hc (not_lt.2 h)⟩
    refine (le_abs_self _).trans (s2.trans ?_)
    norm_num
  · have hlt : lt o.bMax (lit 0) = false := by rw [Fl.lt_eq, M.lit_zero]; simpa using hc
    rw [e, hlt]
    exact ⟨hb, fun h => absurd h hc, fun _ => rfl⟩

/-- **C78, ordinary options.** Any documented species but the deuteron (with any minimum distance), nucleon width at most 1000 fm, constituent width between
1e-10 and 1000 fm, one to a million constituents, any impact parameter range within 10000 fm (the default included), grid step and size between 0.001 and 1000 fm, a normal
generator whose variates stay within 100 standard deviations: no undefined behaviour and no exception, for any number of events and any random numbers. -/
theorem C78_documented_species [LawfulRngFl M E D] (hK : NormalBoundedFl M E D 100) (o : Options (Fl M)) (sigma : Fl M)
    (hdf5 : Bool) (disk : String → H5View (Fl M)) (sA sB : String) (dmin : Fl M)
    (mA : sA ∈ speciesTable.map Prod.fst) (dA : sA ≠ "d") (cA : createNucleus hdf5 disk sA dmin = .ok o.projectileA)
    (mB : sB ∈ speciesTable.map Prod.fst) (dB : sB ≠ "d") (cB : createNucleus hdf5 disk sB dmin = .ok o.projectileB)
    (hw : |o.nucleonWidth.val| ≤ 1000) (hv : 1e-10 ≤ o.constitWidth.val) (hv2 : o.constitWidth.val ≤ 1000) (hm : 1 ≤ o.constitNumber) (hm2 : o.constitNumber ≤ 10^6)
    (h0 : 0 ≤ o.bMin.val) (hb : o.bMax.val ≤ 10000) (hmin : o.bMax.val < 0 ∧ o.bMin.val = 0 ∨ o.bMin.val ≤ o.bMax.val)
    (hs : 0.001 ≤ o.gridStep.val) (hs9 : o.gridStep.val ≤ 1000) (hg : 0.001 ≤ o.gridMax.val) (hg9 : o.gridMax.val ≤ 1000)
    (rfuel fuel : Nat) (ev0 : (n : Nat) → Event (Fl M) n) (w : Rand E D) :
    (∃ res, runAll rfuel fuel o sigma false ev0 w = .ok res) ∨ runAll rfuel fuel o sigma false ev0 w = .error .fuel := by
  obtain ⟨uA, rA⟩ := named_fl (E := E) (D := D) hdf5 disk sA dmin o.projectileA mA dA cA
  obtain ⟨uB, rB⟩ := named_fl (E := E) (D := D) hdf5 disk sB dmin o.projectileB mB dB cB
  obtain ⟨b1, b2, b3⟩ := bmax_fl o sigma uA.hist uB.hist rA rB (by exact_mod_cast hw) hb
  have hd : 0 < o.gridStep.val := by linarith
  refine C78_no_undefined_behaviour_rounded hK o sigma (N := 100) (B := 10000) (C := 200000) (V := 5000) uA uB hv (by push_cast; linarith) hm hm2 ?_ h0 ?_
    (by push_cast; exact b1) (by norm_num) (by norm_num) (by norm_num) (by norm_num) (by linarith) (by linarith) (by linarith) (by linarith) ?_ ?_ rfuel fuel ev0 w
  · have := samplingWidth_fl_le o.nucleonWidth o.constitWidth o.constitNumber hm hm2 (by exact_mod_cast hw)
      (by rw [abs_of_nonneg (by linarith)]; exact_mod_cast hv2)
    push_cast; linarith
  · rcases hmin with ⟨c1, c2⟩ | c
    · rw [c2]; exact b2 c1
    · rw [b3 (by linarith)]; exact c
  · rw [div_le_iff₀ hd]; linarith
  · rw [div_le_iff₀ hd]; push_cast; linarith

/-! ## A random source -/

/-- The tape of uniform numbers as a random source for rounded arithmetic (the shapes of the distributions are irrelevant). -/
noncomputable instance tapeFl : Rng (Fl M) Tape Unit where
  canonical t := (⟨M.fl (t.val 0)⟩, t.next)
  normal m s _ t := (⟨m.val + s.val * (2 * t.val 0 - 1)⟩, (), t.next)
  gamma _ b _ t := (⟨|b.val| * t.val 0⟩, (), t.next)
  piecewiseLinear l _ t := ((l.headD (lit 0, lit 0)).1, (), t.next)
  uniformInt k _ t := (⌊(k:ℝ) * t.val 0⌋₊, (), t.next)
  shuffle l t := (l.reverse, t.next)
  seed s := Rng.seed ℝ Unit s
  freshDist := ()

instance : LawfulRngFl M Tape Unit where
  canonical_mem t := by
    have h := t.mem 0
    refine ⟨M.fl_nonneg h.1, ?_⟩
    have := M.fl_le_int (k := 1) (by norm_num) (x := t.val 0) (by push_cast; exact h.2.le)
    exact_mod_cast this
  gamma_nonneg _ b _ t := mul_nonneg (abs_nonneg _) (t.mem 0).1
  piecewiseLinear_mem l _ t N hne h := by
    cases l with
    | nil => exact absurd rfl hne
    | cons x xs =>
      show |x.1.val| ≤ _
      have := h x (by simp)
      rw [abs_of_nonneg this.1]; linarith
  uniformInt_le k _ t := LawfulRng.uniformInt_le (E := Tape) (D := Unit) k () t

theorem normalBounded_tapeFl {K : ℝ} (hK : 1 ≤ K) : NormalBoundedFl M Tape Unit K := by
  intro s d e hs
  show |(lit 0 : Fl M).val + s.val * (2 * e.val 0 - 1)| ≤ K * s.val
  have := e.mem 0
  rw [M.lit_zero, zero_add, abs_mul, abs_of_nonneg hs]
  have : |2 * e.val 0 - 1| ≤ 1 := by rw [abs_le]; constructor <;> linarith
  nlinarith

/-- Lead–uranium with the default options and any random numbers, on the IEEE 754 machine: a run does not go wrong. -/
example (hdf5 : Bool) (disk : String → H5View (Fl ieee)) (a b : Nucleus (Fl ieee)) (cA : createNucleus hdf5 disk "Pb" (lit 0) = .ok a)
    (cB : createNucleus hdf5 disk "U" (lit 0) = .ok b) (n seed : ℤ) (rfuel fuel : Nat) (ev0 : (n : Nat) → Event (Fl ieee) n) (w : Rand Tape Unit) :
    let o : Options (Fl ieee) := ⟨a, b, n, true, lit 0, lit 1, lit 0.5, lit 0.5, 1, lit 6.4, lit 1, lit 0, -lit 1, seed, lit 10, lit 0.2⟩
    (∃ res, runAll rfuel fuel o (lit 100) false ev0 w = .ok res) ∨ runAll rfuel fuel o (lit 100) false ev0 w = .error .fuel := by
  intro o
  have l10 : (lit 10 : Fl ieee).val = 10 := by rw [ieee.lit_exact 10 10 0 (by norm_num) (by norm_num) (by norm_num)]; norm_num
  have l2 : (1/8:ℝ) ≤ (lit 0.2 : Fl ieee).val ∧ (lit 0.2 : Fl ieee).val ≤ 1/4 := by
    rw [Fl.lit_val]
    have e1 : ieee.fl (1/8) = 1/8 := ieee.exact_dyadic 1 3 _ (by norm_num) (by norm_num) (by norm_num)
    have e2 : ieee.fl (1/4) = 1/4 := ieee.exact_dyadic 1 2 _ (by norm_num) (by norm_num) (by norm_num)
    constructor
    · rw [← e1]; exact ieee.fl_mono _ _ (by norm_num)
    · rw [← e2]; exact ieee.fl_mono _ _ (by norm_num)
  have e1 : o.nucleonWidth.val = 1/2 := ieee.lit_half
  have e2 : o.constitWidth.val = 1/2 := ieee.lit_half
  have e3 : o.bMin.val = 0 := ieee.lit_zero
  have e4 : o.bMax.val = -1 := by show -(lit 1 : Fl ieee).val = -1; rw [ieee.lit_one]
  have e5 : o.gridMax.val = 10 := l10
  have e6 : o.gridStep.val = (lit 0.2 : Fl ieee).val := rfl
  refine C78_documented_species (normalBounded_tapeFl (by norm_num)) o (lit 100) hdf5 disk "Pb" "U" (lit 0) (by decide) (by decide) cA (by decide) (by decide) cB
    ?_ ?_ ?_ (Nat.le_refl 1) (by show 1 ≤ 10^6; norm_num) ?_ ?_ (.inl ⟨?_, e3⟩) ?_ ?_ ?_ ?_ rfuel fuel ev0 w
  · rw [e1]; norm_num [abs_le]
  · rw [e2]; norm_num
  · rw [e2]; norm_num
  · rw [e3]
  · rw [e4]; norm_num
  · rw [e4]; norm_num
  · rw [e6]; linarith [l2.1]
  · rw [e6]; linarith [l2.2]
  · rw [e5]; norm_num
  · rw [e5]; norm_num

/-! ## A run that delivers records -/

theorem canonical_half_fl : canonical (F := Fl M) halfTape = (⟨1/2⟩, halfTape) := by
  show ((⟨M.fl (1/2)⟩ : Fl M), halfTape) = _
  rw [M.exact_dyadic 1 1 (1/2) (by norm_num) (by norm_num) (by norm_num)]

/-- head-on proton–proton collisions, two events, binary collisions counted -/
noncomputable def exampleOptionsFl (M : Machine) : Options (Fl M) :=
  { projectileA := mkProton, projectileB := mkProton, numberEvents := 2, ncoll := true, reducedThickness := lit 0, fluctuation := lit 1,
    nucleonWidth := lit 1, constitWidth := lit 1, constitNumber := 1, crossSection := lit 6.4, normalization := lit 1, bMin := lit 0, bMax := lit 0,
    randomSeed := 0, gridMax := lit 10, gridStep := lit 0.2 }

theorem example_pair_fl (a b : NucleonData (Fl M)) (ha : Fresh a) (hb : Fresh b) (ax : a.x.val = 0) (ay : a.y.val = 0) (bx : b.x.val = 0) (by' : b.y.val = 0) :
    let nc := (Collider.make (exampleOptionsFl M) ⟨100⟩).nc
    (nc.participate a b halfTape).1.1 = true ∧ (nc.participate a b halfTape).2 = halfTape := by
  intro nc
  have hsw : nc.samplingWidth.val = 0 := M.lit_zero
  have hn0 : ∀ w : Rand Tape Unit, (drawNormal (lit 0 : Fl M) nc.samplingWidth w).1.val = 0 := by
    intro w
    show (lit 0 : Fl M).val + nc.samplingWidth.val * _ = 0
    rw [hsw, M.lit_zero]; ring
  have hs : ∀ (n : NucleonData (Fl M)), Fresh n → n.x.val = 0 → n.y.val = 0 → ∃ c : Constituent (Fl M), nc.sampleConstituents n halfTape =
      ({ n with constituents := [c], constituentsExist := true }, halfTape) ∧ c.x.val = 0 ∧ c.y.val = 0 := by
    intro n hn hx hy
    unfold NucleonCommon.sampleConstituents
    rw [hn.2]
    have hcom : ∀ z : Fl M, z.val = 0 → ((lit 0 + z) / ofInt ((1:ℕ):ℤ) : Fl M).val = 0 := by
      intro z hz
      rw [Fl.div_val, Fl.add_val, M.lit_zero, hz, add_zero, M.fl_zero, zero_div, M.fl_zero]
    refine ⟨_, rfl, ?_, ?_⟩
    · show M.fl ((drawNormal (lit 0 : Fl M) nc.samplingWidth halfTape).1.val + M.fl (n.x.val - ((lit 0 + (drawNormal (lit 0 : Fl M) nc.samplingWidth halfTape).1) / ofInt ((1:ℕ):ℤ) : Fl M).val)) = 0
      rw [hcom _ (hn0 _), hn0, hx, sub_zero, M.fl_zero, add_zero, M.fl_zero]
    · show M.fl ((drawNormal (lit 0 : Fl M) nc.samplingWidth (halfTape : Rand Tape Unit)).1.val + M.fl (n.y.val - ((lit 0 + (drawNormal (lit 0 : Fl M) nc.samplingWidth (halfTape : Rand Tape Unit)).1) / ofInt ((1:ℕ):ℤ) : Fl M).val)) = 0
      rw [hcom _ (hn0 _), hn0, hy, sub_zero, M.fl_zero, add_zero, M.fl_zero]
  obtain ⟨ca, h1, h2, h3⟩ := hs a ha ax ay
  obtain ⟨cb, h4, h5, h6⟩ := hs b hb bx by'
  have hz : ∀ p q r s : Fl M, p.val = 0 → q.val = 0 → r.val = 0 → s.val = 0 → (sqr (p - q) + sqr (r - s) : Fl M).val = 0 := by
    intro p q r s hp hq hr hs
    rw [Fl.add_val, Fl.sqr_val, Fl.sqr_val, Fl.sub_val, Fl.sub_val, hp, hq, hr, hs]
    simp [M.fl_zero]
  have hfar : lt nc.maxImpactSq (sqr (a.x - b.x) + sqr (a.y - b.y)) = false := by
    rw [Fl.lt_eq, hz _ _ _ _ ax bx ay by', decide_eq_false_iff_not, not_lt]
    exact M.fl_nonneg (mul_self_nonneg _)
  -- the overlap is `exp 0`, nearly 1
  have hexp0 : (1/2:ℝ) ≤ M.exp 0 ∧ M.exp 0 ≤ 1 := by
    refine ⟨?_, M.exp_le_one 0 le_rfl⟩
    have := (abs_le.1 (M.exp_err 0)).1
    rw [Real.exp_zero] at this
    linarith [Machine.uRound_le, Machine.etaRound_le]
  have hov : (1/2:ℝ) ≤ (overlapSum nc.constituentWidthSq [ca] [cb]).val := by
    have e : (overlapSum nc.constituentWidthSq [ca] [cb]).val = M.fl (M.exp 0) := by
      unfold overlapSum
      simp only [List.foldl]
      rw [Fl.add_val, M.lit_zero, zero_add, Fl.exp_val, Fl.div_val, Fl.mul_val, hz _ _ _ _ h2 h5 h3 h6]
      simp [M.fl_zero]
    rw [e]
    have e1 : M.fl (1/2) = 1/2 := M.exact_dyadic 1 1 _ (by norm_num) (by norm_num) (by norm_num)
    nth_rewrite 1 [← e1]
    exact M.fl_mono _ _ hexp0.1
  have hpre : (1/8:ℝ) ≤ nc.prefactor.val := by
    show (1/8:ℝ) ≤ (oneDivTwoPi / sqr (lit 1) / ofInt ((1:ℕ):ℤ) : Fl M).val
    have e8 : M.fl (1/8) = 1/8 := M.exact_dyadic 1 3 _ (by norm_num) (by norm_num) (by norm_num)
    have hpi := Real.pi_le_four
    have hpos := Real.pi_pos
    have h8 : (1:ℝ)/8 ≤ 1/(2*Real.pi) := by
      rw [div_le_div_iff₀ (by norm_num) (by positivity)]; linarith
    have k1 : (1/8:ℝ) ≤ M.fl (1/(2*Real.pi)) := by
      nth_rewrite 1 [← e8]; exact M.fl_mono _ _ h8
    have hm1 : (ofInt ((1:ℕ):ℤ) : Fl M).val = 1 := by rw [M.ofInt_exact _ (by norm_num)]; norm_num
    rw [Fl.div_val, Fl.div_val, Fl.sqr_val, M.lit_one, Fl.oneDivTwoPi_val, hm1, mul_one, M.fl_one, div_one, div_one]
    nth_rewrite 1 [← e8]
    apply M.fl_mono
    nth_rewrite 1 [← e8]
    exact M.fl_mono _ _ k1
  have hlt : lt (nc.oneMinusProb (overlapSum nc.constituentWidthSq [ca] [cb])) (⟨1/2⟩ : Fl M) = true := by
    rw [Fl.lt_eq, decide_eq_true_eq]
    unfold NucleonCommon.oneMinusProb
    rw [Fl.exp_val]
    have hm2 : (lit 2 * ofInt ((nc.constituentNumber : ℕ) : ℤ) : Fl M).val = 2 := by
      show M.fl ((lit 2 : Fl M).val * (ofInt ((1:ℕ):ℤ) : Fl M).val) = 2
      rw [M.lit_two, M.ofInt_exact _ (by norm_num)]
      have := M.exact_int 2 (by norm_num)
      push_cast at this ⊢
      rw [mul_one]; exact this
    have hx : (-nc.sigmaPartonic * nc.prefactor / (lit 2 * ofInt ((nc.constituentNumber : ℕ) : ℤ)) * overlapSum nc.constituentWidthSq [ca] [cb] : Fl M).val ≤ -3 := by
      rw [Fl.mul_val, Fl.div_val, Fl.mul_val (-nc.sigmaPartonic), Fl.neg_val, hm2]
      have hsig : nc.sigmaPartonic.val = 100 := rfl
      rw [hsig]
      generalize nc.prefactor.val = pf at *
      generalize (overlapSum nc.constituentWidthSq [ca] [cb]).val = ov at *
      have a1 : M.fl (-100 * pf) ≤ -12 := by
        have := M.fl_le_int (k := -12) (by norm_num) (x := -100 * pf) (by push_cast; linarith)
        exact_mod_cast this
      have a2 : M.fl (M.fl (-100 * pf) / 2) ≤ -6 := by
        have := M.fl_le_int (k := -6) (by norm_num) (x := M.fl (-100 * pf) / 2) (by push_cast; linarith)
        exact_mod_cast this
      have a3 : M.fl (M.fl (-100 * pf) / 2) * ov ≤ -3 := by nlinarith
      have := M.fl_le_int (k := -3) (by norm_num) (x := M.fl (M.fl (-100 * pf) / 2) * ov) (by push_cast; linarith)
      exact_mod_cast this
    generalize (-nc.sigmaPartonic * nc.prefactor / (lit 2 * ofInt ((nc.constituentNumber : ℕ) : ℤ)) * overlapSum nc.constituentWidthSq [ca] [cb] : Fl M).val = x at *
    have h5 : Real.exp (-3) ≤ 1/4 := by
      have : (4:ℝ) ≤ Real.exp 3 := by
        have := Real.add_one_le_exp (3:ℝ); linarith
      rw [Real.exp_neg]
      exact inv_le_of_inv_le₀ (by norm_num) (by linarith)
    have h6 : Real.exp x ≤ 1/4 := (Real.exp_le_exp.2 hx).trans h5
    have h7 := (abs_le.1 (M.exp_err x)).2
    have h8 : 4 * uRound * Real.exp x ≤ 4 * 1.2e-16 * (1/4) :=
      mul_le_mul (mul_le_mul_of_nonneg_left Machine.uRound_le (by norm_num)) h6 (Real.exp_pos _).le (by norm_num)
    linarith [Machine.etaRound_le]
  unfold NucleonCommon.participate
  rw [ha.1]
  simp only [Bool.false_and, Bool.false_eq_true, if_false, hfar, h1, h4, canonical_half_fl, hlt, if_true]
  exact ⟨trivial, trivial⟩

theorem example_collision_fl (A B : Nucleus (Fl M)) (hA : NucleusHistory Tape Unit A) (hB : NucleusHistory Tape Unit B)
    (kA : A.kind = .proton) (kB : B.kind = .proton) :
    ∃ r, (Collider.make (exampleOptionsFl M) ⟨100⟩).sampleCollision 0 1 A B halfTape = .ok (r, halfTape) := by
  unfold Collider.sampleCollision
  rw [collisionLoop]
  dsimp only
  rw [canonical_half_fl]
  dsimp only
  have sp : ∀ (nuc : Nucleus (Fl M)) (off : Fl M), nuc.kind = .proton → nuc.sampleNucleons 0 off halfTape = .ok ({ nuc with nucleons := sampleProton off nuc.nucleons, offset := off }, halfTape) := by
    intro nuc off hk
    unfold Nucleus.sampleNucleons
    simp only [hk]
  rw [sp A _ kA]
  dsimp only
  rw [sp B _ kB]
  dsimp only
  have wA := hA.wf
  have wB := hB.wf
  unfold Nucleus.WF at wA wB
  rw [kA] at wA
  rw [kB] at wB
  obtain ⟨na, ha⟩ := List.length_eq_one_iff.mp wA
  obtain ⟨nb, hb⟩ := List.length_eq_one_iff.mp wB
  rw [ha, hb]
  simp only [sampleProton, pairLoop, pairRow]
  have hlt0 : lt (lit 0 : Fl M) (lit 0) = false := by rw [Fl.lt_eq]; simp
  have e2 : (Collider.make (exampleOptionsFl M) ⟨100⟩).bmax = lit 0 := by
    show (if lt (lit 0 : Fl M) (lit 0) then _ else lit 0) = _
    rw [hlt0]; rfl
  have hbb : (impactFormula (Collider.make (exampleOptionsFl M) ⟨100⟩).bmin (Collider.make (exampleOptionsFl M) ⟨100⟩).bmax ⟨1/2⟩).val = 0 := by
    rw [e2, show (Collider.make (exampleOptionsFl M) ⟨100⟩).bmin = lit 0 from rfl]
    unfold impactFormula
    rw [Fl.sqrt_val, Fl.add_val, Fl.mul_val, Fl.mul_val, Fl.sub_val, Fl.mul_val, M.lit_zero]
    simp [M.fl_zero]
  generalize impactFormula (Collider.make (exampleOptionsFl M) ⟨100⟩).bmin (Collider.make (exampleOptionsFl M) ⟨100⟩).bmax ⟨1/2⟩ = b at *
  have hx0 : ∀ c : Fl M, ((lit 0 : Fl M) + c * b).val = 0 := by
    intro c
    rw [Fl.add_val, Fl.mul_val, hbb, M.lit_zero]; simp [M.fl_zero]
  obtain ⟨p1, p2⟩ := example_pair_fl
    (setNucleonPosition ((Collider.make (exampleOptionsFl M) ⟨100⟩).asymmetry * b) na (lit 0) (lit 0) (lit 0))
    (setNucleonPosition (((Collider.make (exampleOptionsFl M) ⟨100⟩).asymmetry - lit 1) * b) nb (lit 0) (lit 0) (lit 0))
    ⟨rfl, rfl⟩ ⟨rfl, rfl⟩ (hx0 _) M.lit_zero (hx0 _) M.lit_zero
  rw [p1, p2]
  simp

/-- On every machine, the run ends: two head-on proton–proton events are delivered (C77 and C78 are not vacuous). -/
theorem example_run_fl (ev0 : (n : Nat) → Event (Fl M) n) : ∃ n r1 r2, runAll 0 1 (exampleOptionsFl M) ⟨100⟩ false ev0 halfTape = .ok ⟨n, [r1, r2]⟩ := by
  have cP : createNucleus false (fun _ => .missing) "p" (lit 0) = .ok (mkProton : Nucleus (Fl M)) := rfl
  have hh : NucleusHistory Tape Unit (mkProton : Nucleus (Fl M)) := .create false (fun _ => .missing) "p" (lit 0) _ rfl
  have l10 : (lit 10 : Fl M).val = 10 := by rw [M.lit_exact 10 10 0 (by norm_num) (by norm_num) (by norm_num)]; norm_num
  have l2 : (1/8:ℝ) ≤ (lit 0.2 : Fl M).val ∧ (lit 0.2 : Fl M).val ≤ 1/4 := by
    rw [Fl.lit_val]
    have e1 : M.fl (1/8) = 1/8 := M.exact_dyadic 1 3 _ (by norm_num) (by norm_num) (by norm_num)
    have e2 : M.fl (1/4) = 1/4 := M.exact_dyadic 1 2 _ (by norm_num) (by norm_num) (by norm_num)
    constructor
    · rw [← e1]; exact M.fl_mono _ _ (by norm_num)
    · rw [← e2]; exact M.fl_mono _ _ (by norm_num)
  have ok := C78_documented_species (normalBounded_tapeFl (by norm_num)) (exampleOptionsFl M) ⟨100⟩ false (fun _ => .missing) "p" "p" (lit 0) (by decide) (by decide) cP
    (by decide) (by decide) cP (by show |(lit 1 : Fl M).val| ≤ 1000; rw [M.lit_one]; norm_num) (by show 1e-10 ≤ (lit 1 : Fl M).val; rw [M.lit_one]; norm_num)
    (by show (lit 1 : Fl M).val ≤ 1000; rw [M.lit_one]; norm_num) (Nat.le_refl 1) (by show 1 ≤ 10^6; norm_num) (by show 0 ≤ (lit 0 : Fl M).val; rw [M.lit_zero])
    (by show (lit 0 : Fl M).val ≤ 10000; rw [M.lit_zero]; norm_num) (.inr (by show (lit 0 : Fl M).val ≤ (lit 0 : Fl M).val; exact le_rfl))
    (by show 0.001 ≤ (lit 0.2 : Fl M).val; linarith [l2.1]) (by show (lit 0.2 : Fl M).val ≤ 1000; linarith [l2.2])
    (by show 0.001 ≤ (lit 10 : Fl M).val; rw [l10]; norm_num) (by show (lit 10 : Fl M).val ≤ 1000; rw [l10]; norm_num) 0 1 ev0 halfTape
  have hseed : seedRand (Fl M) (exampleOptionsFl M).randomSeed halfTape = halfTape := by
    unfold seedRand
    rw [if_neg (show ¬ (0:ℤ) < (exampleOptionsFl M).randomSeed from (by decide : ¬ (0:ℤ) < 0))]
  unfold runAll Collider.runEvents at ok ⊢
  rw [hseed] at ok ⊢
  cases hec : EventCfg.make (exampleOptionsFl M).normalization (exampleOptionsFl M).gridStep (exampleOptionsFl M).gridMax (exampleOptionsFl M).reducedThickness with
  | error e =>
    exfalso
    simp only [hec] at ok
    rcases ok with ⟨_, h⟩ | h
    · cases h
    · unfold EventCfg.make at hec
      split at hec
      · rename_i e' he'
        cases hec
        cases h
        exact castInt_not_fuel _ he'
      · split at hec
        · cases hec; cases h
        · cases hec
  | ok ec =>
    simp only [hec] at ok ⊢
    have hev : (Collider.make (exampleOptionsFl M) ⟨100⟩).nevents.toNat = 2 := rfl
    rw [hev] at ok ⊢
    have step : ∀ (k num : Nat) (s : RunState (Fl M) Tape Unit ec.nsteps.toNat), NucleusHistory Tape Unit s.A →
        NucleusHistory Tape Unit s.B → s.A.kind = .proton → s.B.kind = .proton → s.rand = halfTape →
        (∃ e, e ≠ .fuel ∧ runLoop 0 1 (Collider.make (exampleOptionsFl M) ⟨100⟩) ec false k num s = .error e) ∨
        ∃ rs s', runLoop 0 1 (Collider.make (exampleOptionsFl M) ⟨100⟩) ec false k num s = .ok (rs, s') ∧ rs.length = k := by
      intro k
      induction k with
      | zero => intro num s _ _ _ _ _; exact .inr ⟨_, _, rfl, rfl⟩
      | succ k ih =>
        intro num s hA hB kA kB hr
        rw [runLoop, hr]
        obtain ⟨⟨b, ncoll, A', B'⟩, hc⟩ := example_collision_fl s.A s.B hA hB kA kB
        simp only [hc]
        obtain ⟨-, hA', hB', -, -, kA', kB'⟩ := collisionLoop_spec 0 _ 1 s.A s.B A' B' hA hB halfTape halfTape b ncoll hc
        cases hev : s.event.compute ec (Collider.make (exampleOptionsFl M) ⟨100⟩).nc false A'.nucleons B'.nucleons with
        | error e =>
          left
          exact ⟨e, fun h => by subst h; exact absurd hev (compute_not_fuel _ _ _ _ _ _), rfl⟩
        | ok ev =>
          simp only
          rcases ih (num+1) ⟨A', B', ev, halfTape⟩ hA' hB' (kA'.trans kA) (kB'.trans kB) rfl with ⟨e, he, h⟩ | ⟨rs, s', h, hl⟩
          · left; simp only [h]; exact ⟨e, he, rfl⟩
          · right; simp only [h]; exact ⟨_, _, rfl, by simp [hl]⟩
    rcases step 2 0 ⟨(Collider.make (exampleOptionsFl M) ⟨100⟩).nucleusA, (Collider.make (exampleOptionsFl M) ⟨100⟩).nucleusB, ev0 ec.nsteps.toNat, halfTape⟩
      hh hh rfl rfl rfl with ⟨e, he, h⟩ | ⟨rs, s', h, hl⟩
    · exfalso
      simp only [h] at ok
      rcases ok with ⟨_, h'⟩ | h'
      · cases h'
      · cases h'; exact he rfl
    · simp only [h]
      obtain ⟨r1, r2, rfl⟩ := List.length_eq_two.mp hl
      exact ⟨_, r1, r2, rfl⟩

/-- C77 applies to it. -/
example (ev0 : (n : Nat) → Event (Fl ieee) n) : ∃ n r1 r2, runAll 0 1 (exampleOptionsFl ieee) ⟨100⟩ false ev0 halfTape = .ok ⟨n, [r1, r2]⟩ ∧
    0 ≤ r1.b.val ∧ NonNegative r1.event ∧ 0 ≤ r2.b.val ∧ NonNegative r2.event := by
  obtain ⟨n, r1, r2, h⟩ := example_run_fl (M := ieee) ev0
  have hh : NucleusHistory Tape Unit (mkProton : Nucleus (Fl ieee)) := .create false (fun _ => .missing) "p" (lit 0) _ rfl
  have := C77_nonnegative (exampleOptionsFl ieee) ⟨100⟩ hh hh (by show 1e-10 ≤ (lit 1 : Fl ieee).val; rw [ieee.lit_one]; norm_num)
    (by show 0 ≤ (lit 1 : Fl ieee).val; rw [ieee.lit_one]; norm_num) 0 1 ev0 halfTape n _ h
  obtain ⟨a1, a2⟩ := this r1 (by simp)
  obtain ⟨b1, b2⟩ := this r2 (by simp)
  exact ⟨n, r1, r2, h, a1, a2, b1, b2⟩

end Trento
