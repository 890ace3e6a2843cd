import Verif.Props.RoundedRun

/-! # C78: no undefined behaviour in rounded arithmetic -/

namespace Trento
open Spec
set_option linter.unusedSectionVars false
variable {M : Machine} {E D : Type} [Rng (Fl M) E D]

/-- Constituent position draws are bounded: a centred normal variate of width `s` has magnitude at most `K s`. -/
def Spec.NormalBoundedFl (M : Machine) (E D : Type) [Rng (Fl M) E D] (K : ℝ) : Prop :=
  ∀ (s : Fl M) (d : D) (e : E), 0 ≤ s.val → |(Rng.normal (lit 0 : Fl M) s d e).1.val| ≤ K * s.val

/-! ## Constituents -/

/-- What deposition needs: positions and weights are bounded. -/
def DepositableFl (X C : ℕ) (n : NucleonData (Fl M)) : Prop :=
  |n.x.val| ≤ X ∧ |n.y.val| ≤ X ∧ (n.isParticipant = true → n.constituentsExist = true) ∧
  (n.constituentsExist = true → n.constituents ≠ [] ∧
    ∀ q ∈ n.constituents, 0 ≤ q.fluctuation.val ∧ |q.x.val| ≤ (C + (X + C) : ℕ) ∧ |q.y.val| ≤ (C + (X + C) : ℕ))

theorem drawConstituents_fl {nc : NucleonCommon (Fl M)} {C : ℕ}
    (hC : ∀ (d : D) (e : E), |(Rng.normal (lit 0 : Fl M) nc.samplingWidth d e).1.val| ≤ C) (k : ℕ) (xc yc : Fl M) (j : ℕ) (hj : (j + k) * C < 2 ^ 53)
    (hx : |xc.val| ≤ (j * C : ℕ)) (hy : |yc.val| ≤ (j * C : ℕ)) (w : Rand E D) :
    (drawConstituents nc k xc yc w).1.1.length = k ∧
    (∀ q ∈ (drawConstituents nc k xc yc w).1.1, |q.x.val| ≤ C ∧ |q.y.val| ≤ C) ∧
    |(drawConstituents nc k xc yc w).1.2.1.val| ≤ ((j + k) * C : ℕ) ∧ |(drawConstituents nc k xc yc w).1.2.2.val| ≤ ((j + k) * C : ℕ) := by
  induction k generalizing xc yc w j with
  | zero => refine ⟨rfl, by simp [drawConstituents], hx, hy⟩
  | succ k ih =>
    unfold drawConstituents
    dsimp only
    have e1 : (j + 1) * C = j * C + C := by ring
    have e2 : (j + (k + 1)) * C = (j + 1 + k) * C := by ring
    have hle : j * C + C ≤ (j + (k+1)) * C := by
      have : j * C + C + k * C = (j + (k+1)) * C := by ring
      omega
    have hx' : |(xc + (drawNormal (lit 0 : Fl M) nc.samplingWidth w).1).val| ≤ ((j + 1) * C : ℕ) := by
      rw [Fl.add_val, e1]
      exact M.abs_add_nat (by omega) hx (hC _ _)
    have hy' : |(yc + (drawNormal (lit 0 : Fl M) nc.samplingWidth (drawNormal (lit 0 : Fl M) nc.samplingWidth w).2).1).val| ≤ ((j + 1) * C : ℕ) := by
      rw [Fl.add_val, e1]
      exact M.abs_add_nat (by omega) hy (hC _ _)
    obtain ⟨i1, i2, i3, i4⟩ := ih _ _ (j + 1) (by omega) hx' hy'
      (drawGamma nc.gammaAlpha nc.gammaBeta (drawNormal (lit 0 : Fl M) nc.samplingWidth (drawNormal (lit 0 : Fl M) nc.samplingWidth w).2).2).2
    rw [e2]
    refine ⟨by rw [List.length_cons, i1], ?_, i3, i4⟩
    intro q hq
    rcases List.mem_cons.1 hq with rfl | hq
    · exact ⟨hC _ _, hC _ _⟩
    · exact i2 q hq

theorem mean_fl {m C : ℕ} (hm : 1 ≤ m) (hm2 : m < 2 ^ 53) (hC : C < 2 ^ 53) {s : Fl M} (hs : |s.val| ≤ (m * C : ℕ)) : |(s / ofInt (m:ℤ)).val| ≤ C := by
  rw [Fl.div_val, M.ofInt_exact _ (by rw [Nat.abs_cast]; exact_mod_cast hm2)]
  apply M.abs_fl_le_nat hC
  have hm0 : (0:ℝ) < m := by exact_mod_cast hm
  rw [Int.cast_natCast, abs_div, abs_of_pos hm0, div_le_iff₀ hm0]
  push_cast at hs
  linarith

theorem depositable_invariant [LawfulRngFl M E D] {nc : NucleonCommon (Fl M)} {X C : ℕ}
    (hC : ∀ (d : D) (e : E), |(Rng.normal (lit 0 : Fl M) nc.samplingWidth d e).1.val| ≤ C) (hm : 1 ≤ nc.constituentNumber)
    (hm2 : nc.constituentNumber < 2 ^ 53) (hmC : nc.constituentNumber * C < 2 ^ 53) (hX : X + 2 * C < 2 ^ 53) :
    NucleonInvariant E D nc (DepositableFl (M := M) X C) where
  sampled n w hn := by
    unfold NucleonCommon.sampleConstituents
    split
    · exact hn
    · refine ⟨hn.1, hn.2.1, fun _ => rfl, fun _ => ?_⟩
      obtain ⟨h1, h2, h3, h4⟩ := drawConstituents_fl hC nc.constituentNumber (lit 0) (lit 0) 0 (by simpa using hmC) (by rw [M.lit_zero]; simp)
        (by rw [M.lit_zero]; simp) w
      rw [zero_add] at h3 h4
      have hw := drawConstituents_weights nc nc.constituentNumber (lit 0) (lit 0) w
      generalize drawConstituents nc nc.constituentNumber (lit 0) (lit 0) w = d at *
      dsimp only
      have mx := mean_fl hm hm2 (by omega) h3
      have my := mean_fl hm hm2 (by omega) h4
      constructor
      · intro hnil
        have := congrArg List.length hnil
        simp at this
        rw [this] at h1
        simp at h1
        omega
      · intro q hq
        simp only [List.mem_map] at hq
        obtain ⟨c, hc, rfl⟩ := hq
        refine ⟨hw c hc, ?_, ?_⟩
        · show |(c.x + (n.x - d.1.2.1 / ofInt (nc.constituentNumber : ℤ))).val| ≤ _
          rw [Fl.add_val, Fl.sub_val]
          exact M.abs_add_nat (by omega) (h2 c hc).1 (M.abs_sub_nat (by omega) hn.1 mx)
        · show |(c.y + (n.y - d.1.2.2 / ofInt (nc.constituentNumber : ℤ))).val| ≤ _
          rw [Fl.add_val, Fl.sub_val]
          exact M.abs_add_nat (by omega) (h2 c hc).2 (M.abs_sub_nat (by omega) hn.2.1 my)
  participant n he hn := ⟨hn.1, hn.2.1, fun _ => he, hn.2.2.2⟩

/-! ## Deposition -/

theorem radius_fl (v : Fl M) {V : ℕ} (hV : V < 9 * 10^7) (hv0 : 0 ≤ v.val) (hv : 5 * v.val ≤ V) :
    |(sqrt (sqr (maxRadiusWidths * v) : Fl M)).val| ≤ V := by
  have e5 : (maxRadiusWidths : Fl M).val = 5 := M.lit_five
  rw [Fl.sqrt_val, Fl.sqr_val, Fl.mul_val, e5]
  have h1 : |M.fl (5 * v.val)| ≤ V := M.abs_fl_le_nat (by omega) (by rw [abs_of_nonneg (by positivity)]; exact hv)
  have hVV : V * V < 2 ^ 53 := by nlinarith
  have h2 := M.abs_mul_nat (N := V) (K := V) hVV h1 h1
  have h3 : Real.sqrt (M.fl (M.fl (5 * v.val) * M.fl (5 * v.val))) ≤ V := by
    rw [Real.sqrt_le_left (Nat.cast_nonneg _)]
    refine (le_abs_self _).trans (h2.trans ?_)
    push_cast; rw [pow_two]
  exact M.abs_fl_le_nat (by omega) (by rw [abs_of_nonneg (Real.sqrt_nonneg _)]; exact h3)

theorem index_fl (c : EventCfg (Fl M)) (hd : 0 < c.dxy.val) {G : ℕ} (hG : G < 2 ^ 53) (hGd : (G:ℝ) / c.dxy.val ≤ 2147483647) {x : Fl M}
    (hx : |x.val| + |c.xymax.val| ≤ G) : ∃ i, c.index x = .ok i := by
  unfold EventCfg.index
  have h1 : |M.fl (x.val + c.xymax.val)| ≤ G := M.abs_fl_le_nat hG ((abs_add_le _ _).trans hx)
  have h2 : |M.fl (M.fl (x.val + c.xymax.val) / c.dxy.val)| ≤ (2147483647 : ℕ) := by
    apply M.abs_fl_le_nat (by norm_num)
    rw [abs_div, abs_of_pos hd]
    refine le_trans (div_le_div_of_nonneg_right h1 hd.le) ?_
    push_cast; exact hGd
  have h3 := abs_le.1 h2
  push_cast at h3
  have e : ((x + c.xymax) / c.dxy).val = M.fl (M.fl (x.val + c.xymax.val) / c.dxy.val) := rfl
  exact ⟨_, M.castInt_fl_ok (x := (x + c.xymax) / c.dxy) (by rw [e]; linarith) (by rw [e]; linarith)⟩

theorem depositAll_fl_total (w v : Fl M) (hv : 1e-10 ≤ v.val) (m : ℕ) (σ : Fl M) (nc : Bool) (k : Fl M) (c : EventCfg (Fl M)) (hd : 0 < c.dxy.val)
    {n : ℕ} (hn : c.nsteps = n) (hn1 : 1 ≤ n) {X C V G : ℕ} (hV : V < 9 * 10^7) (hv5 : 5 * v.val ≤ V) (hXC : X + 2 * C + V < 2 ^ 53) (hG : G < 2 ^ 53)
    (hGd : (G:ℝ) / c.dxy.val ≤ 2147483647) (hGx : ((C + (X + C) + V : ℕ):ℝ) + |c.xymax.val| ≤ G)
    (A : List (NucleonData (Fl M))) (hA : ∀ a ∈ A, DepositableFl X C a) (g : Grid (Fl M) n) (j : ℕ) :
    ∃ r, depositAll c (NucleonCommon.make w v m σ nc k) false A (g, j) = .ok r := by
  induction A generalizing g j with
  | nil => exact ⟨_, rfl⟩
  | cons a A ih =>
    have hA' : ∀ a ∈ A, DepositableFl X C a := fun b hb => hA b (by simp [hb])
    unfold depositAll
    by_cases hp : a.isParticipant = true
    · simp only [hp, if_true]
      obtain ⟨hne, hq⟩ := (hA a (by simp)).2.2.2 ((hA a (by simp)).2.2.1 hp)
      obtain ⟨q0, qs, hqs⟩ := List.exists_cons_of_ne_nil hne
      have hb : (NucleonCommon.make w v m σ nc k).boundary a = .ok
          ⟨(boundaryLoop qs ⟨q0.x, q0.x, q0.y, q0.y⟩).xmin - sqrt (sqr (maxRadiusWidths * v)), (boundaryLoop qs ⟨q0.x, q0.x, q0.y, q0.y⟩).xmax + sqrt (sqr (maxRadiusWidths * v)),
           (boundaryLoop qs ⟨q0.x, q0.x, q0.y, q0.y⟩).ymin - sqrt (sqr (maxRadiusWidths * v)), (boundaryLoop qs ⟨q0.x, q0.x, q0.y, q0.y⟩).ymax + sqrt (sqr (maxRadiusWidths * v))⟩ := by
        unfold NucleonCommon.boundary
        rw [hqs]
        rfl
      have q0m := hq q0 (by rw [hqs]; simp)
      obtain ⟨b1, b2, b3, b4⟩ := boundaryLoop_inv (fun t : Fl M => |t.val| ≤ (C + (X + C) : ℕ)) qs ⟨q0.x, q0.x, q0.y, q0.y⟩ q0m.2.1 q0m.2.1 q0m.2.2 q0m.2.2
        (fun q hq' => (hq q (by rw [hqs]; simp [hq'])).2)
      have hr := radius_fl v hV (by linarith) hv5
      have hi : ∀ t : Fl M, |t.val| ≤ (C + (X + C) + V : ℕ) → ∃ i, c.index t = .ok i := fun t ht =>
        index_fl c hd hG hGd (by linarith)
      obtain ⟨x0, h1⟩ := hi _ (by rw [Fl.sub_val]; exact M.abs_sub_nat (by omega) b1 hr)
      obtain ⟨x1, h2⟩ := hi _ (by rw [Fl.add_val]; exact M.abs_add_nat (by omega) b2 hr)
      obtain ⟨y0, h3⟩ := hi _ (by rw [Fl.sub_val]; exact M.abs_sub_nat (by omega) b3 hr)
      obtain ⟨y1, h4⟩ := hi _ (by rw [Fl.add_val]; exact M.abs_add_nat (by omega) b4 hr)
      choose T hT hT0 using fun iy ix : Int => thickness_fl_ok w v hv m σ nc k a (fun q hq' => (hq q hq').1) (c.center ix) (c.center iy)
      rw [depositNucleon_rect hn hn1 hT hb h1 h2 h3 h4 g]
      exact ih hA' _ _
    · simp only [hp, Bool.false_eq_true, if_false]
      exact ih hA' _ _

/-! ## The grid -/

theorem eventCfg_fl (norm dxy gm p : Fl M) (h1 : 1e-100 ≤ gm.val) (h2 : gm.val ≤ 1e9) (h3 : 1e-100 ≤ dxy.val) (h4 : dxy.val ≤ 1e9)
    (h5 : 2 * gm.val / dxy.val ≤ 2147483646) :
    ∃ ec, EventCfg.make norm dxy gm p = .ok ec ∧ ec.norm = norm ∧ ec.dxy = dxy ∧ ec.nsteps = (ec.nsteps.toNat : ℤ) ∧ 1 ≤ ec.nsteps.toNat ∧
      |ec.xymax.val| ≤ gm.val + dxy.val + 1 := by
  have hd : 0 < dxy.val := by linarith
  have hg : 0 < gm.val := by linarith
  have e1 := M.fl_rel_err (x := 2 * gm.val) (by rw [abs_of_pos (by linarith)]; linarith)
  rw [abs_of_pos (show (0:ℝ) < 2 * gm.val by linarith)] at e1
  have e1 := abs_le.1 e1
  generalize hy : M.fl (2 * gm.val) = y at *
  have y1 : y ≤ 2 * gm.val * (1 + 2e-16) := by linarith
  have y0 : gm.val ≤ y := by linarith
  have q1 : y / dxy.val ≤ 2 * gm.val / dxy.val * (1 + 2e-16) := by
    rw [div_mul_eq_mul_div]; exact div_le_div_of_nonneg_right y1 hd.le
  have q0 : 1e-109 ≤ y / dxy.val := by rw [le_div_iff₀ hd]; linarith
  have hqp : 0 < y / dxy.val := by linarith
  have e2 := M.fl_rel_err (x := y / dxy.val) (by rw [abs_of_pos hqp]; linarith)
  rw [abs_of_pos hqp] at e2
  have e2 := abs_le.1 e2
  have hQ0 : 0 < 2 * gm.val / dxy.val := by positivity
  have hQd : 2 * gm.val / dxy.val * dxy.val = 2 * gm.val := div_mul_cancel₀ _ hd.ne'
  generalize hz : M.fl (y / dxy.val) = z at *
  have z0 : 0 < z := by linarith
  have z1 : z ≤ 2 * gm.val / dxy.val * (1 + 5e-16) := by linarith
  generalize 2 * gm.val / dxy.val = Q at *
  have z2 : z < 2147483647 := by linarith
  have hval : (ceil (lit 2 * gm / dxy : Fl M)).val = (⌈z⌉ : ℝ) := by
    rw [Fl.ceil_val, Fl.div_val, Fl.mul_val, M.lit_two, hy, hz]
  have c1 : (1:ℤ) ≤ ⌈z⌉ := Int.ceil_pos.2 z0
  have c2 : ⌈z⌉ ≤ 2147483647 := by apply Int.ceil_le.2; push_cast; exact z2.le
  have c3 : (⌈z⌉:ℝ) < z + 1 := Int.ceil_lt_add_one z
  have c1r : (1:ℝ) ≤ ⌈z⌉ := by exact_mod_cast c1
  have c2r : (⌈z⌉:ℝ) ≤ 2147483647 := by exact_mod_cast c2
  have hcast : castInt (ceil (lit 2 * gm / dxy : Fl M)) = .ok ⌈z⌉ := by
    rw [M.castInt_fl_ok (by rw [hval]; linarith) (by rw [hval]; linarith), hval, if_pos (by linarith), Int.floor_intCast]
  unfold EventCfg.make
  simp only [hcast, if_neg (by omega : ¬ ⌈z⌉ < 0)]
  refine ⟨_, rfl, rfl, rfl, by dsimp only; omega, by dsimp only; omega, ?_⟩
  dsimp only
  have hhalf : (lit 0.5 * ofInt ⌈z⌉ : Fl M).val = ⌈z⌉ / 2 := by
    rw [Fl.mul_val, M.lit_half, M.ofInt_exact _ (by rw [abs_of_nonneg (by omega)]; omega)]
    rw [show (1/2 * (⌈z⌉:ℝ)) = ⌈z⌉ / 2 ^ 1 by ring]
    rw [M.fl_exact ⌈z⌉ 1 (by rw [abs_of_nonneg (by omega)]; omega) (by norm_num)]
    norm_num
  rw [Fl.mul_val, hhalf]
  have hp : 0 ≤ (⌈z⌉:ℝ) / 2 * dxy.val := by positivity
  have e3 := abs_le.1 (M.fl_err ((⌈z⌉:ℝ) / 2 * dxy.val))
  rw [abs_of_nonneg hp] at e3
  rw [abs_of_nonneg (M.fl_nonneg hp)]
  have hb : (⌈z⌉:ℝ) / 2 * dxy.val ≤ gm.val * (1 + 5e-16) + dxy.val / 2 := by
    have : (⌈z⌉:ℝ) / 2 * dxy.val ≤ (Q * (1 + 5e-16) + 1) / 2 * dxy.val := mul_le_mul_of_nonneg_right (by linarith) hd.le
    have e : (Q * (1 + 5e-16) + 1) / 2 * dxy.val = (Q * dxy.val) * (1 + 5e-16) / 2 + dxy.val / 2 := by ring
    rw [e, hQd] at this
    linarith
  have hu := Machine.uRound_le
  have hη := Machine.etaRound_le
  have hup : uRound * ((⌈z⌉:ℝ) / 2 * dxy.val) ≤ 1.2e-16 * ((⌈z⌉:ℝ) / 2 * dxy.val) := mul_le_mul_of_nonneg_right hu hp
  generalize M.fl ((⌈z⌉:ℝ) / 2 * dxy.val) = R at *
  generalize (⌈z⌉:ℝ) / 2 * dxy.val = S at *
  linarith [e3.2]

/-! ## Impact parameter and offsets -/

theorem impact_fl (bmin bmax u : Fl M) {B : ℕ} (hB : B ≤ 10^7) (h0 : 0 ≤ bmin.val) (h1 : bmin.val ≤ bmax.val) (h2 : bmax.val ≤ B)
    (hu0 : 0 ≤ u.val) (hu1 : u.val ≤ 1) : 0 ≤ (impactFormula bmin bmax u).val ∧ (impactFormula bmin bmax u).val ≤ (B + 1 : ℕ) := by
  unfold impactFormula
  rw [Fl.sqrt_val]
  refine ⟨M.fl_nonneg (Real.sqrt_nonneg _), ?_⟩
  simp only [Fl.add_val, Fl.mul_val, Fl.sub_val]
  have hBB1 : B * B ≤ 100000000000000 := (Nat.mul_le_mul hB hB).trans (by norm_num)
  have hBB2 : B * B + 1 < 2 ^ 53 := (Nat.add_le_add_right hBB1 1).trans_lt (by norm_num)
  have hBB : B * B < 2 ^ 53 := (Nat.lt_succ_self _).trans hBB2
  have hq : |M.fl (bmax.val * bmax.val)| ≤ (B * B : ℕ) := by
    have : |bmax.val| ≤ B := by rw [abs_of_nonneg (by linarith)]; exact h2
    exact M.abs_mul_nat hBB this this
  have hpq : M.fl (bmin.val * bmin.val) ≤ M.fl (bmax.val * bmax.val) := M.fl_mono _ _ (by nlinarith)
  have hp0 : 0 ≤ M.fl (bmin.val * bmin.val) := M.fl_nonneg (mul_self_nonneg _)
  generalize M.fl (bmin.val * bmin.val) = p at *
  generalize M.fl (bmax.val * bmax.val) = q at *
  have hq := (le_abs_self _).trans hq
  have hd0 : 0 ≤ q - p := by linarith
  have herr := (abs_le.1 (M.fl_err (q - p))).2
  rw [abs_of_nonneg hd0] at herr
  have hη := Machine.etaRound_le
  have hu := Machine.uRound_le
  have hBr : ((B * B : ℕ):ℝ) ≤ 1e14 := by
    have : ((B*B:ℕ):ℝ) ≤ ((100000000000000:ℕ):ℝ) := Nat.cast_le.2 hBB1
    norm_num at this ⊢; exact this
  have hud : uRound * (q - p) ≤ 1.2e-16 * 1e14 := mul_le_mul hu (by linarith) hd0 (by norm_num)
  have hd1 := M.fl_nonneg hd0
  generalize M.fl (q - p) = d at *
  have hdu0 : 0 ≤ d * u.val := mul_nonneg hd1 hu0
  have hdu : d * u.val ≤ d := mul_le_of_le_one_right hd1 hu1
  have hf0 := M.fl_nonneg hdu0
  have herr2 := (abs_le.1 (M.fl_err (d * u.val))).2
  rw [abs_of_nonneg hdu0] at herr2
  have hud2 : uRound * (d * u.val) ≤ 1.2e-16 * (1e14 + 1) := mul_le_mul hu (by linarith) hdu0 (by norm_num)
  generalize M.fl (d * u.val) = e at *
  have hs : |p + e| ≤ (B * B + 1 : ℕ) := by
    rw [abs_of_nonneg (by linarith)]
    push_cast at hq ⊢
    linarith
  have hs2 := (le_abs_self _).trans (M.abs_fl_le_nat (k := B * B + 1) hBB2 hs)
  have hs3 : Real.sqrt (M.fl (p + e)) ≤ B + 1 := by
    rw [Real.sqrt_le_left (by positivity)]
    refine hs2.trans ?_
    push_cast
    nlinarith [(Nat.cast_nonneg B : (0:ℝ) ≤ B)]
  refine (le_abs_self _).trans (M.abs_fl_le_nat (by omega) ?_)
  rw [abs_of_nonneg (Real.sqrt_nonneg _)]
  push_cast; exact hs3

theorem asym_fl (A B : Nucleus (Fl M)) (hA : 0 ≤ A.radius.val) (hB : 0 ≤ B.radius.val) :
    0 ≤ (determineAsym A B).val ∧ (determineAsym A B).val ≤ 2 := by
  unfold determineAsym
  dsimp only
  split
  · rw [M.lit_half]; norm_num
  · rename_i hc
    rw [Fl.lt_eq, decide_eq_true_eq, not_lt, Fl.lit_val] at hc
    have h16 : (1/16:ℝ) ≤ M.fl ((0.1:ℚ):ℝ) := by
      have : M.fl (1/16) = 1/16 := (M.exact_dyadic 1 4 _ (by norm_num) (by norm_num) (by norm_num))
      rw [← this]
      exact M.fl_mono _ _ (by norm_num)
    rw [Fl.div_val]
    have hs : (1/16:ℝ) ≤ (A.radius + B.radius).val := h16.trans hc
    have herr := (abs_le.1 (M.fl_err (A.radius.val + B.radius.val))).1
    rw [abs_of_nonneg (by linarith)] at herr
    have e : (A.radius + B.radius).val = M.fl (A.radius.val + B.radius.val) := rfl
    rw [← e] at herr
    generalize (A.radius + B.radius).val = s at *
    generalize A.radius.val = a at *
    generalize B.radius.val = b at *
    have hu := Machine.uRound_le
    have hη := Machine.etaRound_le
    have hus : uRound * (a + b) ≤ 1.2e-16 * (a + b) := mul_le_mul_of_nonneg_right hu (by linarith)
    have h2 : a / s ≤ 2 := by rw [div_le_iff₀ (by linarith)]; linarith
    refine ⟨M.fl_nonneg (div_nonneg hA (by linarith)), ?_⟩
    have := M.fl_le_int (k := 2) (by norm_num) (x := a / s) (by push_cast; exact h2)
    exact_mod_cast this

/-- The radii of all nuclei made by `Nucleus::create` are non-negative. -/
theorem radius_fl_nonneg {nuc : Nucleus (Fl M)} (hh : NucleusHistory E D nuc) : 0 ≤ nuc.radius.val := by
  induction hh with
  | create hdf5 disk species dmin nuc h =>
    have lit0 : ∀ q : ℚ, 0 ≤ q → 0 ≤ (lit q : Fl M).val := fun q hq => by rw [Fl.lit_val]; exact M.fl_nonneg (by exact_mod_cast hq)
    have ws : ∀ (A : ℕ) (R a : ℚ) (d : Fl M), 0 ≤ R → 0 ≤ a → 0 ≤ (mkWoodsSaxon A (lit R) (lit a) d : Nucleus (Fl M)).radius.val := by
      intro A R a d hR ha
      show 0 ≤ (lit R + lit 3 * lit a : Fl M).val
      exact M.fl_nonneg (add_nonneg (lit0 R hR) (M.fl_nonneg (mul_nonneg (lit0 3 (by norm_num)) (lit0 a ha))))
    have df : ∀ (A : ℕ) (R a b2 b4 : ℚ) (d : Fl M), 0 ≤ R → 1/16 ≤ a → 0 ≤ (mkDeformed A (lit R) (lit a) (lit b2) (lit b4) d : Nucleus (Fl M)).radius.val := by
      intro A R a b2 b4 d hR ha
      show 0 ≤ (lit R * (lit 1 + lit 0.63 * fabs (lit b2) + lit 0.85 * fabs (lit b4)) + lit 10 * lit a - lit 7 * lit a : Fl M).val
      have hb : ∀ b : ℚ, 0 ≤ (fabs (lit b : Fl M)).val := fun b => abs_nonneg _
      have f0 : 0 ≤ (lit R * (lit 1 + lit 0.63 * fabs (lit b2) + lit 0.85 * fabs (lit b4)) : Fl M).val :=
        M.fl_nonneg (mul_nonneg (lit0 R hR) (M.fl_nonneg (add_nonneg (M.fl_nonneg (add_nonneg (lit0 1 (by norm_num))
          (M.fl_nonneg (mul_nonneg (lit0 0.63 (by norm_num)) (hb b2))))) (M.fl_nonneg (mul_nonneg (lit0 0.85 (by norm_num)) (hb b4))))))
      have l10 : (lit 10 : Fl M).val = 10 := by rw [M.lit_exact 10 10 0 (by norm_num) (by norm_num) (by norm_num)]; norm_num
      have l7 : (lit 7 : Fl M).val = 7 := by rw [M.lit_exact 7 7 0 (by norm_num) (by norm_num) (by norm_num)]; norm_num
      apply M.fl_nonneg
      have ha' : (1/16:ℝ) ≤ (lit a : Fl M).val := by
        have : M.fl (1/16) = 1/16 := (M.exact_dyadic 1 4 _ (by norm_num) (by norm_num) (by norm_num))
        rw [← this, Fl.lit_val]
        refine M.fl_mono _ _ ?_
        have : ((1/16:ℚ):ℝ) ≤ (a:ℝ) := by exact_mod_cast ha
        push_cast at this; exact this
      rw [Fl.add_val, Fl.mul_val (lit 10), Fl.mul_val (lit 7), l10, l7]
      generalize (lit R * (lit 1 + lit 0.63 * fabs (lit b2) + lit 0.85 * fabs (lit b4)) : Fl M).val = f at *
      generalize (lit a : Fl M).val = x at *
      have h10 : M.fl (7 * x) ≤ M.fl (f + M.fl (10 * x)) := by
        refine M.fl_mono _ _ ?_
        have e1 := (abs_le.1 (M.fl_err (10 * x))).1
        rw [abs_of_nonneg (by linarith)] at e1
        have hu := Machine.uRound_le
        have hη := Machine.etaRound_le
        have := mul_le_mul_of_nonneg_right hu (show 0 ≤ 10 * x by linarith)
        linarith
      linarith
    by_cases hs : species ∈ Spec.speciesTable.map Prod.fst
    · unfold Spec.speciesTable at hs
      simp only [List.map_cons, List.map_nil, List.mem_cons, List.not_mem_nil, or_false] at hs
      rcases hs with rfl | rfl | rfl | rfl | rfl | rfl | rfl | rfl | rfl | rfl | rfl | rfl <;>
      (injection h with h; subst h)
      · exact lit0 0 le_rfl
      · show 0 ≤ (-(log (lit 0.01)) / (lit 2 * fmin (lit 0.457) (lit 2.35)) : Fl M).val
        have hl : M.log (lit 0.01 : Fl M).val ≤ 0 := by
          have h1 : (1/128:ℝ) ≤ (lit 0.01 : Fl M).val := by
            have : M.fl (1/128) = 1/128 := (M.exact_dyadic 1 7 _ (by norm_num) (by norm_num) (by norm_num))
            rw [← this, Fl.lit_val]
            exact M.fl_mono _ _ (by norm_num)
          have h2 : (lit 0.01 : Fl M).val ≤ 1 := by
            rw [Fl.lit_val]
            have := M.fl_le_int (k := 1) (by norm_num) (x := ((0.01:ℚ):ℝ)) (by norm_num)
            exact_mod_cast this
          exact M.log_nonpos _ (by linarith) h2
        apply M.fl_nonneg
        apply div_nonneg
        · rw [Fl.neg_val, Fl.log_val]; linarith
        · exact M.fl_nonneg (mul_nonneg (lit0 2 (by norm_num)) (le_min (lit0 0.457 (by norm_num)) (lit0 2.35 (by norm_num))))
      all_goals first
        | exact ws _ _ _ _ (by norm_num) (by norm_num)
        | exact df _ _ _ _ _ _ (by norm_num) (by norm_num)
    · obtain ⟨h1, h2⟩ := C11_other_strings hdf5 disk dmin species hs
      by_cases hf : filenameIsHdf5 species = true ∧ hdf5 = true
      · rw [h1 hf.1 hf.2] at h
        unfold manualCreate at h
        split at h
        · cases h
        · cases h
        · split at h
          · cases h
          · split at h
            · cases h
            · split at h
              · cases h
              · split at h
                · cases h
                · dsimp only at h
                  split at h
                  · cases h
                  · injection h with h
                    subst h
                    exact M.fl_nonneg (Real.sqrt_nonneg _)
          · cases h
      · obtain ⟨msg, h2⟩ := h2 hf
        rw [h2] at h; cases h
  | sample fuel nuc nuc' offset w w' h hs ih =>
    unfold Nucleus.radius at *
    rw [(sampleNucleons_reset h.wf hs).1]; exact ih
  | collide nuc ns h hl ih => exact ih

/-! ## The run -/

/-- A usable projectile: made by `Nucleus::create`, with at least one configuration if from a file, nucleons within `N` of the centre. -/
structure Spec.UsableFl (M : Machine) (E D : Type) [Rng (Fl M) E D] (nuc : Nucleus (Fl M)) (N : ℕ) : Prop where
  hist : NucleusHistory E D nuc
  configs : NonEmptyConfigs nuc.kind
  reach : ReachFl M E D nuc.kind N

theorem depositable_sampling [LawfulRngFl M E D] {kind : Kind (Fl M)} {N X C : ℕ} (hc : NonEmptyConfigs kind) (hr : ReachFl M E D kind N) {K : ℕ}
    (hN : N + K < 2 ^ 53) (hX : N + K ≤ X) {off : Fl M → Prop} (ho : ∀ x, off x → |x.val| ≤ K) :
    SamplingInvariant E D kind off (DepositableFl (M := M) X C) (fun e => e = .fuel) := by
  intro nuc rfuel x w hh hk hx
  refine ⟨fun e he => ?_, ?_⟩
  · exact sampling_only_fuel (fun k d e => LawfulRngFl.uniformInt_le (M := M) k d e) nuc hh (by rw [hk]; exact hc) _ _ _ _ he
  · intro nuc' w' hs n hn
    have h1 := (C12_sampling_resets nuc nuc' hh _ _ _ _ hs).2 n hn
    have h2 := hr nuc nuc' rfuel x w w' K hh hk (ho x hx) hN hs n hn
    have c1 : ((N + K : ℕ) : ℝ) ≤ X := Nat.cast_le.2 hX
    have c2 : ((N : ℕ) : ℝ) ≤ X := Nat.cast_le.2 (by omega)
    exact ⟨h2.1.trans c1, h2.2.trans c2, fun h => absurd h (by rw [h1.1]; simp), fun h => absurd h (by rw [h1.2]; simp)⟩

theorem compute_fl_total (w v : Fl M) (hv : 1e-10 ≤ v.val) (m : ℕ) (σ : Fl M) (nc : Bool) (k : Fl M) (c : EventCfg (Fl M)) (hd : 0 < c.dxy.val)
    {n : ℕ} (hn : c.nsteps = n) (hn1 : 1 ≤ n) {X C V G : ℕ} (hV : V < 9 * 10^7) (hv5 : 5 * v.val ≤ V) (hXC : X + 2 * C + V < 2 ^ 53) (hG : G < 2 ^ 53)
    (hGd : (G:ℝ) / c.dxy.val ≤ 2147483647) (hGx : ((C + (X + C) + V : ℕ):ℝ) + |c.xymax.val| ≤ G)
    (A B : List (NucleonData (Fl M))) (hA : ∀ a ∈ A, DepositableFl X C a) (hB : ∀ a ∈ B, DepositableFl X C a) (ev : Event (Fl M) n) :
    ∃ ev', ev.compute c (NucleonCommon.make w v m σ nc k) false A B = .ok ev' := by
  unfold Event.compute computeNuclearThickness
  obtain ⟨⟨g1, j1⟩, h1⟩ := depositAll_fl_total w v hv m σ nc k c hd hn hn1 hV hv5 hXC hG hGd hGx A hA (fun _ _ => lit 0) 0
  obtain ⟨⟨g2, j2⟩, h2⟩ := depositAll_fl_total w v hv m σ nc k c hd hn hn1 hV hv5 hXC hG hGd hGx B hB (fun _ _ => lit 0) j1
  rw [h1]
  dsimp only
  rw [h2]
  exact ⟨_, rfl⟩

theorem samplingWidth_fl_nonneg (w v : Fl M) (m : ℤ) : 0 ≤ (calcSamplingWidth w v m).val := by
  unfold calcSamplingWidth
  dsimp only
  split
  · rw [M.lit_zero]
  · exact M.fl_nonneg (Real.sqrt_nonneg _)

theorem offset_fl (o : Options (Fl M)) (sigma : Fl M) (hA : NucleusHistory E D o.projectileA) (hB : NucleusHistory E D o.projectileB) {B : ℕ}
    (hB7 : B ≤ 10^7) (h0 : 0 ≤ o.bMin.val) (h1 : o.bMin.val ≤ (Collider.make o sigma).bmax.val) (h2 : (Collider.make o sigma).bmax.val ≤ B)
    (u : Fl M) (hu0 : 0 ≤ u.val) (hu1 : u.val ≤ 1) :
    |((Collider.make o sigma).asymmetry * impactFormula o.bMin (Collider.make o sigma).bmax u).val| ≤ (2 * (B + 1) : ℕ) ∧
    |(((Collider.make o sigma).asymmetry - lit 1) * impactFormula o.bMin (Collider.make o sigma).bmax u).val| ≤ (2 * (B + 1) : ℕ) := by
  have hb := impact_fl o.bMin (Collider.make o sigma).bmax u hB7 h0 h1 h2 hu0 hu1
  have ha := asym_fl o.projectileA o.projectileB (radius_fl_nonneg hA) (radius_fl_nonneg hB)
  have e : (Collider.make o sigma).asymmetry = determineAsym o.projectileA o.projectileB := rfl
  rw [e]
  generalize impactFormula o.bMin (Collider.make o sigma).bmax u = b at *
  generalize determineAsym o.projectileA o.projectileB = a at *
  have hb' : |b.val| ≤ (B + 1 : ℕ) := by rw [abs_of_nonneg hb.1]; exact hb.2
  have hm : 2 * (B + 1) < 2 ^ 53 := by omega
  constructor
  · rw [Fl.mul_val]
    exact M.abs_mul_nat hm (by rw [abs_of_nonneg ha.1]; exact_mod_cast ha.2) hb'
  · rw [Fl.mul_val]
    refine M.abs_mul_nat hm ?_ hb'
    rw [Fl.sub_val, M.lit_one]
    apply M.abs_fl_le_nat (by norm_num)
    rw [abs_le]
    push_cast
    constructor <;> linarith [ha.1, ha.2]

/-- **C78.** Rounded arithmetic.  Projectiles made by `Nucleus::create` whose nucleons stay within `N` fm of the centre, constituent width
between 1e-10 and 2e6 fm, between one and a million constituents, `0 ≤ b-min ≤ b-max ≤ B` (the default maximum included), constituent displacements at most
`C`, a grid with positive step and size whose number of cells fits an `int`, coordinates moderate compared with the step: then, in a release
build, a run never executes undefined behaviour and never throws: it delivers its records or keeps running. -/
theorem C78_no_undefined_behaviour_rounded [LawfulRngFl M E D] {K : ℝ} (hK : NormalBoundedFl M E D K) (o : Options (Fl M)) (sigma : Fl M) {N B C V : ℕ}
    (hA : UsableFl M E D o.projectileA N) (hB : UsableFl M E D o.projectileB N)
    (hv : 1e-10 ≤ o.constitWidth.val) (hV : 5 * o.constitWidth.val ≤ V) (hm : 1 ≤ o.constitNumber) (hm2 : o.constitNumber ≤ 10^6)
    (hC : K * (calcSamplingWidth o.nucleonWidth o.constitWidth o.constitNumber).val ≤ C)
    (h0 : 0 ≤ o.bMin.val) (hmin : o.bMin.val ≤ (Collider.make o sigma).bmax.val) (hbmax : (Collider.make o sigma).bmax.val ≤ B)
    (hN9 : N ≤ 10^9) (hB7 : B ≤ 10^7) (hC9 : C ≤ 10^9) (hV7 : V ≤ 10^7)
    (hs : 1e-100 ≤ o.gridStep.val) (hs9 : o.gridStep.val ≤ 1e9) (hg : 1e-100 ≤ o.gridMax.val) (hg9 : o.gridMax.val ≤ 1e9)
    (hfit : 2 * o.gridMax.val / o.gridStep.val ≤ 2147483646)
    (hmod : (N + 2 * (B + 1) + 2 * C + V + (o.gridMax.val + o.gridStep.val) + 2) / o.gridStep.val ≤ 2147483647)
    (rfuel fuel : Nat) (ev0 : (n : Nat) → Event (Fl M) n) (w : Rand E D) :
    (∃ res, runAll rfuel fuel o sigma false ev0 w = .ok res) ∨ runAll rfuel fuel o sigma false ev0 w = .error .fuel := by
  obtain ⟨ec, hec, g1, g2, g3, g4, g5⟩ := eventCfg_fl o.normalization o.gridStep o.gridMax o.reducedThickness hg hg9 hs hs9 hfit
  have hd : 0 < o.gridStep.val := by linarith
  have hCd : ∀ (d : D) (e : E), |(Rng.normal (lit 0 : Fl M) (Collider.make o sigma).nc.samplingWidth d e).1.val| ≤ C := fun d e =>
    (hK _ d e (samplingWidth_fl_nonneg _ _ _)).trans hC
  have hmC : o.constitNumber * C < 2 ^ 53 := by
    have := Nat.mul_le_mul hm2 hC9
    exact lt_of_le_of_lt this (by norm_num)
  have hX53 : N + 2 * (B + 1) + 2 * C + V < 2 ^ 53 := by omega
  -- the farthest coordinate handed to an index computation
  obtain ⟨H, hH1, hH2⟩ : ∃ H : ℕ, o.gridMax.val + o.gridStep.val + 1 ≤ H ∧ (H:ℝ) ≤ o.gridMax.val + o.gridStep.val + 2 := by
    refine ⟨⌈o.gridMax.val + o.gridStep.val + 1⌉₊, Nat.le_ceil _, ?_⟩
    have := Nat.ceil_lt_add_one (a := o.gridMax.val + o.gridStep.val + 1) (by linarith)
    linarith
  have hH53 : H ≤ 10^10 := by
    have : (H:ℝ) ≤ ((10000000000:ℕ):ℝ) := by push_cast; linarith
    exact_mod_cast this
  have hX : NucleonInvariant E D (Collider.make o sigma).nc (DepositableFl (M := M) (N + 2 * (B + 1)) C) :=
    depositable_invariant hCd hm (by show o.constitNumber < _; omega) hmC (by omega)
  have hoff := offset_fl o sigma hA.hist hB.hist hB7 h0 hmin hbmax
  have key := runLoop_inv (E := E) (D := D) (c := Collider.make o sigma) (ec := ec) (debug := false) (n := ec.nsteps.toNat)
    (P := DepositableFl (N + 2 * (B + 1)) C) (Q := fun e => e = .fuel) (R := fun _ => True) rfl hX
    (depositable_sampling hA.configs hA.reach (K := 2 * (B + 1)) (by omega) le_rfl (by
      rintro x ⟨w, rfl⟩
      exact (hoff _ (canonicalFl_mem w).1 (canonicalFl_mem w).2).1))
    (depositable_sampling hB.configs hB.reach (K := 2 * (B + 1)) (by omega) le_rfl (by
      rintro x ⟨w, rfl⟩
      exact (hoff _ (canonicalFl_mem w).1 (canonicalFl_mem w).2).2))
    (fun ev A' B' pA pB => by
      obtain ⟨ev', h'⟩ := compute_fl_total o.nucleonWidth o.constitWidth hv o.constitNumber sigma o.ncoll o.fluctuation ec (by rw [g2]; exact hd) g3 g4
        (X := N + 2 * (B + 1)) (C := C) (V := V) (G := N + 2 * (B + 1) + 2 * C + V + H) (by omega) hV (by omega) (by omega)
        (by
          rw [g2]
          refine le_trans (div_le_div_of_nonneg_right ?_ hd.le) hmod
          push_cast
          linarith)
        (by push_cast; linarith) A' B' pA pB ev
      refine ⟨fun e he => ?_, fun _ _ => trivial⟩
      rw [show (Collider.make o sigma).nc = NucleonCommon.make o.nucleonWidth o.constitWidth o.constitNumber sigma o.ncoll o.fluctuation from rfl, h'] at he
      cases he)
    rfuel fuel (Collider.make o sigma).nevents.toNat 0
    ⟨(Collider.make o sigma).nucleusA, (Collider.make o sigma).nucleusB, ev0 ec.nsteps.toNat, seedRand (Fl M) o.randomSeed w⟩ hA.hist hB.hist rfl rfl
  unfold runAll
  rw [hec]
  dsimp only
  unfold Collider.runEvents
  cases hr : runLoop rfuel fuel (Collider.make o sigma) ec false (Collider.make o sigma).nevents.toNat 0
      ⟨(Collider.make o sigma).nucleusA, (Collider.make o sigma).nucleusB, ev0 ec.nsteps.toNat, seedRand (Fl M) o.randomSeed w⟩ with
  | error e =>
    right
    have := key.1 e hr
    subst this
    rfl
  | ok r => left; exact ⟨_, rfl⟩

end Trento
