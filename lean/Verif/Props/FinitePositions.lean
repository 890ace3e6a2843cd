import Verif.Props.Finite
import Verif.Props.ExampleRun

/-!
# Finite positions, events without overlap, and where special values do arise (C18, C32, C71)
-/

namespace Trento
open XReal Spec
variable {E D : Type} [Rng ℝ E D]

/-! ## C18 -/

/-- Every coordinate is a finite number. -/
def Spec.FinitePosition (n : NucleonData XReal) : Prop := n.x.IsFinite ∧ n.y.IsFinite ∧ n.z.IsFinite

/-- The random state after `k` uniform numbers. -/
def Spec.afterDraws : ℕ → Rand E D → Rand E D
  | 0, w => w
  | k+1, w => afterDraws k (canonical (F := ℝ) w).2

/-- The uniform number a deuteron proposal number `k` starts from; each proposal takes two numbers. -/
def Spec.deuteronDraw (k : ℕ) (w : Rand E D) : ℝ := (canonical (F := ℝ) (afterDraws (2*k) w)).1

theorem afterDraws_two (k : ℕ) (w : Rand E D) :
    afterDraws (2*(k+1)) w = afterDraws (2*k) (canonical (F := ℝ) (canonical (F := ℝ) w).2).2 := rfl

theorem deuteronDraw_succ (k : ℕ) (w : Rand E D) :
    deuteronDraw (k+1) w = deuteronDraw k (canonical (F := ℝ) (canonical (F := ℝ) w).2).2 := by
  unfold deuteronDraw; rw [afterDraws_two]

/-- **C18, every nucleus but the deuteron.** All positions are finite, whatever the random source returns. -/
theorem C18_finite_positions [LawfulRng E D] (nuc : Nucleus ℝ) (hh : NucleusHistory E D nuc) (hd : nuc.kind.notDeuteron) (fuel : ℕ) (o : ℝ)
    (w w' : Rand E D) (nuc' : Nucleus XReal) (h : (nuc.map fin).sampleNucleons fuel (fin o) w = .ok (nuc', w')) :
    ∀ n ∈ nuc'.nucleons, FinitePosition n := by
  rw [fin_sampleNucleons fuel nuc (history_regular hh) (.inl hd)] at h
  cases hr : nuc.sampleNucleons fuel o w with
  | error e => rw [hr] at h; cases h
  | ok r =>
    rw [hr] at h
    cases h
    intro n hn
    obtain ⟨n0, -, rfl⟩ := List.mem_map.mp hn
    exact ⟨⟨_, rfl⟩, ⟨_, rfl⟩, ⟨_, rfl⟩⟩

/-- A zero makes the proposal radius `+∞` and the acceptance probability NaN, so that the proposal is accepted. -/
theorem deuteron_zero (a b : ℝ) (ha : 0 < a) (hb : 0 < b) :
    deuteronRadius (fin a) (fin 0) = pinf ∧ deuteronProb (fin a) (fin b) (fin 0) pinf = nan := by
  have e1 : log (fin 0) = ninf := by
    show (if (0:ℝ) < 0 then fin (log 0) else if (0:ℝ) = 0 then ninf else nan) = _
    rw [if_neg (lt_irrefl _), if_pos rfl]
  constructor
  · unfold deuteronRadius
    rw [e1, fin_lit, fin_mul]
    show (if 0 ≤ lit 2 * a then pinf else ninf) = pinf
    rw [if_pos]
    simp only [lit_real]; push_cast; positivity
  · unfold deuteronProb
    have p : ∀ c : ℝ, 0 < c → (-(fin c) * pinf : XReal) = ninf := by
      intro c hc
      show infMul (-c) = ninf
      unfold infMul
      rw [if_neg (by linarith), if_pos (by linarith)]
    rw [p a ha, p b hb]
    have e2 : exp ninf = fin 0 := rfl
    have e3 : (lit 2 : XReal) = fin 2 := by rw [fin_lit]; simp
    rw [e2, fin_sub, e3, fin_pow_two]
    show (if (0:ℝ) = 0 then infMul (pow (0 - 0) 2) else _) = nan
    rw [if_pos rfl]
    unfold infMul
    rw [pow_real]
    norm_num

theorem deuteronLoop_special [LawfulRng E D] {a b : ℝ} (ha : 0 < a) (hb : 0 < b) (fuel : ℕ) (w w' : Rand E D) (r : XReal)
    (h : deuteronLoop (fin a) (fin b) fuel w = .ok (r, w')) :
    ∃ k < fuel, w' = afterDraws (2*(k+1)) w ∧ (∀ j < k, deuteronDraw j w ≠ 0) ∧
      (deuteronDraw k w ≠ 0 → r.IsFinite) ∧ (deuteronDraw k w = 0 → r = pinf) := by
  induction fuel generalizing w with
  | zero => cases h
  | succ fuel ih =>
    rw [deuteronLoop] at h
    have ec : ∀ w : Rand E D, canonical (F := XReal) w = (fin (canonical (F := ℝ) w).1, (canonical (F := ℝ) w).2) := fun _ => rfl
    simp only [ec] at h
    have hp : deuteronDraw 0 w = (canonical (F := ℝ) w).1 := rfl
    have hu := (canonical_mem w).1
    by_cases h0 : (canonical (F := ℝ) w).1 = 0
    · refine ⟨0, by omega, ?_⟩
      rw [h0, (deuteron_zero a b ha hb).1, (deuteron_zero a b ha hb).2] at h
      have : lt (nan : XReal) (fin (canonical (F := ℝ) (canonical (F := ℝ) w).2).1) = false := rfl
      rw [this] at h
      simp only [Bool.false_eq_true, if_false, Except.ok.injEq, Prod.mk.injEq] at h
      refine ⟨h.2.symm, by intro j hj; omega, ?_, ?_⟩
      · intro hne; rw [hp] at hne; exact absurd h0 hne
      · intro _; exact h.1.symm
    · have hpos : 0 < (canonical (F := ℝ) w).1 := lt_of_le_of_ne hu (Ne.symm h0)
      by_cases hlt : lt (deuteronProb (fin a) (fin b) (fin (canonical (F := ℝ) w).1) (deuteronRadius (fin a) (fin (canonical (F := ℝ) w).1)))
          (fin (canonical (F := ℝ) (canonical (F := ℝ) w).2).1) = true
      · simp only [hlt, if_true] at h
        obtain ⟨k, hk, h1, h2, h3, h4⟩ := ih _ h
        refine ⟨k+1, by omega, h1, ?_, ?_, ?_⟩
        · intro j hj
          rcases j with _ | j
          · rw [hp]; exact h0
          · rw [deuteronDraw_succ]; exact h2 j (by omega)
        · rw [deuteronDraw_succ]; exact h3
        · rw [deuteronDraw_succ]; exact h4
      · simp only [hlt, Bool.false_eq_true, if_false, Except.ok.injEq, Prod.mk.injEq] at h
        refine ⟨0, by omega, h.2.symm, by intro j hj; omega, ?_, ?_⟩
        · intro _; rw [← h.1, fin_deuteronRadius ha.ne' hpos]; exact ⟨_, rfl⟩
        · intro hz; rw [hp] at hz; exact absurd hz h0

theorem history_deuteron {nuc : Nucleus ℝ} (h : NucleusHistory E D nuc) : ∀ a b, nuc.kind = .deuteron a b → 0 < a ∧ 0 < b := by
  induction h with
  | create hdf5 disk species dmin nuc h =>
    intro a b hk
    rcases createNucleus_cases h with rfl | ⟨-, rfl⟩ | ⟨A, R, a, hR, ha, rfl⟩ | ⟨A, R, a, b2, b4, hR, ha, rfl⟩ | ⟨cf, rm, A, -, rfl⟩
    · cases hk
    · simp only [mkDeuteron, Nucleus.ofKind, lit_real, fmin_real, fmax_real] at hk
      cases hk
      norm_num
    · cases hk
    · cases hk
    · cases hk
  | sample nuc nuc' fuel offset w w' hh h ih => rw [(sampleNucleons_reset hh.wf h).1]; exact ih
  | collide nuc ns hh hl ih => exact ih

theorem pinf_mul_not_finite (c : ℝ) : ¬ (pinf * fin c : XReal).IsFinite := by
  rintro ⟨r, hr⟩
  have hr' : infMul c = fin r := hr
  unfold infMul at hr'
  split at hr'
  · cases hr'
  · split at hr' <;> cases hr'

theorem neg_not_finite {x : XReal} (h : ¬ x.IsFinite) : ¬ (-x : XReal).IsFinite := by
  rintro ⟨r, hr⟩
  cases x with
  | fin x => exact h ⟨_, rfl⟩
  | pinf => cases hr
  | ninf => cases hr
  | nan => cases hr

/-- **C18, the deuteron.** If sampling returns, some proposal `k` was accepted, every earlier proposal started from a non-zero
uniform number, and: if proposal `k` started from a non-zero number, all coordinates are finite; if it started from exactly 0,
the longitudinal coordinate of each of the two nucleons is infinite or NaN. -/
theorem C18_deuteron [LawfulRng E D] (nuc : Nucleus ℝ) (hh : NucleusHistory E D nuc) (a b : ℝ) (hk : nuc.kind = .deuteron a b) (fuel : ℕ)
    (o : ℝ) (w w' : Rand E D) (nuc' : Nucleus XReal) (h : (nuc.map fin).sampleNucleons fuel (fin o) w = .ok (nuc', w')) :
    ∃ k < fuel, (∀ j < k, deuteronDraw j w ≠ 0) ∧ w' = afterDraws (2*(k+1) + 2) w ∧
      (deuteronDraw k w ≠ 0 → ∀ n ∈ nuc'.nucleons, FinitePosition n) ∧
      (deuteronDraw k w = 0 → ∀ n ∈ nuc'.nucleons, ¬ n.z.IsFinite) := by
  obtain ⟨ha, hb⟩ := history_deuteron hh a b hk
  have hl : nuc.nucleons.length = 2 := by
    have := hh.wf
    unfold Nucleus.WF at this
    rw [hk] at this
    exact this
  obtain ⟨kind, ns, off⟩ := nuc
  cases hk
  obtain ⟨n1, n2, rfl⟩ : ∃ n1 n2, ns = [n1, n2] := by
    match ns, hl with
    | [n1, n2], _ => exact ⟨n1, n2, rfl⟩
  unfold Nucleus.sampleNucleons at h
  simp only [Nucleus.map, Kind.map, List.map_cons, List.map_nil] at h
  unfold sampleDeuteron at h
  cases hlp : deuteronLoop (fin a) (fin b) fuel w with
  | error e => simp only [hlp] at h; cases h
  | ok r =>
    obtain ⟨r, w1⟩ := r
    obtain ⟨k, hkf, h1, h2, h3, h4⟩ := deuteronLoop_special ha hb fuel w w1 r hlp
    simp only [hlp] at h
    simp only [Except.ok.injEq, Prod.mk.injEq] at h
    obtain ⟨h, hw⟩ := h
    refine ⟨k, hkf, h2, ?_, ?_, ?_⟩
    · rw [← hw, h1]
      have : ∀ (j : ℕ) (w : Rand E D), afterDraws (j + 2) w = (canonical (F := ℝ) (canonical (F := ℝ) (afterDraws j w)).2).2 := by
        intro j
        induction j with
        | zero => intro w; rfl
        | succ j ih => intro w; exact ih _
      rw [this]
      rfl
    · intro hne
      obtain ⟨r0, rfl⟩ := h3 hne
      have es := fin_spherical r0 (cosTheta (F := ℝ) w1).1 (phi (F := ℝ) (cosTheta (F := ℝ) w1).2).1 (one_sub_cosTheta_sq w1)
      have ec : cosTheta (F := XReal) w1 = (fin (cosTheta (F := ℝ) w1).1, (cosTheta (F := ℝ) w1).2) := by
        simp only [cosTheta]; rw [show canonical (F := XReal) w1 = (fin (canonical (F := ℝ) w1).1, (canonical (F := ℝ) w1).2) from rfl]
        simp
      have ep : ∀ w : Rand E D, phi (F := XReal) w = (fin (phi (F := ℝ) w).1, (phi (F := ℝ) w).2) := fun _ => rfl
      simp only [ec, ep, es] at h
      rw [← h]
      intro n hn
      simp only [List.mem_cons, List.not_mem_nil, or_false] at hn
      rcases hn with rfl | rfl <;> exact ⟨⟨_, rfl⟩, ⟨_, rfl⟩, ⟨_, rfl⟩⟩
    · intro hz
      have hr := h4 hz
      subst hr
      rw [← h]
      have hc : ∃ c : ℝ, (cosTheta (F := XReal) w1).1 = fin c := by
        refine ⟨(cosTheta (F := ℝ) w1).1, ?_⟩
        simp only [cosTheta]; rw [show canonical (F := XReal) w1 = (fin (canonical (F := ℝ) w1).1, (canonical (F := ℝ) w1).2) from rfl]
        simp
      obtain ⟨c, hc⟩ := hc
      have hzc : ¬ (pinf * (cosTheta (F := XReal) w1).1 : XReal).IsFinite := by rw [hc]; exact pinf_mul_not_finite c
      intro n hn
      simp only [List.mem_cons, List.not_mem_nil, or_false] at hn
      rcases hn with rfl | rfl
      · exact hzc
      · exact neg_not_finite hzc

/-- It can happen: a generator whose first number is 0 yields a deuteron with infinite or undefined coordinates, however the
sampling goes on. -/
theorem C18_zero_is_accepted [LawfulRng E D] (nuc : Nucleus ℝ) (hh : NucleusHistory E D nuc) (a b : ℝ) (hk : nuc.kind = .deuteron a b)
    (fuel : ℕ) (o : ℝ) (w : Rand E D) (h0 : deuteronDraw 0 w = 0) :
    ∃ nuc' w', (nuc.map fin).sampleNucleons (fuel+1) (fin o) w = .ok (nuc', w') ∧ nuc'.nucleons.length = 2 ∧
      ∀ n ∈ nuc'.nucleons, ¬ n.z.IsFinite := by
  obtain ⟨ha, hb⟩ := history_deuteron hh a b hk
  have hl : nuc.nucleons.length = 2 := by
    have := hh.wf
    unfold Nucleus.WF at this
    rw [hk] at this
    exact this
  have hrun : ∃ nuc' w', (nuc.map fin).sampleNucleons (fuel+1) (fin o) w = .ok (nuc', w') ∧ nuc'.nucleons.length = 2 := by
    obtain ⟨kind, ns, off⟩ := nuc
    cases hk
    obtain ⟨n1, n2, rfl⟩ : ∃ n1 n2, ns = [n1, n2] := by
      match ns, hl with
      | [n1, n2], _ => exact ⟨n1, n2, rfl⟩
    have hlp : deuteronLoop (fin a) (fin b) (fuel+1) w = .ok (pinf, (canonical (F := ℝ) (canonical (F := ℝ) w).2).2) := by
      rw [deuteronLoop]
      have ec : ∀ w : Rand E D, canonical (F := XReal) w = (fin (canonical (F := ℝ) w).1, (canonical (F := ℝ) w).2) := fun _ => rfl
      have h0' : (canonical (F := ℝ) w).1 = 0 := h0
      simp only [ec]
      rw [h0', (deuteron_zero a b ha hb).1, (deuteron_zero a b ha hb).2]
      rfl
    unfold Nucleus.sampleNucleons
    simp only [Nucleus.map, Kind.map, List.map_cons, List.map_nil]
    unfold sampleDeuteron
    simp only [hlp]
    exact ⟨_, _, rfl, rfl⟩
  obtain ⟨nuc', w', h, hlen⟩ := hrun
  obtain ⟨k, -, h2, -, -, h4⟩ := C18_deuteron nuc hh a b hk (fuel+1) o w w' nuc' h
  refine ⟨nuc', w', h, hlen, h4 ?_⟩
  rcases k with _ | k
  · exact h0
  · exact absurd h0 (h2 0 (by omega))

/-- The hypotheses are met: the deuteron made by `Nucleus::create` and the all-zero random tape. -/
example : ∃ nuc : Nucleus ℝ, NucleusHistory Tape Unit nuc ∧ (∃ a b, nuc.kind = .deuteron a b) ∧
    deuteronDraw 0 zeroTape = 0 := by
  refine ⟨_, .create false (fun _ => .missing) "d" 0 _ rfl, ⟨_, _, rfl⟩, ?_⟩
  rfl

/-! ## C32 -/

/-- **C32.** Special values included: if all reduced-thickness cells of a computed event compare below `1e-12`, the four
eccentricities are exactly 0, whatever the centre of mass is. -/
theorem C32_zero_eccentricities {n : ℕ} (ev : Event XReal n) (h : ∀ iy ix, lt (ev.TR iy ix) TINY = true) :
    (computeObservables ev).ecc = ⟨fin 0, fin 0, fin 0, fin 0⟩ := by
  rw [C32_no_overlap ev h]
  have : EccAcc.finish (⟨lit 0, lit 0, lit 0⟩ : EccAcc XReal) = fin 0 := by
    have := fin_finish ⟨lit 0, lit 0, lit 0⟩
    rw [show (⟨lit 0, lit 0, lit 0⟩ : EccAcc XReal) = EccAcc.map fin ⟨lit 0, lit 0, lit 0⟩ from rfl, this]
    simp [EccAcc.finish]
  rw [this]

/-- **C32, whole events.** Compute an event, special values included, from nucleons at finite positions whose participants carry
non-negative weights.  If no cell of the reduced thickness reaches `1e-12`, the eccentricities are exactly 0 and the multiplicity
and all cells are finite numbers. -/
theorem C32_event (w v : ℝ) (m : ℕ) (σ : ℝ) (ncoll : Bool) (k : ℝ) (hv : 0 < v) (hm : m ≠ 0) (c : EventCfg ℝ) (hd : 0 < c.dxy)
    (debug : Bool) {n : ℕ} (hn : c.nsteps = n) (A B : List (NucleonData ℝ))
    (hA : ∀ a ∈ A, a.isParticipant = true → ∀ q ∈ a.constituents, 0 ≤ q.fluctuation)
    (hB : ∀ b ∈ B, b.isParticipant = true → ∀ q ∈ b.constituents, 0 ≤ q.fluctuation) (ev ev' : Event XReal n)
    (h : Event.compute (c.map fin) ((NucleonCommon.make w v m σ ncoll k).map fin) debug ev (finNs A) (finNs B) = .ok ev')
    (hsmall : ∀ iy ix, lt (ev'.TR iy ix) TINY = true) :
    ev'.ecc = ⟨fin 0, fin 0, fin 0, fin 0⟩ ∧ ev'.multiplicity.IsFinite ∧
    ∀ iy ix, (ev'.TA iy ix).IsFinite ∧ (ev'.TB iy ix).IsFinite ∧ (ev'.TR iy ix).IsFinite := by
  have hs := fin_Event_compute (w := w) (σ := σ) (ncoll := ncoll) (k := k) hv hm hd debug hn hA hB
    ⟨fun _ _ => 0, fun _ _ => 0, fun _ _ => 0, 0, 0, 0, 0, ⟨0, 0, 0, 0⟩⟩ ev
  rw [h] at hs
  obtain ⟨TA, TB, npA, npB, -, -, rfl⟩ := compute_ok h
  refine ⟨C32_zero_eccentricities _ hsmall, ?_⟩
  cases hr : Event.compute c (NucleonCommon.make w v m σ ncoll k) debug
    (⟨fun _ _ => 0, fun _ _ => 0, fun _ _ => 0, 0, 0, 0, 0, ⟨0, 0, 0, 0⟩⟩ : Event ℝ n) A B with
  | error e => rw [hr] at hs; exact hs.elim
  | ok e =>
    rw [hr] at hs
    have hs : SameEvent _ e := hs
    exact ⟨⟨_, hs.multiplicity⟩, fun iy ix => ⟨⟨_, hs.TA iy ix⟩, ⟨_, hs.TB iy ix⟩, ⟨_, hs.TR iy ix⟩⟩⟩

/-- The centre of mass of such an event can really be NaN: it is, for instance, if nothing is deposited at all. -/
theorem C32_centre_is_nan (c : EventCfg ℝ) {n : ℕ} (ev : Event XReal n) (hA : ∀ iy ix, ev.TA iy ix = fin 0)
    (hB : ∀ iy ix, ev.TB iy ix = fin 0) :
    (computeReducedThickness (c.map fin) ev).ixcm = nan ∧ (computeReducedThickness (c.map fin) ev).iycm = nan ∧
    (∀ iy ix, (computeReducedThickness (c.map fin) ev).TR iy ix = fin 0) := by
  have eA : ev.TA = Grid.map fin (fun _ _ => (0:ℝ)) := by funext i j; exact hA i j
  have eB : ev.TB = Grid.map fin (fun _ _ => (0:ℝ)) := by funext i j; exact hB i j
  have g0 : genMean c.p (0:ℝ) 0 = 0 := by
    unfold genMean
    split
    · simp [geometricMean]
    · split
      · rename_i hp
        have : 0 < c.p := by simpa using hp
        simp only [positivePmean, pow_real, Real.zero_rpow this.ne', lit_real]
        norm_num
        exact Real.zero_rpow (inv_ne_zero this.ne')
      · unfold negativePmean
        have : lt (0:ℝ) TINY = true := by rw [lt_real, TINY_real]; exact decide_eq_true (by norm_num)
        simp [this]
  obtain ⟨s1, s2, s3⟩ := fin_rt_foldl c (fun _ _ => (0:ℝ)) (fun _ _ => 0) (n := n) (fun _ _ => le_refl _) (fun _ _ => le_refl _) (cells n)
    ⟨fun _ _ => 0, lit 0, lit 0, lit 0⟩ ⟨ev.TR, lit 0, lit 0, lit 0⟩ rfl rfl rfl
  have r0 : ∀ (l : List (Fin n × Fin n)) (s : RTState ℝ n), s.sum = 0 → s.ixcm = 0 → s.iycm = 0 →
      (l.foldl (rtStep c (fun _ _ => (0:ℝ)) (fun _ _ => 0)) s).sum = 0 ∧
      (l.foldl (rtStep c (fun _ _ => (0:ℝ)) (fun _ _ => 0)) s).ixcm = 0 ∧
      (l.foldl (rtStep c (fun _ _ => (0:ℝ)) (fun _ _ => 0)) s).iycm = 0 := by
    intro l
    induction l with
    | nil => intro s h1 h2 h3; exact ⟨h1, h2, h3⟩
    | cons i l ih =>
      intro s h1 h2 h3
      rw [List.foldl_cons]
      apply ih <;> simp [rtStep, g0, h1, h2, h3]
  obtain ⟨z1, z2, z3⟩ := r0 (cells n) ⟨fun _ _ => 0, lit 0, lit 0, lit 0⟩ (by simp) (by simp) (by simp)
  rw [z1] at s1
  rw [z2] at s2
  rw [z3] at s3
  have e00 : (fin 0 / fin 0 : XReal) = nan := by
    show (if (0:ℝ) = 0 then infMul 0 else _) = nan
    rw [if_pos rfl]
    simp [infMul]
  refine ⟨?_, ?_, ?_⟩
  · show _ / _ = nan
    rw [eA, eB, s1, s2, e00]
  · show _ / _ = nan
    rw [eA, eB, s1, s3, e00]
  · intro i j
    rw [computeReducedThickness_TR, hA, hB]
    have : genMean (c.map fin).p (fin 0) (fin 0) = fin (genMean c.p 0 0) := fin_genMean (le_refl _) (le_refl _)
    rw [this, g0]
    show fin (c.norm * 0) = fin 0
    rw [mul_zero]

/-! ## Zero constituents -/

theorem notFinite_mul {x : XReal} (s : XReal) (h : ¬ x.IsFinite) : ¬ (s * x : XReal).IsFinite := by
  rintro ⟨r, hr⟩
  have hr' : XReal.mul s x = fin r := hr
  have inf : ∀ y, infMul y ≠ fin r := by
    intro y hy
    unfold infMul at hy
    split at hy
    · cases hy
    · split at hy <;> cases hy
  cases x with
  | fin x => exact h ⟨_, rfl⟩
  | nan => cases s <;> cases hr'
  | pinf => cases s <;> first | cases hr' | exact inf _ hr'
  | ninf => cases s <;> first | cases hr' | exact inf _ hr'

theorem notFinite_div {x : XReal} (y : ℝ) (h : ¬ x.IsFinite) : ¬ (x / fin y : XReal).IsFinite := by
  rintro ⟨r, hr⟩
  have hr' : XReal.div x (fin y) = fin r := hr
  cases x with
  | fin x => exact h ⟨_, rfl⟩
  | nan => cases hr'
  | pinf =>
    simp only [XReal.div] at hr'
    split at hr' <;> cases hr'
  | ninf =>
    simp only [XReal.div] at hr'
    split at hr' <;> cases hr'

theorem div_zero_notFinite (x : XReal) : ¬ (x / fin 0 : XReal).IsFinite := by
  cases x with
  | fin x =>
    rintro ⟨r, hr⟩
    have hr' : (if (0:ℝ) = 0 then infMul x else fin (x / 0)) = fin r := hr
    rw [if_pos rfl] at hr'
    unfold infMul at hr'
    split at hr'
    · cases hr'
    · split at hr' <;> cases hr'
  | nan => exact notFinite_div 0 (by rintro ⟨r, hr⟩; cases hr)
  | pinf => exact notFinite_div 0 (by rintro ⟨r, hr⟩; cases hr)
  | ninf => exact notFinite_div 0 (by rintro ⟨r, hr⟩; cases hr)

theorem notFinite_mul_zero {x : XReal} (h : ¬ x.IsFinite) : (x * fin 0 : XReal) = nan := by
  cases x with
  | fin x => exact absurd ⟨_, rfl⟩ h
  | nan => rfl
  | pinf => show infMul 0 = nan; simp [infMul]
  | ninf => show infMul (-0) = nan; simp [infMul]

/-- A nucleon without constituents that takes no part. -/
structure Bare {F : Type} (n : NucleonData F) : Prop where
  idle : n.isParticipant = false
  empty : n.constituentsExist = true → n.constituents = []

theorem bare_of_fresh {F : Type} {n : NucleonData F} (h : Fresh n) : Bare n :=
  ⟨h.1, fun he => absurd he (by rw [h.2]; simp)⟩

theorem participate_bare (o : Options XReal) (sigma : XReal) (hz : o.constitNumber = 0) (A B : NucleonData XReal) (w : Rand E D)
    (hA : Bare A) (hB : Bare B) :
    ((Collider.make o sigma).nc.participate A B w).1.1 = false ∧ Bare ((Collider.make o sigma).nc.participate A B w).1.2.1 ∧
    Bare ((Collider.make o sigma).nc.participate A B w).1.2.2 := by
  set nc := (Collider.make o sigma).nc with hnc
  have hn : nc.constituentNumber = 0 := hz
  have hs : ∀ (n : NucleonData XReal) (w : Rand E D), Bare n → Bare (nc.sampleConstituents n w).1 ∧
      (nc.sampleConstituents n w).1.constituents = [] := by
    intro n w h
    unfold NucleonCommon.sampleConstituents
    by_cases he : n.constituentsExist = true
    · simp only [he, if_true]; exact ⟨h, h.empty he⟩
    · simp only [he, Bool.false_eq_true, if_false, hn, drawConstituents, List.map_nil]
      exact ⟨⟨h.idle, fun _ => rfl⟩, trivial⟩
  have hp : ∀ u, lt (nc.oneMinusProb (fin 0)) u = false := by
    intro u
    have e1 : ¬ nc.prefactor.IsFinite := by
      have : nc.prefactor = oneDivTwoPi / sqr o.constitWidth / ofInt (o.constitNumber : ℤ) := rfl
      rw [this, hz]
      have : (ofInt ((0:ℕ):ℤ) : XReal) = fin 0 := by simp
      rw [this]
      exact div_zero_notFinite _
    have e2 : nc.oneMinusProb (fin 0) = nan := by
      unfold NucleonCommon.oneMinusProb
      have : (-nc.sigmaPartonic * nc.prefactor / (lit 2 * ofInt (nc.constituentNumber : ℤ)) * fin 0 : XReal) = nan := by
        apply notFinite_mul_zero
        have hd : (lit 2 * ofInt (nc.constituentNumber : ℤ) : XReal) = fin (lit 2 * ofInt (nc.constituentNumber : ℤ)) := rfl
        rw [hd]
        exact notFinite_div _ (notFinite_mul _ e1)
      rw [this]
      rfl
    rw [e2]
    rfl
  unfold NucleonCommon.participate
  simp only [hA.idle, Bool.false_and, Bool.false_eq_true, if_false]
  split
  · exact ⟨rfl, hA, hB⟩
  · obtain ⟨a1, a2⟩ := hs A w hA
    obtain ⟨b1, b2⟩ := hs B (nc.sampleConstituents A w).2 hB
    have ho : overlapSum nc.constituentWidthSq (nc.sampleConstituents A w).1.constituents
        (nc.sampleConstituents B (nc.sampleConstituents A w).2).1.constituents = fin 0 := by
      rw [a2]
      simp [overlapSum]
    simp only [ho, hp, Bool.false_eq_true, if_false]
    exact ⟨trivial, a1, b1⟩

theorem pairRow_bare (o : Options XReal) (sigma : XReal) (hz : o.constitNumber = 0) (cn : Bool) (A : NucleonData XReal)
    (Bs : List (NucleonData XReal)) (k : ℕ) (w : Rand E D) (hA : Bare A) (hB : ∀ b ∈ Bs, Bare b) :
    (pairRow (Collider.make o sigma).nc cn A Bs k false w).1.2.2.2 = false ∧ Bare (pairRow (Collider.make o sigma).nc cn A Bs k false w).1.1 ∧
    ∀ b ∈ (pairRow (Collider.make o sigma).nc cn A Bs k false w).1.2.1, Bare b := by
  induction Bs generalizing A k w with
  | nil => exact ⟨rfl, hA, hB⟩
  | cons B Bs ih =>
    simp only [pairRow]
    obtain ⟨h1, h2, h3⟩ := participate_bare o sigma hz A B w hA (hB B (by simp))
    simp only [h1, Bool.false_and, Bool.false_eq_true, if_false, Bool.or_self]
    obtain ⟨i1, i2, i3⟩ := ih _ k ((Collider.make o sigma).nc.participate A B w).2 h2 (fun b hb => hB b (by simp [hb]))
    refine ⟨i1, i2, ?_⟩
    intro b hb
    rcases List.mem_cons.mp hb with rfl | hb
    · exact h3
    · exact i3 b hb

theorem pairLoop_bare (o : Options XReal) (sigma : XReal) (hz : o.constitNumber = 0) (cn : Bool) (As Bs : List (NucleonData XReal))
    (k : ℕ) (w : Rand E D) (hA : ∀ a ∈ As, Bare a) (hB : ∀ b ∈ Bs, Bare b) :
    (pairLoop (Collider.make o sigma).nc cn As Bs k false w).1.2.2.2 = false := by
  induction As generalizing Bs k w with
  | nil => rfl
  | cons A As ih =>
    simp only [pairLoop]
    obtain ⟨h1, h2, h3⟩ := pairRow_bare o sigma hz cn A Bs k w (hA A (by simp)) hB
    rw [h1]
    exact ih _ _ _ (fun a ha => hA a (by simp [ha])) h3

/-- **C72.** `--constit-number 0` passes the validation of `main`, but with it the collision probability is NaN for every pair of
nucleons, so no pair ever participates: whatever the other options (special values included) and whatever the random sequence,
a run of at least one event never delivers a result. -/
theorem C72_zero_constituents (rfuel fuel : ℕ) (o : Options XReal) (sigma : XReal) (debug : Bool) (hz : o.constitNumber = 0)
    (hN : 0 < o.numberEvents) (hA : NucleusHistory E D o.projectileA) (hB : NucleusHistory E D o.projectileB)
    (ev0 : (n : ℕ) → Event XReal n) (w : Rand E D) (r : (n : ℕ) × List (EventRecord XReal n)) :
    runAll rfuel fuel o sigma debug ev0 w ≠ .ok r := by
  have hc : ∀ (fuel : ℕ) (A B : Nucleus XReal) (hA : NucleusHistory E D A) (hB : NucleusHistory E D B) (n : ℕ) (w : Rand E D) (r),
      collisionLoop rfuel (Collider.make o sigma) fuel A B n false w ≠ .ok r := by
    intro fuel
    induction fuel with
    | zero => intro A B _ _ n w r h; cases h
    | succ fuel ih =>
      intro A B hA hB n w r h
      rw [collisionLoop] at h
      dsimp only at h
      split at h
      · cases h
      · rename_i A1 w1 hA1
        split at h
        · cases h
        · rename_i B1 w2 hB1
          have fA := sampleNucleons_reset hA.wf hA1
          have fB := sampleNucleons_reset hB.wf hB1
          have hno := pairLoop_bare o sigma hz (Collider.make o sigma).calcNcoll A1.nucleons B1.nucleons n w2
            (fun a ha => bare_of_fresh (fA.2.2.2 a ha)) (fun a ha => bare_of_fresh (fB.2.2.2 a ha))
          obtain ⟨M, hM, -, -⟩ := pairLoop_spec (E := E) (D := D) (Collider.make o sigma).nc (Collider.make o sigma).calcNcoll
            A1.nucleons B1.nucleons n false w2
          have lA : (pairLoop (Collider.make o sigma).nc (Collider.make o sigma).calcNcoll A1.nucleons B1.nucleons n false w2).1.1.length = A1.nucleons.length := by
            have := congrArg List.length hM.placeA; simpa using this
          have lB : (pairLoop (Collider.make o sigma).nc (Collider.make o sigma).calcNcoll A1.nucleons B1.nucleons n false w2).1.2.1.length = B1.nucleons.length := by
            have := congrArg List.length hM.placeB; simpa using this
          rw [hno] at h
          simp only [Bool.false_eq_true, if_false] at h
          exact ih _ _ (.collide _ _ (.sample _ _ _ _ _ _ hA hA1) lA) (.collide _ _ (.sample _ _ _ _ _ _ hB hB1) lB) _ _ r h
  intro h
  unfold runAll at h
  split at h
  · cases h
  · rename_i ec hec
    split at h
    · cases h
    · rename_i rs hrs
      unfold Collider.runEvents at hrs
      obtain ⟨N, hN'⟩ : ∃ N, (Collider.make o sigma).nevents.toNat = N + 1 := by
        have : (Collider.make o sigma).nevents = o.numberEvents := rfl
        exact ⟨(Collider.make o sigma).nevents.toNat - 1, by omega⟩
      rw [hN', runLoop] at hrs
      cases hcl : (Collider.make o sigma).sampleCollision rfuel fuel (Collider.make o sigma).nucleusA (Collider.make o sigma).nucleusB
          (seedRand XReal o.randomSeed w) with
      | error e => simp only [hcl] at hrs; cases hrs
      | ok r => exact hc fuel _ _ hA hB 0 _ r hcl

/-- A non-trivial case: a history of zero constituents options. -/
example : ∃ o : Options XReal, o.constitNumber = 0 ∧ 0 < o.numberEvents ∧ NucleusHistory Tape Unit o.projectileA ∧
    NucleusHistory Tape Unit o.projectileB :=
  ⟨{ exampleOptions with constitNumber := 0 }.map fin, rfl, by simp [Options.map, exampleOptions],
    .create false (fun _ => .missing) "p" (fin 0) _ rfl, .create false (fun _ => .missing) "p" (fin 0) _ rfl⟩

/-! ## C71, read off the records -/

/-- Every number of a record is finite. -/
structure Spec.FiniteRecord {n : ℕ} (x : EventRecord XReal n) : Prop where
  b : x.b.IsFinite
  TA : ∀ iy ix, (x.event.TA iy ix).IsFinite
  TB : ∀ iy ix, (x.event.TB iy ix).IsFinite
  TR : ∀ iy ix, (x.event.TR iy ix).IsFinite
  multiplicity : x.event.multiplicity.IsFinite
  e2 : x.event.ecc.e2.IsFinite
  e3 : x.event.ecc.e3.IsFinite
  e4 : x.event.ecc.e4.IsFinite
  e5 : x.event.ecc.e5.IsFinite

/-- **C71, records.** Under the hypotheses of `C71_no_special_values`, whatever a run delivers is finite. -/
theorem C71_records_finite [LawfulRng E D] (rfuel fuel : ℕ) (o : Options ℝ) (sigma : ℝ) (debug : Bool)
    (hA : NucleusHistory E D o.projectileA) (hB : NucleusHistory E D o.projectileB)
    (dA : o.projectileA.kind.notDeuteron ∨ NoZero E D) (dB : o.projectileB.kind.notDeuteron ∨ NoZero E D)
    (hv : 0 < o.constitWidth) (hm : 1 ≤ o.constitNumber) (hk : o.fluctuation ≠ 0) (hstep : 0 < o.gridStep)
    (evx : (n : ℕ) → Event XReal n) (w : Rand E D) (x : (n : ℕ) × List (EventRecord XReal n))
    (h : runAll rfuel fuel (o.map fin) (fin sigma) debug evx w = .ok x) : ∀ rec ∈ x.2, FiniteRecord rec := by
  have hs := C71_no_special_values rfuel fuel o sigma debug hA hB dA dB hv hm hk hstep
    (fun n => ⟨fun _ _ => 0, fun _ _ => 0, fun _ _ => 0, 0, 0, 0, 0, ⟨0, 0, 0, 0⟩⟩) evx w
  rw [h] at hs
  revert hs
  generalize runAll rfuel fuel o sigma debug _ w = R
  intro hs
  match R, hs with
  | .ok r, hs =>
    obtain ⟨n, xs, rs, rfl, rfl, hf⟩ := hs
    intro rec hrec
    have : ∀ (xs : List (EventRecord XReal n)) (rs : List (EventRecord ℝ n)), List.Forall₂ SameRecord xs rs →
        ∀ x ∈ xs, ∃ r : EventRecord ℝ n, SameRecord x r := by
      intro xs rs hf
      induction hf with
      | nil => intro x hx; cases hx
      | cons h1 _ ih =>
        intro x hx
        rcases List.mem_cons.mp hx with rfl | hx
        · exact ⟨_, h1⟩
        · exact ih x hx
    obtain ⟨r, hr⟩ := this xs rs hf rec hrec
    have he := hr.event
    exact ⟨⟨_, hr.b⟩, fun iy ix => ⟨_, he.TA iy ix⟩, fun iy ix => ⟨_, he.TB iy ix⟩, fun iy ix => ⟨_, he.TR iy ix⟩, ⟨_, he.multiplicity⟩,
      ⟨_, congrArg Ecc.e2 he.ecc⟩, ⟨_, congrArg Ecc.e3 he.ecc⟩, ⟨_, congrArg Ecc.e4 he.ecc⟩, ⟨_, congrArg Ecc.e5 he.ecc⟩⟩

/-- The hypotheses are met and the run delivers: two proton–proton events computed with special values. -/
example (evx : (n : ℕ) → Event XReal n) : ∃ x, runAll 0 1 (exampleOptions.map fin) (fin 100) true evx halfTape = .ok x ∧
    ∀ rec ∈ x.2, FiniteRecord rec := by
  have hA : NucleusHistory Tape Unit exampleOptions.projectileA := .create false (fun _ => .missing) "p" 0 _ rfl
  have hs := C71_no_special_values 0 1 exampleOptions 100 true hA hA (.inl trivial) (.inl trivial)
    (by norm_num [exampleOptions]) (by norm_num [exampleOptions]) (by norm_num [exampleOptions]) (by norm_num [exampleOptions])
    (fun n => ⟨fun _ _ => 0, fun _ _ => 0, fun _ _ => 0, 0, 0, 0, 0, ⟨0, 0, 0, 0⟩⟩) evx halfTape
  obtain ⟨r, hr⟩ := example_run
  rw [hr] at hs
  cases hx : runAll 0 1 (exampleOptions.map fin) (fin 100) true evx halfTape with
  | error e => rw [hx] at hs; exact hs.elim
  | ok x =>
    exact ⟨x, rfl, C71_records_finite 0 1 exampleOptions 100 true hA hA (.inl trivial) (.inl trivial)
      (by norm_num [exampleOptions]) (by norm_num [exampleOptions]) (by norm_num [exampleOptions]) (by norm_num [exampleOptions]) evx halfTape x hx⟩

end Trento
