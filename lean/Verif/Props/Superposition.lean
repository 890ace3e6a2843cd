import Verif.Lemmas.WeightThickness
import Verif.Props.GridExtension

/-!
# C119: superposition

An event is a function of the constituents of the participants and of nothing else: spectators, the positions of the nucleons themselves, the order of the nucleons and the order of the constituents do not matter, and the
thickness of two groups of nucleons is the sum of their thicknesses.
-/

namespace Trento
open Spec

/-- The constituents of the participants, nucleon by nucleon (specification). -/
def participantBlobs {F : Type} (L : List (NucleonData F)) : List (List (Constituent F)) := (L.filter (·.isParticipant)).map (·.constituents)

/-- All constituents of the participants (specification). -/
def allBlobs {F : Type} (L : List (NucleonData F)) : List (Constituent F) := (L.filter (·.isParticipant)).flatMap (·.constituents)

section
variable {F : Type} [Arith F]

theorem thickness_blobs (nc : NucleonCommon F) (debug : Bool) (a b : NucleonData F) (h : a.constituents = b.constituents) (x y : F) : nc.thickness debug a x y = nc.thickness debug b x y := by
  unfold NucleonCommon.thickness
  rw [h]

theorem depositNucleon_blobs (c : EventCfg F) (nc : NucleonCommon F) (debug : Bool) {n : ℕ} (a b : NucleonData F) (h : a.constituents = b.constituents) (g : Grid F n) :
    depositNucleon c nc debug a g = depositNucleon c nc debug b g := by
  have hb : nc.boundary a = nc.boundary b := by
    unfold NucleonCommon.boundary
    rw [h]
  have hd : (fun (iy ix : Int) (g : Grid F n) => depositCell c nc debug a iy ix g) = fun iy ix g => depositCell c nc debug b iy ix g := by
    funext iy ix g
    unfold depositCell
    rw [thickness_blobs nc debug a b h]
  unfold depositNucleon
  rw [hb]
  have e : ∀ iy ix (g : Grid F n), depositCell c nc debug a iy ix g = depositCell c nc debug b iy ix g := fun iy ix g => congrFun (congrFun (congrFun hd iy) ix) g
  simp only [e]

theorem depositAll_filter (c : EventCfg F) (nc : NucleonCommon F) (debug : Bool) {n : ℕ} (L : List (NucleonData F)) (s : Grid F n × ℕ) :
    depositAll c nc debug L s = depositAll c nc debug (L.filter (·.isParticipant)) s := by
  induction L generalizing s with
  | nil => rfl
  | cons a L ih =>
    obtain ⟨g, np⟩ := s
    rw [List.filter_cons]
    by_cases h : a.isParticipant = true
    · rw [if_pos h, depositAll, depositAll, if_pos h, if_pos h]
      cases depositNucleon c nc debug a g with
      | error e => rfl
      | ok g => exact ih _
    · rw [if_neg h, depositAll, if_neg h]
      exact ih _

theorem depositAll_blobs (c : EventCfg F) (nc : NucleonCommon F) (debug : Bool) {n : ℕ} (L L' : List (NucleonData F)) (hL : ∀ a ∈ L, a.isParticipant = true) (hL' : ∀ a ∈ L', a.isParticipant = true)
    (h : L.map (·.constituents) = L'.map (·.constituents)) (s : Grid F n × ℕ) : depositAll c nc debug L s = depositAll c nc debug L' s := by
  induction L generalizing L' s with
  | nil =>
    cases L' with
    | nil => rfl
    | cons b L' => simp at h
  | cons a L ih =>
    cases L' with
    | nil => simp at h
    | cons b L' =>
      obtain ⟨g, np⟩ := s
      simp only [List.map_cons, List.cons.injEq] at h
      rw [depositAll, depositAll, if_pos (hL a (by simp)), if_pos (hL' b (by simp)), depositNucleon_blobs c nc debug a b h.1]
      cases depositNucleon c nc debug b g with
      | error e => rfl
      | ok g => exact ih L' (fun a ha => hL a (by simp [ha])) (fun a ha => hL' a (by simp [ha])) h.2 _

/-- **C119, spectators.** For any arithmetic (rounding, NaN included): two events whose participants have the same constituents, in the same order, have the same result, whatever the spectators and the positions
recorded for the nucleons. -/
theorem C119_spectators (c : EventCfg F) (nc : NucleonCommon F) (debug : Bool) {n : ℕ} (A A' B B' : List (NucleonData F)) (hA : participantBlobs A = participantBlobs A') (hB : participantBlobs B = participantBlobs B')
    (ev : Event F n) : Event.compute c nc debug ev A B = Event.compute c nc debug ev A' B' := by
  have key : ∀ L L' : List (NucleonData F), participantBlobs L = participantBlobs L' → ∀ s : Grid F n × ℕ, depositAll c nc debug L s = depositAll c nc debug L' s := by
    intro L L' h s
    rw [depositAll_filter, depositAll_filter c nc debug L']
    exact depositAll_blobs c nc debug _ _ (fun a ha => (List.mem_filter.mp ha).2) (fun a ha => (List.mem_filter.mp ha).2) h s
  unfold Event.compute computeNuclearThickness
  dsimp only
  rw [key A A' hA]
  cases depositAll c nc debug A' ((fun _ _ => lit 0 : Grid F n), 0) with
  | error e => rfl
  | ok r =>
    obtain ⟨TA, np⟩ := r
    dsimp only
    rw [key B B' hB]

end

/-- The directly summed thickness is a sum over all constituents of the participants. -/
theorem directThickness_blobs (w v : ℝ) (m : ℕ) (sigma : ℝ) (ncoll : Bool) (k : ℝ) (hv : 0 < v) (debug : Bool) (L : List (NucleonData ℝ)) (x y : ℝ) :
    directThickness (NucleonCommon.make w v m sigma ncoll k) debug L x y = (NucleonCommon.make w v m sigma ncoll k).prefactor *
      ((allBlobs L).map fun q => q.fluctuation * kern (NucleonCommon.make w v m sigma ncoll k) debug x y (q.x, q.y)).sum := by
  unfold directThickness allBlobs
  generalize L.filter (·.isParticipant) = P
  induction P with
  | nil => simp
  | cons a P ih =>
    rw [List.map_cons, List.sum_cons, ih, thicknessAt_kern w v m sigma ncoll k hv, List.flatMap_cons, List.map_append, List.sum_append, mul_add]

/-- The weights of the constituents of the participants are nonnegative (specification). -/
def WeightsNonneg (L : List (NucleonData ℝ)) : Prop := ∀ a ∈ L, a.isParticipant = true → ∀ q ∈ a.constituents, 0 ≤ q.fluctuation

/-- **C119, order.** Two events on the same grid whose participants have the same constituents in any order, grouped into nucleons in any way: the same thicknesses, reduced thickness, multiplicity, centre of mass and
eccentricities.  Number of participants: `C23_npart`. -/
theorem C119_order (w v sigma k : ℝ) (m : ℕ) (ncoll : Bool) (hv : 0 < v) (c : EventCfg ℝ) (hd : 0 < c.dxy) (n : ℕ) (hn : c.nsteps = n) (debug : Bool) (A A' B B' : List (NucleonData ℝ))
    (wA : WeightsNonneg A) (wB : WeightsNonneg B) (wA' : WeightsNonneg A') (wB' : WeightsNonneg B') (hA : (allBlobs A).Perm (allBlobs A')) (hB : (allBlobs B).Perm (allBlobs B')) (ev e ev' e' : Event ℝ n)
    (h : Event.compute c (NucleonCommon.make w v m sigma ncoll k) debug ev A B = .ok e) (h' : Event.compute c (NucleonCommon.make w v m sigma ncoll k) debug ev' A' B' = .ok e') :
    e'.TA = e.TA ∧ e'.TB = e.TB ∧ e'.TR = e.TR ∧ e'.multiplicity = e.multiplicity ∧ e'.ixcm = e.ixcm ∧ e'.iycm = e.iycm ∧ e'.ecc = e.ecc := by
  have key : ∀ L L' : List (NucleonData ℝ), (allBlobs L).Perm (allBlobs L') → ∀ x y,
      directThickness (NucleonCommon.make w v m sigma ncoll k) debug L' x y = directThickness (NucleonCommon.make w v m sigma ncoll k) debug L x y := by
    intro L L' hp x y
    rw [directThickness_blobs w v m sigma ncoll k hv, directThickness_blobs w v m sigma ncoll k hv, (hp.map _).sum_eq]
  have d := fun iy ix => C21_thickness_is_direct_sum w v m sigma ncoll k hv c hd debug n hn A B wA wB ev e h iy ix
  have d' := fun iy ix => C21_thickness_is_direct_sum w v m sigma ncoll k hv c hd debug n hn A' B' wA' wB' ev' e' h' iy ix
  have t1 : e'.TA = e.TA := by
    funext iy ix
    rw [(d iy ix).1, (d' iy ix).1, key A A' hA]
  have t2 : e'.TB = e.TB := by
    funext iy ix
    rw [(d iy ix).2, (d' iy ix).2, key B B' hB]
  have t3 : e'.TR = e.TR := by
    funext iy ix
    rw [C25_reduced_thickness _ _ _ _ _ _ _ _ h, C25_reduced_thickness _ _ _ _ _ _ _ _ h', t1, t2]
  have m1 := C27_multiplicity _ _ _ _ _ _ _ _ h
  have m2 := C27_multiplicity _ _ _ _ _ _ _ _ h'
  obtain ⟨x1, y1, q2, q3, q4, q5⟩ := C28_eccentricities _ _ _ _ _ _ _ _ h'
  obtain ⟨x0, y0, r2, r3, r4, r5⟩ := C28_eccentricities _ _ _ _ _ _ _ _ h
  rw [t3] at m2 x1 y1 q2 q3 q4 q5
  refine ⟨t1, t2, t3, by rw [m1, m2], by rw [x1, x0], by rw [y1, y0], ?_⟩
  rw [← r2] at q2
  rw [← r3] at q3
  rw [← r4] at q4
  rw [← r5] at q5
  revert q2 q3 q4 q5
  generalize e'.ecc = a
  generalize e.ecc = b
  intro q2 q3 q4 q5
  obtain ⟨a2, a3, a4, a5⟩ := a
  obtain ⟨b2, b3, b4, b5⟩ := b
  dsimp only at q2 q3 q4 q5
  rw [q2, q3, q4, q5]

/-- **C119, superposition.** The thickness grid of two groups of nucleons together is the sum of their thickness grids, whatever is in the other nucleus; in particular it can only grow when nucleons are added. -/
theorem C119_superposition (w v sigma k : ℝ) (m : ℕ) (ncoll : Bool) (hv : 0 < v) (c : EventCfg ℝ) (hd : 0 < c.dxy) (n : ℕ) (hn : c.nsteps = n) (debug : Bool) (A₁ A₂ B B₁ B₂ : List (NucleonData ℝ))
    (w1 : WeightsNonneg A₁) (w2 : WeightsNonneg A₂) (wB : WeightsNonneg B) (wB₁ : WeightsNonneg B₁) (wB₂ : WeightsNonneg B₂) (ev e ev₁ e₁ ev₂ e₂ : Event ℝ n)
    (h : Event.compute c (NucleonCommon.make w v m sigma ncoll k) debug ev (A₁ ++ A₂) B = .ok e) (h₁ : Event.compute c (NucleonCommon.make w v m sigma ncoll k) debug ev₁ A₁ B₁ = .ok e₁)
    (h₂ : Event.compute c (NucleonCommon.make w v m sigma ncoll k) debug ev₂ A₂ B₂ = .ok e₂) : ∀ iy ix, e.TA iy ix = e₁.TA iy ix + e₂.TA iy ix ∧ e₁.TA iy ix ≤ e.TA iy ix := by
  intro iy ix
  have w12 : WeightsNonneg (A₁ ++ A₂) := fun a ha => (List.mem_append.mp ha).elim (w1 a) (w2 a)
  have d := (C21_thickness_is_direct_sum w v m sigma ncoll k hv c hd debug n hn (A₁ ++ A₂) B w12 wB ev e h iy ix).1
  have d1 := (C21_thickness_is_direct_sum w v m sigma ncoll k hv c hd debug n hn A₁ B₁ w1 wB₁ ev₁ e₁ h₁ iy ix).1
  have d2 := (C21_thickness_is_direct_sum w v m sigma ncoll k hv c hd debug n hn A₂ B₂ w2 wB₂ ev₂ e₂ h₂ iy ix).1
  have hs : e.TA iy ix = e₁.TA iy ix + e₂.TA iy ix := by
    rw [d, d1, d2]
    unfold directThickness
    rw [List.filter_append, List.map_append, List.sum_append]
  refine ⟨hs, ?_⟩
  have := (C21_thickness_nonneg w v m sigma ncoll k hv c hd debug n hn A₂ B₂ w2 wB₂ ev₂ e₂ h₂ iy ix).1
  linarith

/-- The generalized mean grows with either argument. -/
theorem trentoMean_mono (p a a' b b' : ℝ) (ha : 0 ≤ a) (hb : 0 ≤ b) (haa : a ≤ a') (hbb : b ≤ b') : trentoMean p a b ≤ trentoMean p a' b' := by
  have ha' := ha.trans haa
  have hb' := hb.trans hbb
  by_cases h1 : |p| < 1e-12
  · unfold trentoMean
    rw [if_pos h1, if_pos h1, powerMean_zero, powerMean_zero]
    exact Real.sqrt_le_sqrt (mul_le_mul haa hbb hb ha')
  by_cases h2 : p < 0 ∧ (a < 1e-12 ∨ b < 1e-12)
  · have : trentoMean p a b = 0 := by
      unfold trentoMean
      rw [if_neg h1, if_pos h2]
    rw [this]
    exact trentoMean_nonneg p a' b' ha' hb'
  rcases lt_trichotomy p 0 with hp | hp | hp
  · have h3 : ¬ (a < 1e-12 ∨ b < 1e-12) := fun h => h2 ⟨hp, h⟩
    push Not at h3
    have a0 : 0 < a := lt_of_lt_of_le (by norm_num) h3.1
    have b0 : 0 < b := lt_of_lt_of_le (by norm_num) h3.2
    have h4 : ¬ (p < 0 ∧ (a' < 1e-12 ∨ b' < 1e-12)) := by
      rintro ⟨-, h | h⟩
      · linarith [h3.1]
      · linarith [h3.2]
    unfold trentoMean
    rw [if_neg h1, if_neg h1, if_neg h2, if_neg h4, powerMean_neg hp a0.ne' b0.ne', powerMean_neg hp (a0.trans_le haa).ne' (b0.trans_le hbb).ne']
    unfold pm
    have e1 : a' ^ p ≤ a ^ p := Real.rpow_le_rpow_of_nonpos a0 haa hp.le
    have e2 : b' ^ p ≤ b ^ p := Real.rpow_le_rpow_of_nonpos b0 hbb hp.le
    have pos : 0 < (a' ^ p + b' ^ p) / 2 := by
      have := Real.rpow_pos_of_pos (a0.trans_le haa) p
      have := Real.rpow_pos_of_pos (b0.trans_le hbb) p
      positivity
    exact Real.rpow_le_rpow_of_nonpos pos (by linarith) (one_div_nonpos.mpr hp.le)
  · exact absurd (by rw [hp]; norm_num) h1
  · have h3 : ∀ x y : ℝ, ¬ (p < 0 ∧ (x < 1e-12 ∨ y < 1e-12)) := fun x y h => absurd h.1 (not_lt.mpr hp.le)
    unfold trentoMean
    rw [if_neg h1, if_neg h1, if_neg (h3 _ _), if_neg (h3 _ _), powerMean_pos hp, powerMean_pos hp]
    unfold pm
    have e1 : a ^ p ≤ a' ^ p := Real.rpow_le_rpow ha haa hp.le
    have e2 : b ^ p ≤ b' ^ p := Real.rpow_le_rpow hb hbb hp.le
    have := Real.rpow_nonneg ha p
    have := Real.rpow_nonneg hb p
    exact Real.rpow_le_rpow (by positivity) (by linarith) (one_div_nonneg.mpr hp.le)

/-- **C119, growth.** Adding nucleons to either nucleus lowers nothing: participants, thicknesses, reduced thickness and multiplicity are at least what they were (nonnegative normalization). -/
theorem C119_growth (w v sigma k : ℝ) (m : ℕ) (ncoll : Bool) (hv : 0 < v) (c : EventCfg ℝ) (hd : 0 < c.dxy) (hnorm : 0 ≤ c.norm) (n : ℕ) (hn : c.nsteps = n) (debug : Bool) (A A₂ B B₂ : List (NucleonData ℝ))
    (wA : WeightsNonneg A) (wA₂ : WeightsNonneg A₂) (wB : WeightsNonneg B) (wB₂ : WeightsNonneg B₂) (ev e ev' e' : Event ℝ n)
    (h : Event.compute c (NucleonCommon.make w v m sigma ncoll k) debug ev A B = .ok e)
    (h' : Event.compute c (NucleonCommon.make w v m sigma ncoll k) debug ev' (A ++ A₂) (B ++ B₂) = .ok e') :
    e.npart ≤ e'.npart ∧ (∀ iy ix, e.TA iy ix ≤ e'.TA iy ix ∧ e.TB iy ix ≤ e'.TB iy ix ∧ e.TR iy ix ≤ e'.TR iy ix) ∧ e.multiplicity ≤ e'.multiplicity := by
  have nn : ∀ (L : List (NucleonData ℝ)), WeightsNonneg L → ∀ x y, 0 ≤ directThickness (NucleonCommon.make w v m sigma ncoll k) debug L x y := by
    intro L hL x y
    unfold directThickness
    apply List.sum_nonneg
    intro t ht
    obtain ⟨a, ha, rfl⟩ := List.mem_map.mp ht
    obtain ⟨ha, hp⟩ := List.mem_filter.mp ha
    exact thicknessAt_nonneg w v m sigma ncoll k hv debug a (hL a ha hp) x y
  have app : ∀ (L M : List (NucleonData ℝ)) (x y : ℝ), directThickness (NucleonCommon.make w v m sigma ncoll k) debug (L ++ M) x y =
      directThickness (NucleonCommon.make w v m sigma ncoll k) debug L x y + directThickness (NucleonCommon.make w v m sigma ncoll k) debug M x y := by
    intro L M x y
    unfold directThickness
    rw [List.filter_append, List.map_append, List.sum_append]
  have wAA : WeightsNonneg (A ++ A₂) := fun a ha => (List.mem_append.mp ha).elim (wA a) (wA₂ a)
  have wBB : WeightsNonneg (B ++ B₂) := fun a ha => (List.mem_append.mp ha).elim (wB a) (wB₂ a)
  have hT : ∀ iy ix, 0 ≤ e.TA iy ix ∧ 0 ≤ e.TB iy ix ∧ e.TA iy ix ≤ e'.TA iy ix ∧ e.TB iy ix ≤ e'.TB iy ix := by
    intro iy ix
    obtain ⟨d1, d2⟩ := C21_thickness_is_direct_sum w v m sigma ncoll k hv c hd debug n hn A B wA wB ev e h iy ix
    obtain ⟨d1', d2'⟩ := C21_thickness_is_direct_sum w v m sigma ncoll k hv c hd debug n hn _ _ wAA wBB ev' e' h' iy ix
    rw [app] at d1' d2'
    have n1 := nn A wA (c.center ix.val) (c.center iy.val)
    have n2 := nn B wB (c.center ix.val) (c.center iy.val)
    have n3 := nn A₂ wA₂ (c.center ix.val) (c.center iy.val)
    have n4 := nn B₂ wB₂ (c.center ix.val) (c.center iy.val)
    rw [d1, d2, d1', d2']
    exact ⟨n1, n2, by linarith, by linarith⟩
  have hR : ∀ iy ix, e.TR iy ix ≤ e'.TR iy ix := by
    intro iy ix
    obtain ⟨t1, t2, t3, t4⟩ := hT iy ix
    rw [C25_reduced_thickness _ _ _ _ _ _ _ _ h, C25_reduced_thickness _ _ _ _ _ _ _ _ h']
    exact mul_le_mul_of_nonneg_left (trentoMean_mono _ _ _ _ _ t1 t2 t3 t4) hnorm
  refine ⟨?_, fun iy ix => ⟨(hT iy ix).2.2.1, (hT iy ix).2.2.2, hR iy ix⟩, ?_⟩
  · rw [(C23_npart _ _ _ _ _ _ _ _ h).1, (C23_npart _ _ _ _ _ _ _ _ h').1, List.filter_append, List.filter_append, List.length_append, List.length_append]
    omega
  · rw [C27_multiplicity _ _ _ _ _ _ _ _ h, C27_multiplicity _ _ _ _ _ _ _ _ h']
    apply mul_le_mul_of_nonneg_left _ (by positivity)
    exact Finset.sum_le_sum fun iy _ => Finset.sum_le_sum fun ix _ => hR iy ix

/-- A spectator in front, and another position recorded for the nucleon: the same event, for any arithmetic. -/
example {F : Type} [Arith F] (x y z : F) (q s : Constituent F) (c : EventCfg F) (nc : NucleonCommon F) (debug : Bool) (ev : Event F 7) (B : List (NucleonData F)) :
    Event.compute c nc debug ev [⟨x, y, z, true, true, [q]⟩] B = Event.compute c nc debug ev [⟨x, x, x, false, true, [s]⟩, ⟨z, z, y, true, true, [q]⟩] B :=
  C119_spectators c nc debug _ _ B B rfl rfl ev

/-- One nucleon with two constituents, or two nucleons with one constituent each in the other order and a spectator elsewhere: the same constituents. -/
example : (allBlobs [(⟨0, 0, 0, true, true, [⟨0, 0, 1⟩, ⟨1, 0, 2⟩]⟩ : NucleonData ℝ)]).Perm
      (allBlobs [⟨1, 0, 0, true, true, [⟨1, 0, 2⟩]⟩, ⟨7, 0, 0, false, true, [⟨7, 0, 5⟩]⟩, ⟨0, 0, 0, true, true, [⟨0, 0, 1⟩]⟩]) := by
  simp only [allBlobs, List.filter_cons, List.filter_nil, if_true, List.flatMap_cons, List.flatMap_nil, List.append_nil, List.cons_append, List.nil_append, Bool.false_eq_true, if_false]
  exact List.Perm.swap _ _ _

/-- Events of two nucleons against one, of each of the two alone, and of one nucleon with the constituents of both. -/
example : ∃ (c : EventCfg ℝ) (e e₁ e₂ e₃ : Event ℝ 100) (a b d : NucleonData ℝ) (ev : Event ℝ 100), a = ⟨0, 0, 0, true, true, [⟨0, 0, 1⟩]⟩ ∧ b = ⟨1, 0, 0, true, true, [⟨1, 0, 2⟩]⟩ ∧
    d = ⟨0.5, 0, 0, true, true, [⟨1, 0, 2⟩, ⟨0, 0, 1⟩]⟩ ∧
    Event.compute c (NucleonCommon.make (1:ℝ) 1 1 1 false 1) false ev ([a] ++ [b]) [b] = .ok e ∧ Event.compute c (NucleonCommon.make (1:ℝ) 1 1 1 false 1) false ev [a] [b] = .ok e₁ ∧
    Event.compute c (NucleonCommon.make (1:ℝ) 1 1 1 false 1) false ev [b] [b] = .ok e₂ ∧ Event.compute c (NucleonCommon.make (1:ℝ) 1 1 1 false 1) false ev [d] [b] = .ok e₃ ∧
    (∀ iy ix, e.TA iy ix = e₁.TA iy ix + e₂.TA iy ix) ∧ e₁.multiplicity ≤ e.multiplicity ∧ e₃.multiplicity = e.multiplicity ∧ e₃.npart = 2 ∧ e.npart = 3 := by
  obtain ⟨c, hc⟩ := C20_grid_exists 1 0.2 10 0 (by norm_num) (by norm_num) (by norm_num)
  obtain ⟨g1, g2, g3, -⟩ := C20_grid_geometry 1 0.2 10 0 (by norm_num) (by norm_num) c hc
  obtain ⟨p1, p2, p3⟩ := eventCfg_params hc
  have hns : c.nsteps = (100 : ℕ) := by
    rw [g1]; norm_num
  have hxy : c.xymax = 10 := by rw [hns] at g3; norm_num at g3; linarith
  have hd : 0 < c.dxy := by rw [p2]; norm_num
  let a : NucleonData ℝ := ⟨0, 0, 0, true, true, [⟨0, 0, 1⟩]⟩
  let b : NucleonData ℝ := ⟨1, 0, 0, true, true, [⟨1, 0, 2⟩]⟩
  let d : NucleonData ℝ := ⟨0.5, 0, 0, true, true, [⟨1, 0, 2⟩, ⟨0, 0, 1⟩]⟩
  have good : ∀ q ∈ [a, b, d], q.constituents ≠ [] ∧ ∀ s ∈ q.constituents, 0 ≤ s.fluctuation ∧ |s.x| ≤ 1 ∧ |s.y| ≤ 1 := by
    intro q hq
    simp only [List.mem_cons, List.not_mem_nil, or_false] at hq
    rcases hq with rfl | rfl | rfl
    · simp [a]
    · simp [b]
    · simp [d]
  let ev : Event ℝ 100 := ⟨fun _ _ => 0, fun _ _ => 0, fun _ _ => 0, 0, 0, 0, 0, ⟨0, 0, 0, 0⟩⟩
  have run : ∀ L M : List (NucleonData ℝ), (∀ q ∈ L ++ M, q ∈ [a, b, d]) → ∃ e, Event.compute c (NucleonCommon.make (1:ℝ) 1 1 1 false 1) false ev L M = .ok e := by
    intro L M hLM
    exact C22_deposition_in_bounds 1 1 1 1 false 1 one_pos c hd false 100 hns (by norm_num) L M 1 (fun q hq _ => good q (hLM q hq)) (by rw [hxy, p2]; norm_num) ev
  have wt : ∀ L : List (NucleonData ℝ), (∀ q ∈ L, q ∈ [a, b, d]) → WeightsNonneg L := fun L hL q hq _ s hs => ((good q (hL q hq)).2 s hs).1
  obtain ⟨e, h⟩ := run ([a] ++ [b]) [b] (by simp)
  obtain ⟨e₁, h₁⟩ := run [a] [b] (by simp)
  obtain ⟨e₂, h₂⟩ := run [b] [b] (by simp)
  obtain ⟨e₃, h₃⟩ := run [d] [b] (by simp)
  have k := C119_superposition 1 1 1 1 1 false one_pos c hd 100 hns false [a] [b] [b] [b] [b] (wt _ (by simp)) (wt _ (by simp)) (wt _ (by simp)) (wt _ (by simp)) (wt _ (by simp)) ev e ev e₁ ev e₂ h h₁ h₂
  have o := C119_order 1 1 1 1 1 false one_pos c hd 100 hns false ([a] ++ [b]) [d] [b] [b] (wt _ (by simp)) (wt _ (by simp)) (wt _ (by simp)) (wt _ (by simp))
    (by
      have e1 : allBlobs ([a] ++ [b]) = [⟨0, 0, 1⟩, ⟨1, 0, 2⟩] := rfl
      have e2 : allBlobs [d] = [⟨1, 0, 2⟩, ⟨0, 0, 1⟩] := rfl
      rw [e1, e2]
      exact List.Perm.swap _ _ _) (List.Perm.refl _) ev e ev e₃ h h₃
  have gr := C119_growth 1 1 1 1 1 false one_pos c hd (by rw [p1]; norm_num) 100 hns false [a] [b] [b] [] (wt _ (by simp)) (wt _ (by simp)) (wt _ (by simp)) (wt _ (by simp)) ev e₁ ev e h₁ h
  exact ⟨c, e, e₁, e₂, e₃, a, b, d, ev, rfl, rfl, rfl, h, h₁, h₂, h₃, fun iy ix => (k iy ix).1, gr.2.2, o.2.2.2.1, (C23_npart _ _ _ _ _ _ _ _ h₃).1, (C23_npart _ _ _ _ _ _ _ _ h).1⟩

end Trento
