import Verif.Lemmas.Deposit

/-!
# C20 – C24, C31: grid geometry, thickness deposition, history independence, projectile exchange

`Event.compute c nc debug ev A B` models `Event::compute` on an `Event` object in the (arbitrary) earlier state `ev`
and the nucleons `A`, `B` of the two nuclei.
-/

namespace Trento
open Spec

/-! ## C20 -/

/-- **C20.** Every constructed grid has `N = ⌈2·max/step⌉` cells per side, covers `[-max, max]`, exceeds it by less than
half a step on each side, and its cell centres are symmetric about the origin. -/
theorem C20_grid_geometry (norm dxy gmax p : ℝ) (hd : 0 < dxy) (hg : 0 ≤ gmax) (c : EventCfg ℝ)
    (h : EventCfg.make norm dxy gmax p = .ok c) :
    c.nsteps = ⌈2 * gmax / dxy⌉ ∧ c.dxy = dxy ∧ 2 * c.xymax = c.nsteps * dxy ∧
    gmax ≤ c.xymax ∧ c.xymax < gmax + dxy / 2 ∧
    ∀ i : ℤ, c.center i = -c.center (c.nsteps - 1 - i) ∧
      (0 ≤ i → i < c.nsteps → -c.xymax < c.center i ∧ c.center i < c.xymax) := by
  unfold EventCfg.make at h
  split at h
  · cases h
  · rename_i k hk
    split at h
    · cases h
    · have hc := (Except.ok.inj h).symm
      have h2 : (lit 2 : ℝ) = 2 := by simp
      have hq0 : 0 ≤ 2 * gmax / dxy := by positivity
      have hk' := castInt_eq_ok hk
      rw [h2] at hk'
      simp only [ceil_real] at hk'
      have hcn : (0:ℝ) ≤ (⌈2 * gmax / dxy⌉ : ℤ) := by exact_mod_cast Int.ceil_nonneg hq0
      rw [if_pos hcn, Int.floor_intCast] at hk'
      have hxy : c.xymax = 1/2 * k * dxy := by
        rw [hc]; simp only [lit_real, ofInt_real]; norm_num
      have hns : c.nsteps = k := by rw [hc]
      have hdx : c.dxy = dxy := by rw [hc]
      have hle : 2 * gmax / dxy ≤ k := by rw [hk']; exact Int.le_ceil _
      have hlt : (k:ℝ) < 2 * gmax / dxy + 1 := by rw [hk']; exact Int.ceil_lt_add_one _
      rw [div_le_iff₀ hd] at hle
      have hlt' : (k - 1 : ℝ) * dxy < 2 * gmax := by
        rw [← lt_div_iff₀ hd]; linarith
      refine ⟨by rw [hns, hk'], hdx, by rw [hns, hxy]; ring, by rw [hxy]; linarith, by rw [hxy]; nlinarith, ?_⟩
      intro i
      constructor
      · rw [center_real, center_real, hdx, hxy, hns]; push_cast; ring
      · intro h0 h1
        rw [center_real, hdx, hxy]
        have h0' : (0:ℝ) ≤ i := by exact_mod_cast h0
        have h1' : (i:ℝ) + 1 ≤ k := by rw [hns] at h1; exact_mod_cast h1
        constructor <;> nlinarith

/-- The grid can be constructed whenever `2·max/step` fits in an `int`. -/
theorem C20_grid_exists (norm dxy gmax p : ℝ) (hd : 0 < dxy) (hg : 0 ≤ gmax) (hfit : 2 * gmax / dxy ≤ 2147483647) :
    ∃ c, EventCfg.make norm dxy gmax p = .ok c := by
  have h2 : (lit 2 : ℝ) = 2 := by simp
  have hq0 : 0 ≤ 2 * gmax / dxy := by positivity
  have hce : ⌈2 * gmax / dxy⌉ ≤ 2147483647 := Int.ceil_le.mpr (by exact_mod_cast hfit)
  have hcn : 0 ≤ ⌈2 * gmax / dxy⌉ := Int.ceil_nonneg hq0
  have hcast : castInt (ceil (lit 2 * gmax / dxy) : ℝ) = .ok ⌈2 * gmax / dxy⌉ := by
    rw [h2, ceil_real, castInt_ok]
    · rw [if_pos (by exact_mod_cast hcn), Int.floor_intCast]
    · have : (0:ℝ) ≤ (⌈2 * gmax / dxy⌉ : ℤ) := by exact_mod_cast hcn
      linarith
    · have : ((⌈2 * gmax / dxy⌉ : ℤ) : ℝ) ≤ 2147483647 := by exact_mod_cast hce
      linarith
  unfold EventCfg.make
  rw [hcast]
  simp only [not_lt.mpr hcn, if_false]
  exact ⟨_, rfl⟩

/-- Non-vacuity: the default grid, 10 fm and 0.2 fm. -/
example : ∃ c, EventCfg.make (1:ℝ) 0.2 10 0 = .ok c ∧ c.nsteps = 100 := by
  obtain ⟨c, hc⟩ := C20_grid_exists 1 0.2 10 0 (by norm_num) (by norm_num) (by norm_num)
  refine ⟨c, hc, ?_⟩
  rw [(C20_grid_geometry 1 0.2 10 0 (by norm_num) (by norm_num) c hc).1]
  have : (2 * 10 / 0.2 : ℝ) = ((100:ℤ) : ℝ) := by norm_num
  rw [this, Int.ceil_intCast]

/-! ## C21 deposition equals direct summation -/

/-- Thickness of a nucleon at a point as a real number (by C03 the call always succeeds for participants). -/
noncomputable def thicknessAt (nc : NucleonCommon ℝ) (debug : Bool) (n : NucleonData ℝ) (x y : ℝ) : ℝ :=
  match nc.thickness debug n x y with
  | .ok t => t
  | .error _ => 0

/-- Direct sum of the thicknesses of the participants at a point. -/
noncomputable def directThickness (nc : NucleonCommon ℝ) (debug : Bool) (A : List (NucleonData ℝ)) (x y : ℝ) : ℝ :=
  ((A.filter (·.isParticipant)).map fun n => thicknessAt nc debug n x y).sum

theorem thicknessAt_spec (w v : ℝ) (m : ℕ) (σ : ℝ) (ncoll : Bool) (k : ℝ) (hv : 0 < v) (debug : Bool)
    (n : NucleonData ℝ) (hf : ∀ q ∈ n.constituents, 0 ≤ q.fluctuation) (x y : ℝ) :
    (NucleonCommon.make w v m σ ncoll k).thickness debug n x y =
      .ok (thicknessAt (NucleonCommon.make w v m σ ncoll k) debug n x y) := by
  obtain ⟨t, ht, _⟩ := C03_thickness w v m σ ncoll k hv debug n hf x y
  unfold thicknessAt; rw [ht]

theorem thicknessAt_nonneg (w v : ℝ) (m : ℕ) (σ : ℝ) (ncoll : Bool) (k : ℝ) (hv : 0 < v) (debug : Bool)
    (n : NucleonData ℝ) (hf : ∀ q ∈ n.constituents, 0 ≤ q.fluctuation) (x y : ℝ) :
    0 ≤ thicknessAt (NucleonCommon.make w v m σ ncoll k) debug n x y := by
  obtain ⟨t, ht, h0, _⟩ := C03_thickness w v m σ ncoll k hv debug n hf x y
  unfold thicknessAt; rw [ht]; exact h0

theorem depositAll_direct {w v : ℝ} {m : ℕ} {σ : ℝ} {ncoll : Bool} {k : ℝ} (hv : 0 < v) {c : EventCfg ℝ}
    (hd : 0 < c.dxy) {debug : Bool} {n : Nat} (hn : c.nsteps = n) (hn1 : 1 ≤ n) {A : List (NucleonData ℝ)}
    (hf : ∀ a ∈ A, a.isParticipant = true → ∀ q ∈ a.constituents, 0 ≤ q.fluctuation) {g g' : Grid ℝ n} {j j' : Nat}
    (h : depositAll c (NucleonCommon.make w v m σ ncoll k) debug A (g, j) = .ok (g', j')) (iy ix : Fin n) :
    g' iy ix = g iy ix +
      directThickness (NucleonCommon.make w v m σ ncoll k) debug A (c.center ix.val) (c.center iy.val) := by
  induction A generalizing g j with
  | nil => simp [depositAll] at h; simp [h.1, directThickness]
  | cons a A ih =>
    unfold depositAll at h
    have hf' : ∀ a ∈ A, a.isParticipant = true → ∀ q ∈ a.constituents, 0 ≤ q.fluctuation :=
      fun b hb => hf b (by simp [hb])
    by_cases hp : a.isParticipant = true
    · simp only [hp, if_true] at h
      split at h
      · cases h
      · rename_i g1 hg1
        obtain ⟨b, x0, x1, y0, y1, hb, h1, h2, h3, h4⟩ := depositNucleon_ok_inv hg1
        have hfa := hf a (by simp) hp
        have hT := fun iy ix : Int =>
          thicknessAt_spec w v m σ ncoll k hv debug a hfa (c.center ix) (c.center iy)
        rw [depositNucleon_real hv hd hn hn1 hfa hT hb h1 h2 h3 h4] at hg1
        have hg1' := Except.ok.inj hg1
        rw [ih hf' h, ← hg1']
        simp only [directThickness, List.filter_cons, hp, if_true, List.map_cons, List.sum_cons]
        ring
    · simp only [hp, Bool.false_eq_true, if_false] at h
      rw [ih hf' h]
      simp [directThickness, hp]

/-- **C21.** After a successful `compute`, every cell of the two thickness grids equals the direct sum, over the
participants of that nucleus, of the nucleon thickness at the cell centre, wherever the nucleons are. -/
theorem C21_thickness_is_direct_sum (w v : ℝ) (m : ℕ) (σ : ℝ) (ncoll : Bool) (k : ℝ) (hv : 0 < v)
    (c : EventCfg ℝ) (hd : 0 < c.dxy) (debug : Bool) (n : ℕ) (hn : c.nsteps = n) (A B : List (NucleonData ℝ))
    (hA : ∀ a ∈ A, a.isParticipant = true → ∀ q ∈ a.constituents, 0 ≤ q.fluctuation)
    (hB : ∀ b ∈ B, b.isParticipant = true → ∀ q ∈ b.constituents, 0 ≤ q.fluctuation) (ev ev' : Event ℝ n)
    (h : Event.compute c (NucleonCommon.make w v m σ ncoll k) debug ev A B = .ok ev') (iy ix : Fin n) :
    ev'.TA iy ix = directThickness (NucleonCommon.make w v m σ ncoll k) debug A (c.center ix.val) (c.center iy.val) ∧
    ev'.TB iy ix = directThickness (NucleonCommon.make w v m σ ncoll k) debug B (c.center ix.val) (c.center iy.val) := by
  have hn1 : 1 ≤ n := by have := iy.isLt; omega
  obtain ⟨TA, TB, npA, npB, h1, h2, rfl⟩ := compute_ok h
  have hz : (lit 0 : ℝ) = 0 := by simp
  constructor
  · have := depositAll_direct hv hd hn hn1 hA h1 iy ix
    rw [hz, zero_add] at this
    exact this
  · have := depositAll_direct hv hd hn hn1 hB h2 iy ix
    rw [hz, zero_add] at this
    exact this

/-- The thickness grids are non-negative. -/
theorem C21_thickness_nonneg (w v : ℝ) (m : ℕ) (σ : ℝ) (ncoll : Bool) (k : ℝ) (hv : 0 < v)
    (c : EventCfg ℝ) (hd : 0 < c.dxy) (debug : Bool) (n : ℕ) (hn : c.nsteps = n) (A B : List (NucleonData ℝ))
    (hA : ∀ a ∈ A, a.isParticipant = true → ∀ q ∈ a.constituents, 0 ≤ q.fluctuation)
    (hB : ∀ b ∈ B, b.isParticipant = true → ∀ q ∈ b.constituents, 0 ≤ q.fluctuation) (ev ev' : Event ℝ n)
    (h : Event.compute c (NucleonCommon.make w v m σ ncoll k) debug ev A B = .ok ev') (iy ix : Fin n) :
    0 ≤ ev'.TA iy ix ∧ 0 ≤ ev'.TB iy ix := by
  have key : ∀ (A : List (NucleonData ℝ)) (x y : ℝ),
      (∀ a ∈ A, a.isParticipant = true → ∀ q ∈ a.constituents, 0 ≤ q.fluctuation) →
      0 ≤ directThickness (NucleonCommon.make w v m σ ncoll k) debug A x y := by
    intro A x y hA
    apply List.sum_nonneg
    intro t ht
    obtain ⟨a, ha, rfl⟩ := List.mem_map.mp ht
    rw [List.mem_filter] at ha
    exact thicknessAt_nonneg w v m σ ncoll k hv debug a (hA a ha.1 ha.2) x y
  obtain ⟨h1, h2⟩ := C21_thickness_is_direct_sum w v m σ ncoll k hv c hd debug n hn A B hA hB ev ev' h iy ix
  rw [h1, h2]
  exact ⟨key A _ _ hA, key B _ _ hB⟩

/-! ## C22 no write leaves the grid -/

theorem depositAll_total {w v : ℝ} {m : ℕ} {σ : ℝ} {ncoll : Bool} {k : ℝ} (hv : 0 < v) {c : EventCfg ℝ}
    (hd : 0 < c.dxy) {debug : Bool} {n : Nat} (hn : c.nsteps = n) (hn1 : 1 ≤ n) {A : List (NucleonData ℝ)} {L : ℝ}
    (hA : ∀ a ∈ A, a.isParticipant = true → a.constituents ≠ [] ∧
      ∀ q ∈ a.constituents, 0 ≤ q.fluctuation ∧ |q.x| ≤ L ∧ |q.y| ≤ L)
    (hL : (L + 5 * v + |c.xymax|) / c.dxy < 2147483648) (g : Grid ℝ n) (j : Nat) :
    ∃ r, depositAll c (NucleonCommon.make w v m σ ncoll k) debug A (g, j) = .ok r := by
  induction A generalizing g j with
  | nil => exact ⟨_, rfl⟩
  | cons a A ih =>
    have hA' : ∀ a ∈ A, a.isParticipant = true → a.constituents ≠ [] ∧
      ∀ q ∈ a.constituents, 0 ≤ q.fluctuation ∧ |q.x| ≤ L ∧ |q.y| ≤ L := fun b hb => hA b (by simp [hb])
    unfold depositAll
    by_cases hp : a.isParticipant = true
    · simp only [hp, if_true]
      obtain ⟨hne, hq⟩ := hA a (by simp) hp
      have hfa : ∀ q ∈ a.constituents, 0 ≤ q.fluctuation := fun q hq' => (hq q hq').1
      obtain ⟨b, hb, _, ⟨c1, m1, e1⟩, ⟨c2, m2, e2⟩, ⟨c3, m3, e3⟩, ⟨c4, m4, e4⟩⟩ :=
        C04_boundary w v m σ ncoll k hv.le a hne
      have hidx : ∀ t : ℝ, |t| ≤ L + 5*v → ∃ i, c.index t = .ok i := by
        intro t ht
        have habs : |(t + c.xymax) / c.dxy| < 2147483648 := by
          rw [abs_div, abs_of_pos hd]
          refine lt_of_le_of_lt ?_ hL
          gcongr
          exact (abs_add_le _ _).trans (by linarith)
        rw [abs_lt] at habs
        exact ⟨_, castInt_ok (by linarith) (by linarith)⟩
      have hbd : ∀ q ∈ a.constituents, |q.x - 5*v| ≤ L + 5*v ∧ |q.x + 5*v| ≤ L + 5*v ∧ |q.y - 5*v| ≤ L + 5*v ∧
          |q.y + 5*v| ≤ L + 5*v := by
        intro q hq'
        have h5 : |5*v| = 5*v := abs_of_pos (by linarith)
        have := (hq q hq').2
        refine ⟨?_, ?_, ?_, ?_⟩
        · exact (abs_sub _ _).trans (by linarith)
        · exact (abs_add_le _ _).trans (by linarith)
        · exact (abs_sub _ _).trans (by linarith)
        · exact (abs_add_le _ _).trans (by linarith)
      obtain ⟨x0, h1⟩ := hidx b.xmin (by rw [← e1]; exact (hbd c1 m1).1)
      obtain ⟨x1, h2⟩ := hidx b.xmax (by rw [← e2]; exact (hbd c2 m2).2.1)
      obtain ⟨y0, h3⟩ := hidx b.ymin (by rw [← e3]; exact (hbd c3 m3).2.2.1)
      obtain ⟨y1, h4⟩ := hidx b.ymax (by rw [← e4]; exact (hbd c4 m4).2.2.2)
      have hT := fun iy ix : Int =>
        thicknessAt_spec w v m σ ncoll k hv debug a hfa (c.center ix) (c.center iy)
      rw [depositNucleon_real hv hd hn hn1 hfa hT hb h1 h2 h3 h4]
      exact ih hA' _ _
    · simp only [hp, Bool.false_eq_true, if_false]
      exact ih hA' _ _

/-- **C22.** On every grid with at least one cell, `compute` succeeds (no write outside the grid, no undefined
conversion, no exception) for all participants that have constituents whose coordinates are at most `L` in magnitude,
as long as `(L + 5 v + |xymax|)/step` is below `2^31`. -/
theorem C22_deposition_in_bounds (w v : ℝ) (m : ℕ) (σ : ℝ) (ncoll : Bool) (k : ℝ) (hv : 0 < v)
    (c : EventCfg ℝ) (hd : 0 < c.dxy) (debug : Bool) (n : ℕ) (hn : c.nsteps = n) (hn1 : 1 ≤ n)
    (A B : List (NucleonData ℝ)) (L : ℝ)
    (hAB : ∀ a ∈ A ++ B, a.isParticipant = true → a.constituents ≠ [] ∧
      ∀ q ∈ a.constituents, 0 ≤ q.fluctuation ∧ |q.x| ≤ L ∧ |q.y| ≤ L)
    (hL : (L + 5 * v + |c.xymax|) / c.dxy < 2147483648) (ev : Event ℝ n) :
    ∃ ev', Event.compute c (NucleonCommon.make w v m σ ncoll k) debug ev A B = .ok ev' := by
  unfold Event.compute computeNuclearThickness
  obtain ⟨⟨TA, npA⟩, h1⟩ := depositAll_total (debug := debug) (w := w) (m := m) (σ := σ) (ncoll := ncoll) (k := k)
    hv hd hn hn1 (A := A) (fun a ha => hAB a (by simp [ha])) hL (fun _ _ => lit 0) 0
  obtain ⟨⟨TB, npB⟩, h2⟩ := depositAll_total (debug := debug) (w := w) (m := m) (σ := σ) (ncoll := ncoll) (k := k)
    hv hd hn hn1 (A := B) (fun a ha => hAB a (by simp [ha])) hL (fun _ _ => lit 0) npA
  simp only [h1, h2]
  exact ⟨_, rfl⟩

/-- **C22, zero-cell grid.** With `grid-max = 0` the grid has no cell, and a participant at (10, 10) makes `compute`
write out of bounds. -/
theorem C22_zero_grid_ub :
    ∃ (c : EventCfg ℝ) (a : NucleonData ℝ), EventCfg.make 1 0.2 0 0 = .ok c ∧ a.isParticipant = true ∧
      a.constituents = [⟨10, 10, 1⟩] ∧
      ∀ (ev : Event ℝ 0) (B : List (NucleonData ℝ)) (debug : Bool),
        Event.compute c (NucleonCommon.make (1:ℝ) 1 1 1 false 1) debug ev [a] B =
          .error (.ub "grid index out of bounds") := by
  obtain ⟨c, hc⟩ := C20_grid_exists 1 0.2 0 0 (by norm_num) (by norm_num) (by norm_num)
  obtain ⟨g1, g2, g3, -⟩ := C20_grid_geometry 1 0.2 0 0 (by norm_num) (by norm_num) c hc
  have hns : c.nsteps = 0 := by rw [g1]; simp
  have hxy : c.xymax = 0 := by rw [hns] at g3; simpa using g3
  refine ⟨c, ⟨10, 10, 0, true, true, [⟨10, 10, 1⟩]⟩, hc, rfl, rfl, ?_⟩
  intro ev B debug
  have hb : (NucleonCommon.make (1:ℝ) 1 1 1 false 1).boundary ⟨10, 10, 0, true, true, [⟨10, 10, 1⟩]⟩ =
      .ok ⟨5, 15, 5, 15⟩ := by
    have hr : sqrt ((NucleonCommon.make (1:ℝ) 1 1 1 false 1).constituentRadiusSq) = 5 := by
      rw [make_radiusSq, sqrt_real, Real.sqrt_sq (by norm_num)]; norm_num
    simp only [NucleonCommon.boundary, boundaryLoop, hr]
    norm_num
  have hi : ∀ (t : ℝ) (k : ℕ), (k:ℝ) = t / 0.2 → (k:ℝ) < 2147483648 → c.index t = .ok k := by
    intro t k hk hlt
    unfold EventCfg.index
    rw [hxy, add_zero, g2, ← hk, castInt_ok]
    · rw [if_pos (Nat.cast_nonneg k)]
      have : (k:ℝ) = ((k:ℤ):ℝ) := by simp
      rw [this, Int.floor_intCast]
    · have : (0:ℝ) ≤ k := Nat.cast_nonneg k
      linarith
    · exact hlt
  have h5 := hi 5 25 (by norm_num) (by norm_num)
  have h15 := hi 15 75 (by norm_num) (by norm_num)
  have hcl : ∀ k : ℤ, 0 ≤ k → clip k 0 (0 - 1) = -1 := by
    intro k hk; unfold clip; rw [if_neg (by omega), if_pos (by omega)]; rfl
  have hrange : intRange (-1) (-1) = [-1] := by decide
  obtain ⟨t, ht, _⟩ := C03_thickness (1:ℝ) 1 1 1 false 1 (by norm_num) debug ⟨10, 10, 0, true, true, [⟨10, 10, 1⟩]⟩
    (by simp) (c.center (-1)) (c.center (-1))
  unfold Event.compute computeNuclearThickness depositAll depositNucleon
  simp only [hb, h5, h15, hns, if_true, bind, Except.bind, hcl _ (Int.natCast_nonneg _), hrange, forRes, depositCell, ht]
  simp [Grid.addAt]

/-! ## C23 -/

/-- **C23.** For every arithmetic: after a successful `compute`, `npart` is the number of participants of both
nuclei, so it lies between 0 and the total number of nucleons. -/
theorem C23_npart {F : Type} [Arith F] (c : EventCfg F) (nc : NucleonCommon F) (debug : Bool) (n : ℕ) (ev ev' : Event F n)
    (A B : List (NucleonData F)) (h : Event.compute c nc debug ev A B = .ok ev') :
    ev'.npart = (A.filter (·.isParticipant)).length + (B.filter (·.isParticipant)).length ∧
    ev'.npart ≤ A.length + B.length := by
  obtain ⟨TA, TB, npA, npB, h1, h2, rfl⟩ := compute_ok h
  have e1 := depositAll_npart h1
  have e2 := depositAll_npart h2
  have : (computeObservables (computeReducedThickness c { ev with TA := TA, TB := TB, npart := npB })).npart = npB := rfl
  rw [this, e2, e1]
  simp only [List.countP_eq_length_filter]
  have := List.length_filter_le (fun a : NucleonData F => a.isParticipant) A
  have := List.length_filter_le (fun a : NucleonData F => a.isParticipant) B
  omega

/-! ## C24 -/

theorem computeReducedThickness_indep {F : Type} [Arith F] (c : EventCfg F) {n : ℕ} (ev ev2 : Event F n)
    (h : ev.TA = ev2.TA ∧ ev.TB = ev2.TB ∧ ev.npart = ev2.npart) :
    computeObservables (computeReducedThickness c ev) = computeObservables (computeReducedThickness c ev2) := by
  obtain ⟨hA, hB, hn⟩ := h
  have hTR : (computeReducedThickness c ev).TR = (computeReducedThickness c ev2).TR := by
    funext ky kx
    rw [computeReducedThickness_TR, computeReducedThickness_TR, hA, hB]
  obtain ⟨s1, s2, s3⟩ := rt_foldl_scalars c ev.TA ev.TB (cells n) ⟨ev.TR, lit 0, lit 0, lit 0⟩
    ⟨ev2.TR, lit 0, lit 0, lit 0⟩ ⟨rfl, rfl, rfl⟩
  have hx : (computeReducedThickness c ev).ixcm = (computeReducedThickness c ev2).ixcm := by
    simp only [computeReducedThickness]; rw [s1, s2, hA, hB]
  have hy : (computeReducedThickness c ev).iycm = (computeReducedThickness c ev2).iycm := by
    simp only [computeReducedThickness]; rw [s1, s3, hA, hB]
  have hm : (computeReducedThickness c ev).multiplicity = (computeReducedThickness c ev2).multiplicity := by
    simp only [computeReducedThickness]; rw [s1, hA, hB]
  have hTA : (computeReducedThickness c ev).TA = (computeReducedThickness c ev2).TA := hA
  have hTB : (computeReducedThickness c ev).TB = (computeReducedThickness c ev2).TB := hB
  have hnp : (computeReducedThickness c ev).npart = (computeReducedThickness c ev2).npart := hn
  unfold computeObservables
  rw [hTR, hx, hy]
  simp only [Event.mk.injEq]
  exact ⟨hTA, hTB, trivial, trivial, trivial, hnp, hm, trivial⟩

/-- **C24.** For every arithmetic: the complete result of computing an event (npart, multiplicity, eccentricities, all
grids, or the failure) is the same whatever state the `Event` object was in before, hence whatever events it
computed before. -/
theorem C24_history_independent {F : Type} [Arith F] (c : EventCfg F) (nc : NucleonCommon F) (debug : Bool) (n : ℕ)
    (ev ev2 : Event F n) (A B : List (NucleonData F)) :
    Event.compute c nc debug ev A B = Event.compute c nc debug ev2 A B := by
  unfold Event.compute computeNuclearThickness
  split
  · rfl
  · split
    · rfl
    · congr 1
      exact computeReducedThickness_indep c _ _ ⟨rfl, rfl, rfl⟩

/-! ## C31 -/

/-- **C31.** For every arithmetic whose addition and multiplication are commutative (IEEE arithmetic is): if an event
computes, then exchanging projectile and target computes too, and gives the same npart, reduced thickness grid, multiplicity,
centre of mass and eccentricities, with the two thickness grids exchanged. -/
theorem C31_exchange {F : Type} [Arith F] (hadd : ∀ a b : F, a + b = b + a) (hmul : ∀ a b : F, a * b = b * a)
    (c : EventCfg F) (nc : NucleonCommon F) (debug : Bool) (n : ℕ) (ev ev' : Event F n) (A B : List (NucleonData F))
    (h : Event.compute c nc debug ev A B = .ok ev') :
    Event.compute c nc debug ev B A = .ok { ev' with TA := ev'.TB, TB := ev'.TA } := by
  obtain ⟨TA, TB, npA, npB, h1, h2, rfl⟩ := compute_ok h
  have e1 := depositAll_npart h1
  have e2 := depositAll_npart h2
  unfold Event.compute computeNuclearThickness
  rw [depositAll_shift h2 0]
  simp only [depositAll_shift h1 (0 + B.countP (·.isParticipant))]
  have hpm : ∀ p a b : F, positivePmean p a b = positivePmean p b a := by
    intro p a b; unfold positivePmean; rw [hadd]
  have hgm : ∀ a b : F, genMean c.p a b = genMean c.p b a := by
    intro a b
    unfold genMean
    split
    · unfold geometricMean; rw [hmul]
    · split
      · exact hpm _ _ _
      · unfold negativePmean; rw [hpm, Bool.or_comm]
  have hstep : rtStep c TB TA = rtStep c TA TB := by
    funext s i; unfold rtStep; rw [hgm]
  have hnp : 0 + B.countP (·.isParticipant) + A.countP (·.isParticipant) = npB := by omega
  rw [hnp]
  congr 1
  simp only [computeObservables, computeReducedThickness, hstep]

/-- Non-vacuity of C21–C31: an event with one participant per nucleus computes. -/
example : ∃ (c : EventCfg ℝ) (a : NucleonData ℝ) (ev ev' : Event ℝ 100),
    c.nsteps = (100:ℕ) ∧ 0 < c.dxy ∧ a.isParticipant = true ∧
    Event.compute c (NucleonCommon.make (1:ℝ) 1 1 1 false 1) true ev [a] [a] = .ok ev' := by
  obtain ⟨c, hc⟩ := C20_grid_exists 1 0.2 10 0 (by norm_num) (by norm_num) (by norm_num)
  obtain ⟨g1, g2, g3, -⟩ := C20_grid_geometry 1 0.2 10 0 (by norm_num) (by norm_num) c hc
  have hns : c.nsteps = (100:ℕ) := by
    rw [g1]
    have : (2 * 10 / 0.2 : ℝ) = ((100:ℤ) : ℝ) := by norm_num
    rw [this, Int.ceil_intCast]; rfl
  have hxy : c.xymax = 10 := by rw [hns] at g3; push_cast at g3; linarith
  have hd : 0 < c.dxy := by rw [g2]; norm_num
  obtain ⟨ev', h⟩ := C22_deposition_in_bounds (1:ℝ) 1 1 1 false 1 (by norm_num) c hd true 100 hns
    (by norm_num) [⟨0, 0, 0, true, true, [⟨0, 0, 1⟩]⟩] [⟨0, 0, 0, true, true, [⟨0, 0, 1⟩]⟩] 1
    (by intro a ha; simp at ha; subst ha; simp) (by rw [hxy, g2]; norm_num) ⟨fun _ _ => 0, fun _ _ => 0, fun _ _ => 0, 0, 0, 0, 0, ⟨0, 0, 0, 0⟩⟩
  exact ⟨c, _, _, ev', hns, hd, rfl, h⟩

end Trento
