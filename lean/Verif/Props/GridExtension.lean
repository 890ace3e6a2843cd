import Verif.Props.ScaleInvariance
import Verif.Props.DensityOptions
import Verif.Props.ExampleRun

/-!
# C117: a larger grid

Raising `--grid-max` by whole cells on every side adds cells and changes none: the cells of the smaller grid are found again in the
larger one, shifted by the width of the margin.
-/

namespace Trento
open Spec

/-- cell `i` of the smaller grid in the larger one -/
def shiftCell {n n' : ℕ} (j : ℕ) (h : n' = n + 2 * j) (i : Fin n) : Fin n' := ⟨i.val + j, by have := i.isLt; omega⟩

theorem shiftCell_inj {n n' : ℕ} (j : ℕ) (h : n' = n + 2 * j) : Function.Injective (shiftCell j h) := by
  intro a b hab
  have := congrArg Fin.val hab
  simp only [shiftCell] at this
  exact Fin.ext (by omega)

theorem shiftCell_margin {n n' : ℕ} {j : ℕ} {h : n' = n + 2 * j} {i : Fin n'} (hi : i ∉ Set.range (shiftCell j h)) : i.val < j ∨ n + j ≤ i.val := by
  by_contra hc
  push Not at hc
  exact hi ⟨⟨i.val - j, by omega⟩, Fin.ext (by simp only [shiftCell]; omega)⟩

theorem sum_extend {M : Type} [AddCommMonoid M] {n n' : ℕ} (j : ℕ) (h : n' = n + 2 * j) (G : Fin n' → Fin n' → M) (G0 : Fin n → Fin n → M)
    (hG : ∀ iy ix, G0 iy ix = G (shiftCell j h iy) (shiftCell j h ix))
    (h0 : ∀ jy jx, (jy.val < j ∨ n + j ≤ jy.val ∨ jx.val < j ∨ n + j ≤ jx.val) → G jy jx = 0) : ∑ iy, ∑ ix, G0 iy ix = ∑ jy, ∑ jx, G jy jx := by
  refine Fintype.sum_of_injective (shiftCell j h) (shiftCell_inj j h) _ _ (fun jy hy => ?_) (fun iy => ?_)
  · apply Finset.sum_eq_zero
    intro jx _
    rcases shiftCell_margin hy with h | h
    · exact h0 _ _ (.inl h)
    · exact h0 _ _ (.inr (.inl h))
  · refine Fintype.sum_of_injective (shiftCell j h) (shiftCell_inj j h) _ _ (fun jx hx => ?_) (fun ix => hG iy ix)
    rcases shiftCell_margin hx with h | h
    · exact h0 _ _ (.inr (.inr (.inl h)))
    · exact h0 _ _ (.inr (.inr (.inr h)))

/-- A cell of the larger grid is in the margin of `j` cells around the smaller grid of `n` cells. -/
def InMargin (n j : ℕ) {n' : ℕ} (jy jx : Fin n') : Prop := jy.val < j ∨ n + j ≤ jy.val ∨ jx.val < j ∨ n + j ≤ jx.val

/-- The event `e'` on the larger grid continues the event `e`: the cells of `e` are those of `e'` inside the margin of `j` cells. -/
structure GridExtends (norm : ℝ) (j : ℕ) {n n' : ℕ} (e : Event ℝ n) (e' : Event ℝ n') : Prop where
  size : n' = n + 2 * j
  npart : e'.npart = e.npart
  cells : ∀ (iy ix : Fin n) (jy jx : Fin n'), jy.val = iy.val + j → jx.val = ix.val + j →
    e'.TA jy jx = e.TA iy ix ∧ e'.TB jy jx = e.TB iy ix ∧ e'.TR jy jx = e.TR iy ix
  more : 0 ≤ norm → e.multiplicity ≤ e'.multiplicity
  complete : (∀ jy jx, InMargin n j jy jx → e'.TR jy jx = 0) → e'.multiplicity = e.multiplicity ∧
    (e.multiplicity ≠ 0 → e'.ixcm = e.ixcm + j ∧ e'.iycm = e.iycm + j ∧ e'.ecc = e.ecc)

theorem comX_extend {n n' : ℕ} (j : ℕ) (h : n' = n + 2 * j) (T : Fin n → Fin n → ℝ) (T' : Fin n' → Fin n' → ℝ) (hT : ∀ iy ix, T iy ix = T' (shiftCell j h iy) (shiftCell j h ix))
    (h0 : ∀ jy jx, InMargin n j jy jx → T' jy jx = 0) (hs : gridSum T ≠ 0) : gridSum T' = gridSum T ∧ comX T' = comX T + j ∧ comY T' = comY T + j := by
  have s0 : gridSum T' = gridSum T := (sum_extend j h T' T hT h0).symm
  have sx : gridSum (fun iy ix => T' iy ix * ix.val) = gridSum (fun iy ix => T iy ix * ix.val) + j * gridSum T := by
    have := sum_extend j h (fun jy jx => T' jy jx * jx.val) (fun iy ix => T iy ix * (ix.val + j)) (fun iy ix => by rw [hT]; simp [shiftCell]) (fun jy jx hm => by rw [h0 jy jx hm, zero_mul])
    unfold gridSum
    rw [← this]
    simp only [mul_add, Finset.sum_add_distrib, ← Finset.sum_mul]
    ring
  have sy : gridSum (fun iy ix => T' iy ix * iy.val) = gridSum (fun iy ix => T iy ix * iy.val) + j * gridSum T := by
    have := sum_extend j h (fun jy jx => T' jy jx * jy.val) (fun iy ix => T iy ix * (iy.val + j)) (fun iy ix => by rw [hT]; simp [shiftCell]) (fun jy jx hm => by rw [h0 jy jx hm, zero_mul])
    unfold gridSum
    rw [← this]
    simp only [mul_add, Finset.sum_add_distrib, ← Finset.sum_mul]
    ring
  refine ⟨s0, ?_, ?_⟩
  · unfold comX
    rw [s0, sx, add_div, mul_div_assoc, div_self hs, mul_one]
  · unfold comY
    rw [s0, sy, add_div, mul_div_assoc, div_self hs, mul_one]

theorem eccentricity_extend {n n' : ℕ} (j : ℕ) (h : n' = n + 2 * j) (T : Fin n → Fin n → ℝ) (T' : Fin n' → Fin n' → ℝ) (hT : ∀ iy ix, T iy ix = T' (shiftCell j h iy) (shiftCell j h ix))
    (h0 : ∀ jy jx, InMargin n j jy jx → T' jy jx = 0) (hs : gridSum T ≠ 0) (k : ℕ) : eccentricity T' k = eccentricity T k := by
  obtain ⟨-, cx, cy⟩ := comX_extend j h T T' hT h0 hs
  unfold eccentricity
  rw [cx, cy]
  have hz : ∀ iy ix, cellZ (comX T + j) (comY T + j) (shiftCell j h iy) (shiftCell j h ix) = cellZ (comX T) (comY T) iy ix := by
    intro iy ix
    unfold cellZ shiftCell
    apply Complex.ext
    · dsimp only; push_cast; ring
    · dsimp only; push_cast; ring
  unfold eccentricityAbout
  rw [← sum_extend j h (fun jy jx => if T' jy jx < 1e-12 then (0:ℂ) else (T' jy jx : ℂ) * cellZ (comX T + j) (comY T + j) jy jx ^ k)
    (fun iy ix => if T iy ix < 1e-12 then (0:ℂ) else (T iy ix : ℂ) * cellZ (comX T) (comY T) iy ix ^ k) (fun iy ix => by rw [hz, hT])
    (fun jy jx hm => by rw [h0 jy jx hm, if_pos (by norm_num)])]
  rw [← sum_extend j h (fun jy jx => if T' jy jx < 1e-12 then (0:ℝ) else T' jy jx * ‖cellZ (comX T + j) (comY T + j) jy jx‖ ^ k)
    (fun iy ix => if T iy ix < 1e-12 then (0:ℝ) else T iy ix * ‖cellZ (comX T) (comY T) iy ix‖ ^ k) (fun iy ix => by rw [hz, hT])
    (fun jy jx hm => by rw [h0 jy jx hm, if_pos (by norm_num)])]

/-- **C117, event.** The same nucleons deposited on a grid with the same step and `j` more cells on every side: every cell keeps its content; the multiplicity can only grow, and if the margin is empty the multiplicity, the
position of the centre of mass and the eccentricities are the same. -/
theorem C117_event (w v sigma k : ℝ) (m : ℕ) (ncoll : Bool) (hv : 0 < v) (norm dxy gmax gmax' p : ℝ) (hd : 0 < dxy) (c c' : EventCfg ℝ) (hc : EventCfg.make norm dxy gmax p = .ok c)
    (hc' : EventCfg.make norm dxy gmax' p = .ok c') (j n n' : ℕ) (hn : c.nsteps = n) (hn' : c'.nsteps = n') (hj : n' = n + 2 * j) (debug : Bool) (A B : List (NucleonData ℝ))
    (hA : ∀ a ∈ A, a.isParticipant = true → ∀ q ∈ a.constituents, 0 ≤ q.fluctuation) (hB : ∀ b ∈ B, b.isParticipant = true → ∀ q ∈ b.constituents, 0 ≤ q.fluctuation)
    (ev e : Event ℝ n) (ev' e' : Event ℝ n') (h : Event.compute c (NucleonCommon.make w v m sigma ncoll k) debug ev A B = .ok e)
    (h' : Event.compute c' (NucleonCommon.make w v m sigma ncoll k) debug ev' A B = .ok e') : GridExtends norm j e e' := by
  obtain ⟨p1, p2, p3⟩ := eventCfg_params hc
  obtain ⟨p1', p2', p3'⟩ := eventCfg_params hc'
  have xy : ∀ {g : ℝ} {c : EventCfg ℝ}, EventCfg.make norm dxy g p = .ok c → c.xymax = c.nsteps * dxy / 2 := by
    intro g c hc
    unfold EventCfg.make at hc
    split at hc
    · cases hc
    · split at hc
      · cases hc
      · cases hc
        dsimp only
        have : (lit 0.5 : ℝ) = 1/2 := by simp; norm_num
        rw [this, ofInt_real]; ring
  have x1 := xy hc
  have x2 := xy hc'
  have hcen : ∀ i : ℕ, c'.center ((i + j : ℕ) : ℤ) = c.center (i : ℤ) := by
    intro i
    unfold EventCfg.center
    rw [x1, x2, p2, p2', hn, hn', hj, ofInt_real, ofInt_real]
    push_cast
    ring
  have hcells : ∀ (iy ix : Fin n) (jy jx : Fin n'), jy.val = iy.val + j → jx.val = ix.val + j → e'.TA jy jx = e.TA iy ix ∧ e'.TB jy jx = e.TB iy ix ∧ e'.TR jy jx = e.TR iy ix := by
    intro iy ix jy jx hy hx
    obtain ⟨a1, a2⟩ := C21_thickness_is_direct_sum w v m sigma ncoll k hv c (by rw [p2]; exact hd) debug n hn A B hA hB ev e h iy ix
    obtain ⟨b1, b2⟩ := C21_thickness_is_direct_sum w v m sigma ncoll k hv c' (by rw [p2']; exact hd) debug n' hn' A B hA hB ev' e' h' jy jx
    rw [hy, hx, hcen, hcen] at b1 b2
    have t1 : e'.TA jy jx = e.TA iy ix := by rw [a1, b1]
    have t2 : e'.TB jy jx = e.TB iy ix := by rw [a2, b2]
    refine ⟨t1, t2, ?_⟩
    rw [C25_reduced_thickness _ _ _ _ _ _ _ _ h, C25_reduced_thickness _ _ _ _ _ _ _ _ h', t1, t2, p1, p1', p3, p3']
  have hT : ∀ iy ix, e.TR iy ix = e'.TR (shiftCell j hj iy) (shiftCell j hj ix) := fun iy ix => (hcells iy ix _ _ rfl rfl).2.2.symm
  have m1 := C27_multiplicity _ _ _ _ _ _ _ _ h
  have m2 := C27_multiplicity _ _ _ _ _ _ _ _ h'
  rw [p2] at m1
  rw [p2'] at m2
  refine ⟨hj, compute_npart_same h h' |>.symm, hcells, fun hnorm => ?_, fun h0 => ?_⟩
  · rw [m1, m2]
    apply mul_le_mul_of_nonneg_left _ (by positivity)
    classical
    have hpos := (C27_nonneg w v m sigma ncoll k hv c' (by rw [p2']; exact hd) (by rw [p1']; exact hnorm) debug n' hn' A B hA hB ev' e' h').1
    have := sum_extend j hj (fun jy jx => if InMargin n j jy jx then 0 else e'.TR jy jx) e.TR (fun iy ix => by
      rw [if_neg, hT]
      unfold InMargin shiftCell
      have := iy.isLt
      have := ix.isLt
      dsimp only
      omega) (fun jy jx hm => if_pos hm)
    unfold gridSum
    rw [this]
    refine Finset.sum_le_sum fun jy _ => Finset.sum_le_sum fun jx _ => ?_
    split
    · exact hpos jy jx
    · exact le_rfl
  · have s0 : gridSum e'.TR = gridSum e.TR := (sum_extend j hj e'.TR e.TR hT h0).symm
    refine ⟨by rw [m1, m2, s0], fun hm => ?_⟩
    have hs : gridSum e.TR ≠ 0 := by
      intro hz; rw [hz, mul_zero] at m1; exact hm m1
    obtain ⟨-, cx, cy⟩ := comX_extend j hj e.TR e'.TR hT h0 hs
    obtain ⟨x1, y1, q2, q3, q4, q5⟩ := C28_eccentricities _ _ _ _ _ _ _ _ h'
    obtain ⟨x0, y0, r2, r3, r4, r5⟩ := C28_eccentricities _ _ _ _ _ _ _ _ h
    refine ⟨by rw [x1, x0, cx], by rw [y1, y0, cy], ?_⟩
    have key := eccentricity_extend j hj e.TR e'.TR hT h0 hs
    rw [key] at q2 q3 q4 q5
    rw [← r2] at q2
    rw [← r3] at q3
    rw [← r4] at q4
    rw [← r5] at q5
    revert q2 q3 q4 q5
    generalize e'.ecc = a
    generalize e.ecc = b
    intro q2 q3 q4 q5
    obtain ⟨a2, a3, a4, a5⟩ := a
    obtain ⟨b2, b3, b4, b5⟩ := b
    dsimp only at q2 q3 q4 q5
    rw [q2, q3, q4, q5]

/-- Raising `--grid-max` by `j` steps adds `2 j` cells. -/
theorem extend_steps {norm dxy g p : ℝ} {c c' : EventCfg ℝ} {n n' : ℕ} (hd : 0 < dxy) (j : ℕ) (hc : EventCfg.make norm dxy g p = .ok c) (hc' : EventCfg.make norm dxy (g + j * dxy) p = .ok c')
    (hn : c.nsteps = n) (hn' : c'.nsteps = n') : n' = n + 2 * j := by
  have key : ∀ {g : ℝ} {c : EventCfg ℝ}, EventCfg.make norm dxy g p = .ok c → c.nsteps = ⌈2 * g / dxy⌉ := by
    intro g c hc
    unfold EventCfg.make at hc
    split at hc
    · cases hc
    · rename_i k hk
      split at hc
      · cases hc
      · cases hc
        have e := castInt_eq_ok hk
        have h2 : (lit 2 : ℝ) = 2 := by simp
        rw [ceil_real, h2] at e
        dsimp only
        rw [e]
        split <;> simp
  have e1 := key hc
  have e2 := key hc'
  have : 2 * (g + j * dxy) / dxy = 2 * g / dxy + ((2 * j : ℤ) : ℝ) := by
    push_cast; field_simp
  rw [this, Int.ceil_add_intCast] at e2
  omega

/-- Two runs on different grids, event by event: the same collision, deposited on each grid. -/
theorem runLoop_two_grids {F E D : Type} [Arith F] [Rng F E D] {c : Collider F} {ec ec' : EventCfg F} {debug : Bool} {n n' : Nat} {P : NucleonData F → Prop}
    (h : NucleonInvariant E D c.nc P) {kA kB : Kind F}
    (hA : SamplingInvariant E D kA (fun x => ∃ w : Rand E D, x = c.asymmetry * impactFormula c.bmin c.bmax (canonical w).1) P (fun _ => True))
    (hB : SamplingInvariant E D kB (fun x => ∃ w : Rand E D, x = (c.asymmetry - lit 1) * impactFormula c.bmin c.bmax (canonical w).1) P (fun _ => True))
    (rfuel fuel k num : Nat) (A0 B0 : Nucleus F) (w : Rand E D) (ev : Event F n) (ev' : Event F n') (t : RunState F E D n) (t' : RunState F E D n')
    (rs : List (EventRecord F n)) (rs' : List (EventRecord F n')) (sA : NucleusHistory E D A0) (sB : NucleusHistory E D B0) (eA : A0.kind = kA) (eB : B0.kind = kB)
    (hr : runLoop rfuel fuel c ec debug k num ⟨A0, B0, ev, w⟩ = .ok (rs, t)) (hr' : runLoop rfuel fuel c ec' debug k num ⟨A0, B0, ev', w⟩ = .ok (rs', t')) :
    List.Forall₂ (fun r r' => r'.num = r.num ∧ r'.b = r.b ∧ r'.ncoll = r.ncoll ∧ ∃ A B : Nucleus F, CollisionOf E D c r.b r.ncoll A B ∧
      (∀ a ∈ A.nucleons, P a) ∧ (∀ b ∈ B.nucleons, P b) ∧ (∀ ev : Event F n, ev.compute ec c.nc debug A.nucleons B.nucleons = .ok r.event) ∧
      ∀ ev : Event F n', ev.compute ec' c.nc debug A.nucleons B.nucleons = .ok r'.event) rs rs' := by
  induction k generalizing num A0 B0 w ev ev' t t' rs rs' with
  | zero =>
    simp only [runLoop, Except.ok.injEq, Prod.mk.injEq] at hr hr'
    rw [← hr.1, ← hr'.1]; exact .nil
  | succ k ih =>
    rw [runLoop] at hr hr'
    dsimp only at hr hr'
    cases hs : c.sampleCollision rfuel fuel A0 B0 w with
    | error e => rw [hs] at hr; cases hr
    | ok r =>
      obtain ⟨⟨b, nc, A1, B1⟩, w1⟩ := r
      rw [hs] at hr hr'
      dsimp only at hr hr'
      cases h1 : ev.compute ec c.nc debug A1.nucleons B1.nucleons with
      | error e => rw [h1] at hr; cases hr
      | ok e1 =>
        cases h2 : ev'.compute ec' c.nc debug A1.nucleons B1.nucleons with
        | error e => rw [h2] at hr'; cases hr'
        | ok e2 =>
          rw [h1] at hr; rw [h2] at hr'
          dsimp only at hr hr'
          cases r1 : runLoop rfuel fuel c ec debug k (num+1) ⟨A1, B1, e1, w1⟩ with
          | error e => rw [r1] at hr; cases hr
          | ok q1 =>
            cases r2 : runLoop rfuel fuel c ec' debug k (num+1) ⟨A1, B1, e2, w1⟩ with
            | error e => rw [r2] at hr'; cases hr'
            | ok q2 =>
              rw [r1] at hr; rw [r2] at hr'
              simp only [Except.ok.injEq, Prod.mk.injEq] at hr hr'
              obtain ⟨hcol, hhA, hhB, hlA, hlB, hkA, hkB⟩ := collisionLoop_spec rfuel c fuel A0 B0 A1 B1 sA sB w w1 b nc hs
              obtain ⟨-, c2⟩ := collisionLoop_inv (Q := fun _ => True) trivial h hA hB rfuel fuel A0 B0 sA sB eA eB 0 false w
              obtain ⟨-, -, -, -, pA, pB, -⟩ := c2 b nc A1 B1 w1 hs
              rw [← hr.1, ← hr'.1]
              refine .cons ⟨rfl, rfl, rfl, A1, B1, hcol, pA, pB, fun ev2 => (C24_history_independent _ _ _ _ ev2 ev _ _).trans h1,
                fun ev2 => (C24_history_independent _ _ _ _ ev2 ev' _ _).trans h2⟩ ?_
              exact ih _ _ _ _ _ _ _ _ _ _ hhA hhB (hkA.trans eA) (hkB.trans eB) r1 r2

/-- Two runs on different grids, as `runLoop_two_grids`. -/
theorem runAll_two_grids {F E D : Type} [Arith F] [Rng F E D] (o : Options F) (g sigma : F) (debug : Bool) {P : NucleonData F → Prop} (h : NucleonInvariant E D (Collider.make o sigma).nc P)
    (hP : ∀ n : NucleonData F, n.isParticipant = false → n.constituentsExist = false → P n)
    (sA : NucleusHistory E D o.projectileA) (sB : NucleusHistory E D o.projectileB) (rfuel fuel : Nat) (ev0 ev0' : (n : Nat) → Event F n) (w : Rand E D) (n n' : ℕ)
    (rs : List (EventRecord F n)) (rs' : List (EventRecord F n')) (hr : runAll rfuel fuel o sigma debug ev0 w = .ok ⟨n, rs⟩)
    (hr' : runAll rfuel fuel { o with gridMax := g } sigma debug ev0' w = .ok ⟨n', rs'⟩) :
    ∃ ec ec', EventCfg.make o.normalization o.gridStep o.gridMax o.reducedThickness = .ok ec ∧ EventCfg.make o.normalization o.gridStep g o.reducedThickness = .ok ec' ∧
      ec.nsteps = (n:ℤ) ∧ ec'.nsteps = (n':ℤ) ∧
      List.Forall₂ (fun r r' => r'.num = r.num ∧ r'.b = r.b ∧ r'.ncoll = r.ncoll ∧ ∃ A B : Nucleus F, CollisionOf E D (Collider.make o sigma) r.b r.ncoll A B ∧
      (∀ a ∈ A.nucleons, P a) ∧ (∀ b ∈ B.nucleons, P b) ∧ (∀ ev : Event F n, ev.compute ec (Collider.make o sigma).nc debug A.nucleons B.nucleons = .ok r.event) ∧
      ∀ ev : Event F n', ev.compute ec' (Collider.make o sigma).nc debug A.nucleons B.nucleons = .ok r'.event) rs rs' := by
  have hm : Collider.make { o with gridMax := g } sigma = Collider.make o sigma := rfl
  have hS : ∀ (kind : Kind F) (off : F → Prop), SamplingInvariant E D kind off P (fun _ => True) := by
    intro kind off nuc rfuel x w hh hk hx
    refine ⟨fun _ _ => trivial, ?_⟩
    intro nuc' w' hs n hn
    have := (C12_sampling_resets nuc nuc' hh _ _ _ _ hs).2 n hn
    exact hP n this.1 this.2
  have steps : ∀ {a b d e : F} {ec : EventCfg F}, EventCfg.make a b d e = .ok ec → ec.nsteps = (ec.nsteps.toNat : ℤ) := by
    intro a b d e ec hec
    unfold EventCfg.make at hec
    split at hec
    · cases hec
    · split at hec
      · cases hec
      · cases hec; dsimp only; omega
  unfold runAll at hr hr'
  rw [hm] at hr'
  dsimp only at hr'
  cases hec : EventCfg.make o.normalization o.gridStep o.gridMax o.reducedThickness with
  | error e => simp only [hec] at hr; cases hr
  | ok ec =>
    cases hec' : EventCfg.make o.normalization o.gridStep g o.reducedThickness with
    | error e => simp only [hec'] at hr'; cases hr'
    | ok ec' =>
      simp only [hec] at hr
      simp only [hec'] at hr'
      unfold Collider.runEvents at hr hr'
      cases r1 : runLoop rfuel fuel (Collider.make o sigma) ec debug (Collider.make o sigma).nevents.toNat 0
          ⟨(Collider.make o sigma).nucleusA, (Collider.make o sigma).nucleusB, ev0 ec.nsteps.toNat, seedRand F o.randomSeed w⟩ with
      | error e => rw [r1] at hr; cases hr
      | ok q1 =>
        cases r2 : runLoop rfuel fuel (Collider.make o sigma) ec' debug (Collider.make o sigma).nevents.toNat 0
            ⟨(Collider.make o sigma).nucleusA, (Collider.make o sigma).nucleusB, ev0' ec'.nsteps.toNat, seedRand F o.randomSeed w⟩ with
        | error e => rw [r2] at hr'; cases hr'
        | ok q2 =>
          obtain ⟨rs1, s1⟩ := q1
          obtain ⟨rs2, s2⟩ := q2
          rw [r1] at hr; rw [r2] at hr'
          simp only [Except.ok.injEq, Sigma.mk.injEq] at hr hr'
          obtain ⟨rfl, hr⟩ := hr
          obtain ⟨rfl, hr'⟩ := hr'
          rw [heq_eq_eq] at hr hr'
          subst hr
          subst hr'
          exact ⟨ec, ec', rfl, rfl, steps hec, steps hec', runLoop_two_grids h (hS o.projectileA.kind _) (hS o.projectileB.kind _) rfuel fuel _ 0 _ _ _ _ _ _ _ _ _ sA sB rfl rfl r1 r2⟩

/-- **C117, run.** Two runs from the same seed, the second with `--grid-max` raised by `j` grid steps: the grid has `j` more cells on every side, the events are the same throughout, and every event of the second run
continues that of the first. -/
theorem C117_run {E D : Type} [Rng ℝ E D] [LawfulRng E D] (o : Options ℝ) (j : ℕ) (sigma : ℝ) (hA : NucleusHistory E D o.projectileA) (hB : NucleusHistory E D o.projectileB)
    (hv : 0 < o.constitWidth) (hstep : 0 < o.gridStep) (debug : Bool) (rfuel fuel : ℕ) (ev0 ev0' : (n : ℕ) → Event ℝ n) (w : Rand E D) (n n' : ℕ)
    (rs : List (EventRecord ℝ n)) (rs' : List (EventRecord ℝ n')) (h : runAll rfuel fuel o sigma debug ev0 w = .ok ⟨n, rs⟩)
    (h' : runAll rfuel fuel { o with gridMax := o.gridMax + j * o.gridStep } sigma debug ev0' w = .ok ⟨n', rs'⟩) :
    List.Forall₂ (fun r r' => r'.num = r.num ∧ r'.b = r.b ∧ r'.ncoll = r.ncoll ∧ GridExtends o.normalization j r.event r'.event) rs rs' := by
  obtain ⟨ec, ec', hc, hc', hn, hn', hF⟩ := runAll_two_grids o (o.gridMax + j * o.gridStep) sigma debug (weightsReal_invariant (E := E) (D := D) (Collider.make o sigma).nc)
    (by intro n h1 h2; exact ⟨fun h => absurd h (by rw [h1]; simp), fun h => absurd h (by rw [h2]; simp)⟩) hA hB rfuel fuel ev0 ev0' w n n' rs rs' h h'
  have hj : n' = n + 2 * j := extend_steps hstep j hc hc' hn hn'
  refine hF.imp ?_
  rintro r r' ⟨q1, q2, q3, A, B, -, pA, pB, k1, k2⟩
  refine ⟨q1, q2, q3, ?_⟩
  exact C117_event o.nucleonWidth o.constitWidth sigma o.fluctuation o.constitNumber o.ncoll hv o.normalization o.gridStep o.gridMax _ o.reducedThickness hstep ec ec' hc hc' j n n' hn hn' hj debug
    A.nucleons B.nucleons (fun a ha hp => ((pA a ha).2 ((pA a ha).1 hp)).2) (fun a ha hp => ((pB a ha).2 ((pB a ha).1 hp)).2) (ev0 n) _ (ev0 n') _ (k1 _) (k2 _)

/-- The cells of the smaller grid have the same centres in the larger one. -/
theorem center_extend {norm dxy g' p : ℝ} {c' : EventCfg ℝ} (hc' : EventCfg.make norm dxy g' p = .ok c') {j n n' : ℕ}
    (hn' : c'.nsteps = n') (hj : n' = n + 2 * j) (i : ℕ) : c'.center (i : ℤ) = (i - j + 1/2) * dxy - n * dxy / 2 := by
  have xy : ∀ {g : ℝ} {c : EventCfg ℝ}, EventCfg.make norm dxy g p = .ok c → c.xymax = c.nsteps * dxy / 2 := by
    intro g c hc
    unfold EventCfg.make at hc
    split at hc
    · cases hc
    · split at hc
      · cases hc
      · cases hc
        dsimp only
        have : (lit 0.5 : ℝ) = 1/2 := by simp; norm_num
        rw [this, ofInt_real]; ring
  obtain ⟨-, p2', -⟩ := eventCfg_params hc'
  have x2 := xy hc'
  have h5 : (lit 0.5 : ℝ) = 1/2 := by simp; norm_num
  unfold EventCfg.center
  rw [x2, p2', hn', hj, ofInt_real, h5]
  push_cast
  ring

/-- **C117, inside.** If the box of every participant's constituents is inside the smaller grid, the cells of the larger grid outside the smaller one have no thickness and no density. -/
theorem C117_inside (w v sigma k : ℝ) (m : ℕ) (ncoll : Bool) (hv : 0 < v) (norm dxy gmax' p : ℝ) (hd : 0 < dxy) (c' : EventCfg ℝ)
    (hc' : EventCfg.make norm dxy gmax' p = .ok c') (j n n' : ℕ) (hn' : c'.nsteps = n') (hj : n' = n + 2 * j) (debug : Bool) (A B : List (NucleonData ℝ))
    (hA : ∀ a ∈ A, a.isParticipant = true → ∀ q ∈ a.constituents, 0 ≤ q.fluctuation) (hB : ∀ b ∈ B, b.isParticipant = true → ∀ q ∈ b.constituents, 0 ≤ q.fluctuation)
    (hin : ∀ a ∈ A ++ B, a.isParticipant = true → ∀ q ∈ a.constituents, |q.x| + 5 * v ≤ n * dxy / 2 ∧ |q.y| + 5 * v ≤ n * dxy / 2)
    (ev' e' : Event ℝ n') (h' : Event.compute c' (NucleonCommon.make w v m sigma ncoll k) debug ev' A B = .ok e') (jy jx : Fin n') (hm : InMargin n j jy jx) :
    e'.TA jy jx = 0 ∧ e'.TB jy jx = 0 ∧ e'.TR jy jx = 0 := by
  obtain ⟨p1', p2', p3'⟩ := eventCfg_params hc'
  have hx := center_extend hc' hn' hj jx.val
  have hy := center_extend hc' hn' hj jy.val
  have side : ∀ i : ℕ, (i < j → (i - j + 1/2) * dxy - n * dxy / 2 ≤ -(n * dxy / 2)) ∧ (n + j ≤ i → n * dxy / 2 ≤ (i - j + 1/2) * dxy - n * dxy / 2) := by
    intro i
    constructor
    · intro h
      have : (i:ℝ) + 1 ≤ j := by exact_mod_cast h
      nlinarith
    · intro h
      have : (n:ℝ) + j ≤ i := by exact_mod_cast h
      nlinarith
  have hout : ∀ L : List (NucleonData ℝ), (∀ a ∈ L, a.isParticipant = true → ∀ q ∈ a.constituents, 0 ≤ q.fluctuation) →
      (∀ a ∈ L, a.isParticipant = true → ∀ q ∈ a.constituents, |q.x| + 5 * v ≤ n * dxy / 2 ∧ |q.y| + 5 * v ≤ n * dxy / 2) →
      directThickness (NucleonCommon.make w v m sigma ncoll k) debug L (c'.center jx.val) (c'.center jy.val) = 0 := by
    intro L hf hL
    unfold directThickness
    apply List.sum_eq_zero
    intro t ht
    obtain ⟨a, ha, rfl⟩ := List.mem_map.mp ht
    obtain ⟨ha, hp⟩ := List.mem_filter.mp ha
    obtain ⟨t, ht, _, _, _, hz⟩ := C03_thickness w v m sigma ncoll k hv debug a (hf a ha hp) (c'.center jx.val) (c'.center jy.val)
    unfold thicknessAt
    rw [ht]
    dsimp only
    apply hz
    intro q hq
    obtain ⟨q1, q2⟩ := hL a ha hp q hq
    rw [Real.le_sqrt' (by positivity)]
    unfold distSq
    have key : ∀ s : ℝ, 5*v ≤ s ∨ s ≤ -(5*v) → (5*v)^2 ≤ s^2 := by
      intro s hs
      rcases hs with hs | hs <;> nlinarith
    rw [hx, hy]
    have a1 := abs_le.mp (le_sub_iff_add_le.mpr q1)
    have a2 := abs_le.mp (le_sub_iff_add_le.mpr q2)
    rcases hm with h | h | h | h
    · exact le_add_of_nonneg_of_le (sq_nonneg _) (key _ (.inr (by have := (side jy.val).1 h; linarith [a2.1])))
    · exact le_add_of_nonneg_of_le (sq_nonneg _) (key _ (.inl (by have := (side jy.val).2 h; linarith [a2.2])))
    · exact le_add_of_le_of_nonneg (key _ (.inr (by have := (side jx.val).1 h; linarith [a1.1]))) (sq_nonneg _)
    · exact le_add_of_le_of_nonneg (key _ (.inl (by have := (side jx.val).2 h; linarith [a1.2]))) (sq_nonneg _)
  obtain ⟨b1, b2⟩ := C21_thickness_is_direct_sum w v m sigma ncoll k hv c' (by rw [p2']; exact hd) debug n' hn' A B hA hB ev' e' h' jy jx
  have t1 : e'.TA jy jx = 0 := by rw [b1, hout A hA fun a ha => hin a (List.mem_append_left _ ha)]
  have t2 : e'.TB jy jx = 0 := by rw [b2, hout B hB fun a ha => hin a (List.mem_append_right _ ha)]
  refine ⟨t1, t2, ?_⟩
  rw [C25_reduced_thickness _ _ _ _ _ _ _ _ h', t1, t2]
  obtain ⟨m0, m1, -⟩ := C25_between c'.p 0 0 le_rfl le_rfl
  rw [max_self] at m1
  rw [le_antisymm m1 m0, mul_zero]

/-- The events of one proton on each side, on 100 and on 120 cells: the same multiplicity and eccentricities. -/
example : ∃ (c c' : EventCfg ℝ) (e : Event ℝ 100) (e' : Event ℝ 120) (A B : List (NucleonData ℝ)) (ev : Event ℝ 100) (ev' : Event ℝ 120),
    A = [⟨0, 0, 0, true, true, [⟨0, 0, 1⟩]⟩] ∧ B = [⟨1, 0, 0, true, true, [⟨1, 0, 2⟩]⟩] ∧
    Event.compute c (NucleonCommon.make (1:ℝ) 1 1 1 false 1) false ev A B = .ok e ∧ Event.compute c' (NucleonCommon.make (1:ℝ) 1 1 1 false 1) false ev' A B = .ok e' ∧
    GridExtends 1 10 e e' ∧ e'.multiplicity = e.multiplicity := by
  obtain ⟨c, hc⟩ := C20_grid_exists 1 0.2 10 0 (by norm_num) (by norm_num) (by norm_num)
  obtain ⟨g1, g2, g3, -⟩ := C20_grid_geometry 1 0.2 10 0 (by norm_num) (by norm_num) c hc
  obtain ⟨p1, p2, p3⟩ := eventCfg_params hc
  have hns : c.nsteps = (100 : ℕ) := by
    rw [g1]; norm_num
  have hxy : c.xymax = 10 := by rw [hns] at g3; norm_num at g3; linarith
  obtain ⟨c', hc'⟩ := C20_grid_exists 1 0.2 12 0 (by norm_num) (by norm_num) (by norm_num)
  obtain ⟨g1', g2', g3', -⟩ := C20_grid_geometry 1 0.2 12 0 (by norm_num) (by norm_num) c' hc'
  obtain ⟨p1', p2', p3'⟩ := eventCfg_params hc'
  have hns' : c'.nsteps = (120 : ℕ) := by
    rw [g1']; norm_num
  have hxy' : c'.xymax = 12 := by rw [hns'] at g3'; norm_num at g3'; linarith
  obtain ⟨e, h⟩ := C22_deposition_in_bounds 1 1 1 1 false 1 one_pos c (by rw [p2]; norm_num) false 100 hns (by norm_num)
    [⟨0, 0, 0, true, true, [⟨0, 0, 1⟩]⟩] [⟨1, 0, 0, true, true, [⟨1, 0, 2⟩]⟩] 1 (by
      intro a ha hp
      simp only [List.singleton_append, List.mem_cons, List.not_mem_nil, or_false] at ha
      rcases ha with rfl | rfl
      · simp
      · simp) (by rw [hxy, p2]; norm_num) ⟨fun _ _ => 0, fun _ _ => 0, fun _ _ => 0, 0, 0, 0, 0, ⟨0, 0, 0, 0⟩⟩
  obtain ⟨e', h'⟩ := C22_deposition_in_bounds 1 1 1 1 false 1 one_pos c' (by rw [p2']; norm_num) false 120 hns' (by norm_num)
    [⟨0, 0, 0, true, true, [⟨0, 0, 1⟩]⟩] [⟨1, 0, 0, true, true, [⟨1, 0, 2⟩]⟩] 1 (by
      intro a ha hp
      simp only [List.singleton_append, List.mem_cons, List.not_mem_nil, or_false] at ha
      rcases ha with rfl | rfl
      · simp
      · simp) (by rw [hxy', p2']; norm_num) ⟨fun _ _ => 0, fun _ _ => 0, fun _ _ => 0, 0, 0, 0, 0, ⟨0, 0, 0, 0⟩⟩
  have wA : ∀ a ∈ [(⟨0, 0, 0, true, true, [⟨0, 0, 1⟩]⟩ : NucleonData ℝ)], a.isParticipant = true → ∀ q ∈ a.constituents, 0 ≤ q.fluctuation := by
    intro a ha hp
    simp only [List.mem_cons, List.not_mem_nil, or_false] at ha
    subst ha; simp
  have wB : ∀ a ∈ [(⟨1, 0, 0, true, true, [⟨1, 0, 2⟩]⟩ : NucleonData ℝ)], a.isParticipant = true → ∀ q ∈ a.constituents, 0 ≤ q.fluctuation := by
    intro a ha hp
    simp only [List.mem_cons, List.not_mem_nil, or_false] at ha
    subst ha; simp
  have key := C117_event 1 1 1 1 1 false one_pos 1 0.2 10 12 0 (by norm_num) c c' hc hc' 10 100 120 hns hns' rfl false _ _ wA wB _ e _ e' h h'
  refine ⟨c, c', e, e', _, _, _, _, rfl, rfl, h, h', key, (key.complete fun jy jx hm => ?_).1⟩
  refine (C117_inside 1 1 1 1 1 false one_pos 1 0.2 12 0 (by norm_num) c' hc' 10 100 120 hns' rfl false _ _ wA wB ?_ _ e' h' jy jx hm).2.2
  intro a ha hp
  simp only [List.singleton_append, List.mem_cons, List.not_mem_nil, or_false] at ha
  rcases ha with rfl | rfl
  · simp; norm_num
  · simp; norm_num

/-- The options of the example run with `--grid-max` raised by ten steps (an input of the examples, no code of /repo). -/
noncomputable def largerOptions : Options ℝ := { exampleOptions with gridMax := exampleOptions.gridMax + (10 : ℕ) * exampleOptions.gridStep }

/-- The run of `exampleOptions` on a larger grid delivers its two records too. -/
theorem example_run_larger : ∃ res, runAll 0 1 largerOptions 100 true
    (fun n => (⟨fun _ _ => 0, fun _ _ => 0, fun _ _ => 0, 0, 0, 0, 0, ⟨0, 0, 0, 0⟩⟩ : Event ℝ n)) halfTape = .ok res := by
  have hK : NormalBounded Tape Unit 1 := by
    intro s d e hs
    show |0 + s * (2 * e.val 0 - 1)| ≤ 1 * s
    have := e.mem 0
    rw [zero_add, one_mul, abs_mul, abs_of_nonneg hs]
    have : |2 * e.val 0 - 1| ≤ 1 := by rw [abs_le]; constructor <;> linarith
    nlinarith
  have hh : NucleusHistory Tape Unit (mkProton : Nucleus ℝ) := .create false (fun _ => .missing) "p" 0 _ rfl
  have hu : Usable Tape Unit (mkProton : Nucleus ℝ) 0 := ⟨hh, trivial, reach_proton⟩
  have hbm : (Collider.make largerOptions 100).bmax = 1 := by
    rw [(C35_bmax largerOptions (by norm_num [largerOptions, exampleOptions]) 100).1 (by norm_num [largerOptions, exampleOptions])]; rfl
  have hsw : calcSamplingWidth largerOptions.nucleonWidth largerOptions.constitWidth largerOptions.constitNumber = 0 :=
    C09_sampling_width_zero _ _ 1 (.inl rfl)
  rcases C61_no_undefined_behaviour hK largerOptions 100 (rA := 0) (rB := 0) hu hu (by norm_num [largerOptions, exampleOptions])
    (by norm_num [largerOptions, exampleOptions]) (by norm_num [largerOptions, exampleOptions]) (by rw [hbm]; norm_num [largerOptions, exampleOptions])
    (by norm_num [largerOptions, exampleOptions]) (by norm_num [largerOptions, exampleOptions]) (by norm_num [largerOptions, exampleOptions])
    (by rw [hbm, hsw]; norm_num [largerOptions, exampleOptions]) true 0 1
    (fun n => (⟨fun _ _ => 0, fun _ _ => 0, fun _ _ => 0, 0, 0, 0, 0, ⟨0, 0, 0, 0⟩⟩ : Event ℝ n)) halfTape with h | h
  · exact h
  · exfalso
    unfold runAll Collider.runEvents at h
    have hseed : seedRand ℝ largerOptions.randomSeed halfTape = halfTape := by
      unfold seedRand
      rw [if_neg (by decide)]
    rw [hseed] at h
    have hloop : ∀ (ec : EventCfg ℝ) (n k num : Nat) (s : RunState ℝ Tape Unit n), NucleusHistory Tape Unit s.A →
        NucleusHistory Tape Unit s.B → s.A.kind = .proton → s.B.kind = .proton → s.rand = halfTape →
        runLoop 0 1 (Collider.make exampleOptions 100) ec true k num s ≠ .error .fuel := by
      intro ec n k
      induction k with
      | zero => intro num s _ _ _ _ _ h; cases h
      | succ k ih =>
        intro num s hA hB kA kB hr h
        rw [runLoop, hr] at h
        obtain ⟨⟨b, ncoll, A', B'⟩, hc⟩ := example_collision s.A s.B hA hB kA kB
        simp only [hc] at h
        obtain ⟨-, hA', hB', -, -, kA', kB'⟩ := collisionLoop_spec 0 _ 1 s.A s.B A' B' hA hB halfTape halfTape b ncoll hc
        cases hev : s.event.compute ec (Collider.make exampleOptions 100).nc true A'.nucleons B'.nucleons with
        | error e =>
          simp only [hev] at h
          injection h with h
          subst h
          exact absurd hev (compute_not_fuel _ _ _ _ _ _)
        | ok ev =>
          simp only [hev] at h
          cases hrl : runLoop 0 1 (Collider.make exampleOptions 100) ec true k (num+1) ⟨A', B', ev, halfTape⟩ with
          | error e =>
            simp only [hrl] at h
            injection h with h
            subst h
            exact ih (num+1) ⟨A', B', ev, halfTape⟩ hA' hB' (kA'.trans kA) (kB'.trans kB) rfl hrl
          | ok r => simp only [hrl] at h; cases h
    cases hec : EventCfg.make largerOptions.normalization largerOptions.gridStep largerOptions.gridMax largerOptions.reducedThickness with
    | error e =>
      obtain ⟨ec, hec'⟩ := C20_grid_exists largerOptions.normalization largerOptions.gridStep largerOptions.gridMax
        largerOptions.reducedThickness (by norm_num [largerOptions, exampleOptions]) (by norm_num [largerOptions, exampleOptions]) (by norm_num [largerOptions, exampleOptions])
      rw [hec] at hec'; cases hec'
    | ok ec =>
      simp only [hec] at h
      cases hrl : runLoop 0 1 (Collider.make largerOptions 100) ec true (Collider.make largerOptions 100).nevents.toNat 0
          ⟨(Collider.make largerOptions 100).nucleusA, (Collider.make largerOptions 100).nucleusB,
            (⟨fun _ _ => 0, fun _ _ => 0, fun _ _ => 0, 0, 0, 0, 0, ⟨0, 0, 0, 0⟩⟩ : Event ℝ ec.nsteps.toNat), halfTape⟩ with
      | error e =>
        simp only [hrl] at h
        injection h with h
        subst h
        exact hloop ec _ _ _ _ hh hh rfl rfl rfl hrl
      | ok r => simp only [hrl] at h; cases h

/-- The two proton-proton events of the example run, on 100 and on 120 cells per side. -/
example : ∃ (n n' : ℕ) (ev0 : (n : ℕ) → Event ℝ n) (rs : List (EventRecord ℝ n)) (rs' : List (EventRecord ℝ n')), runAll 0 1 exampleOptions 100 true ev0 halfTape = .ok ⟨n, rs⟩ ∧
    runAll 0 1 largerOptions 100 true ev0 halfTape = .ok ⟨n', rs'⟩ ∧
    List.Forall₂ (fun r r' => r'.num = r.num ∧ r'.b = r.b ∧ r'.ncoll = r.ncoll ∧ GridExtends 1 10 r.event r'.event) rs rs' := by
  obtain ⟨⟨n, rs⟩, h⟩ := example_run
  obtain ⟨⟨n', rs'⟩, h'⟩ := example_run_larger
  have hh : NucleusHistory Tape Unit (mkProton : Nucleus ℝ) := .create false (fun _ => .missing) "p" 0 _ rfl
  exact ⟨n, n', _, rs, rs', h, h', C117_run exampleOptions 10 100 hh hh (by norm_num [exampleOptions]) (by norm_num [exampleOptions]) true 0 1 _ _ halfTape n n' rs rs' h h'⟩

end Trento
