import Verif.Props.GridExtension

/-!
# C118: where the collision sits on the grid

Moving all nucleons by whole cells moves the grids by as many cells; as long as nothing falls off the grid, the multiplicity and the eccentricities are the same and the centre of mass moves along.
-/

namespace Trento
open Spec

/-- A nucleon and its constituents moved by `(dx, dy)` (specification). -/
def NucleonData.translate (dx dy : ℝ) (a : NucleonData ℝ) : NucleonData ℝ :=
  { a with x := a.x + dx, y := a.y + dy, constituents := a.constituents.map fun q => { q with x := q.x + dx, y := q.y + dy } }

/-- Cell `jy, jx` is cell `iy, ix` moved by `t` rows and `s` columns. -/
def MovedCell {n : ℕ} (s t : ℤ) (iy ix jy jx : Fin n) : Prop := (jy.val : ℤ) = iy.val + t ∧ (jx.val : ℤ) = ix.val + s

/-- The grid `T'` is `T` moved by `t` rows and `s` columns, and nothing fell off. -/
structure MovedGrid {n : ℕ} (s t : ℤ) (T T' : Fin n → Fin n → ℝ) : Prop where
  cell : ∀ iy ix jy jx, MovedCell s t iy ix jy jx → T' jy jx = T iy ix
  forth : ∀ iy ix, T iy ix ≠ 0 → ∃ jy jx, MovedCell s t iy ix jy jx
  back : ∀ jy jx, T' jy jx ≠ 0 → ∃ iy ix, MovedCell s t iy ix jy jx

theorem MovedGrid.sum {n : ℕ} {s t : ℤ} {T T' : Fin n → Fin n → ℝ} (h : MovedGrid s t T T') {M : Type} [AddCommMonoid M] (W W' : Fin n → Fin n → M)
    (hW : ∀ iy ix jy jx, MovedCell s t iy ix jy jx → W' jy jx = W iy ix) (z : ∀ iy ix, T iy ix = 0 → W iy ix = 0) (z' : ∀ jy jx, T' jy jx = 0 → W' jy jx = 0) :
    ∑ iy, ∑ ix, W iy ix = ∑ jy, ∑ jx, W' jy jx := by
  classical
  rw [← Finset.sum_product', ← Finset.sum_product']
  have hf : ∀ a : Fin n × Fin n, W a.1 a.2 ≠ 0 → ∃ b : Fin n × Fin n, MovedCell s t a.1 a.2 b.1 b.2 := by
    intro a ha
    obtain ⟨jy, jx, hm⟩ := h.forth a.1 a.2 fun e => ha (z _ _ e)
    exact ⟨(jy, jx), hm⟩
  refine Finset.sum_bij_ne_zero (fun a _ ha => (hf a ha).choose) (fun a _ _ => by simp) ?_ ?_ ?_
  · intro a _ ha b _ hb hab
    have e1 := (hf a ha).choose_spec
    have e2 := (hf b hb).choose_spec
    rw [hab] at e1
    obtain ⟨u1, u2⟩ := e1
    obtain ⟨v1, v2⟩ := e2
    exact Prod.ext (Fin.ext (by omega)) (Fin.ext (by omega))
  · intro b _ hb
    obtain ⟨iy, ix, hm⟩ := h.back b.1 b.2 fun e => hb (z' _ _ e)
    have hne : W iy ix ≠ 0 := by rw [← hW _ _ _ _ hm]; exact hb
    refine ⟨(iy, ix), by simp, hne, ?_⟩
    obtain ⟨u1, u2⟩ := (hf (iy, ix) hne).choose_spec
    obtain ⟨v1, v2⟩ := hm
    dsimp only at u1 u2
    exact Prod.ext (Fin.ext (by omega)) (Fin.ext (by omega))
  · intro a _ ha
    exact (hW _ _ _ _ (hf a ha).choose_spec).symm

theorem MovedCell.real {n : ℕ} {s t : ℤ} {iy ix jy jx : Fin n} (h : MovedCell s t iy ix jy jx) : (jy.val : ℝ) = iy.val + t ∧ (jx.val : ℝ) = ix.val + s := by
  obtain ⟨h1, h2⟩ := h
  exact ⟨by exact_mod_cast h1, by exact_mod_cast h2⟩

theorem MovedGrid.com {n : ℕ} {s t : ℤ} {T T' : Fin n → Fin n → ℝ} (h : MovedGrid s t T T') (hs : gridSum T ≠ 0) :
    gridSum T' = gridSum T ∧ comX T' = comX T + s ∧ comY T' = comY T + t := by
  have s0 : gridSum T' = gridSum T := (h.sum T T' h.cell (fun _ _ e => e) (fun _ _ e => e)).symm
  have sx : gridSum (fun iy ix => T' iy ix * ix.val) = gridSum (fun iy ix => T iy ix * ix.val) + s * gridSum T := by
    have := h.sum (fun iy ix => T iy ix * (ix.val + s)) (fun jy jx => T' jy jx * jx.val) (fun iy ix jy jx hm => by rw [h.cell _ _ _ _ hm, hm.real.2])
      (fun iy ix e => by rw [e, zero_mul]) (fun iy ix e => by rw [e, zero_mul])
    unfold gridSum
    rw [← this]
    simp only [mul_add, Finset.sum_add_distrib, ← Finset.sum_mul]
    ring
  have sy : gridSum (fun iy ix => T' iy ix * iy.val) = gridSum (fun iy ix => T iy ix * iy.val) + t * gridSum T := by
    have := h.sum (fun iy ix => T iy ix * (iy.val + t)) (fun jy jx => T' jy jx * jy.val) (fun iy ix jy jx hm => by rw [h.cell _ _ _ _ hm, hm.real.1])
      (fun iy ix e => by rw [e, zero_mul]) (fun iy ix e => by rw [e, zero_mul])
    unfold gridSum
    rw [← this]
    simp only [mul_add, Finset.sum_add_distrib, ← Finset.sum_mul]
    ring
  refine ⟨s0, ?_, ?_⟩
  · unfold comX
    rw [s0, sx, add_div, mul_div_assoc, div_self hs, mul_one]
  · unfold comY
    rw [s0, sy, add_div, mul_div_assoc, div_self hs, mul_one]

theorem MovedGrid.ecc {n : ℕ} {s t : ℤ} {T T' : Fin n → Fin n → ℝ} (h : MovedGrid s t T T') (hs : gridSum T ≠ 0) (k : ℕ) : eccentricity T' k = eccentricity T k := by
  obtain ⟨-, cx, cy⟩ := h.com hs
  unfold eccentricity
  rw [cx, cy]
  have hz : ∀ iy ix jy jx : Fin n, MovedCell s t iy ix jy jx → cellZ (comX T + s) (comY T + t) jy jx = cellZ (comX T) (comY T) iy ix := by
    intro iy ix jy jx hm
    obtain ⟨e1, e2⟩ := hm.real
    unfold cellZ
    apply Complex.ext
    · dsimp only; rw [e2]; ring
    · dsimp only; rw [e1]; ring
  unfold eccentricityAbout
  rw [← h.sum (fun iy ix => if T iy ix < 1e-12 then (0:ℂ) else (T iy ix : ℂ) * cellZ (comX T) (comY T) iy ix ^ k)
    (fun jy jx => if T' jy jx < 1e-12 then (0:ℂ) else (T' jy jx : ℂ) * cellZ (comX T + s) (comY T + t) jy jx ^ k)
    (fun iy ix jy jx hm => by rw [hz _ _ _ _ hm, h.cell _ _ _ _ hm]) (fun iy ix e => by rw [e, if_pos (by norm_num)]) (fun iy ix e => by rw [e, if_pos (by norm_num)])]
  rw [← h.sum (fun iy ix => if T iy ix < 1e-12 then (0:ℝ) else T iy ix * ‖cellZ (comX T) (comY T) iy ix‖ ^ k)
    (fun jy jx => if T' jy jx < 1e-12 then (0:ℝ) else T' jy jx * ‖cellZ (comX T + s) (comY T + t) jy jx‖ ^ k)
    (fun iy ix jy jx hm => by rw [hz _ _ _ _ hm, h.cell _ _ _ _ hm]) (fun iy ix e => by rw [e, if_pos (by norm_num)]) (fun iy ix e => by rw [e, if_pos (by norm_num)])]

theorem thicknessLoop_translate (nc : NucleonCommon ℝ) (debug : Bool) (x y dx dy : ℝ) (cs : List (Constituent ℝ)) (t : ℝ) :
    nc.thicknessLoop debug (x + dx) (y + dy) (cs.map fun q => { q with x := q.x + dx, y := q.y + dy }) t = nc.thicknessLoop debug x y cs t := by
  induction cs generalizing t with
  | nil => rfl
  | cons q cs ih =>
    rw [List.map_cons, NucleonCommon.thicknessLoop, NucleonCommon.thicknessLoop]
    dsimp only
    have e : sqr (x + dx - (q.x + dx)) + sqr (y + dy - (q.y + dy)) = sqr (x - q.x) + sqr (y - q.y) := by
      congr 1
      · congr 1; ring
      · congr 1; ring
    rw [e]
    split
    · cases nc.fastExp.eval debug (-lit 0.5 * (sqr (x - q.x) + sqr (y - q.y)) / nc.constituentWidthSq) with
      | error e => rfl
      | ok ex => exact ih _
    · exact ih _

theorem directThickness_translate (nc : NucleonCommon ℝ) (debug : Bool) (L : List (NucleonData ℝ)) (x y dx dy : ℝ) :
    directThickness nc debug (L.map (NucleonData.translate dx dy)) (x + dx) (y + dy) = directThickness nc debug L x y := by
  unfold directThickness
  induction L with
  | nil => rfl
  | cons a L ih =>
    have hp : (NucleonData.translate dx dy a).isParticipant = a.isParticipant := rfl
    rw [List.map_cons, List.filter_cons, List.filter_cons, hp]
    have ht : thicknessAt nc debug (NucleonData.translate dx dy a) (x + dx) (y + dy) = thicknessAt nc debug a x y := by
      unfold thicknessAt NucleonCommon.thickness NucleonData.translate
      dsimp only
      rw [thicknessLoop_translate]
    split
    · rw [List.map_cons, List.sum_cons, List.map_cons, List.sum_cons, ht, ih]
    · exact ih

/-- A nucleus whose participants' constituents are inside a square, cutoff included, has no thickness outside. -/
theorem directThickness_outside (w v sigma k : ℝ) (m : ℕ) (ncoll : Bool) (hv : 0 < v) (debug : Bool) (L : List (NucleonData ℝ)) (R : ℝ)
    (hf : ∀ a ∈ L, a.isParticipant = true → ∀ q ∈ a.constituents, 0 ≤ q.fluctuation)
    (hL : ∀ a ∈ L, a.isParticipant = true → ∀ q ∈ a.constituents, |q.x| + 5 * v ≤ R ∧ |q.y| + 5 * v ≤ R) (x y : ℝ) (ho : x ≤ -R ∨ R ≤ x ∨ y ≤ -R ∨ R ≤ y) :
    directThickness (NucleonCommon.make w v m sigma ncoll k) debug L x y = 0 := by
  unfold directThickness
  apply List.sum_eq_zero
  intro t ht
  obtain ⟨a, ha, rfl⟩ := List.mem_map.mp ht
  obtain ⟨ha, hp⟩ := List.mem_filter.mp ha
  obtain ⟨t, ht, _, _, _, hz⟩ := C03_thickness w v m sigma ncoll k hv debug a (hf a ha hp) x y
  unfold thicknessAt
  rw [ht]
  dsimp only
  apply hz
  intro q hq
  obtain ⟨q1, q2⟩ := hL a ha hp q hq
  rw [Real.le_sqrt' (by positivity)]
  unfold distSq
  have key : ∀ s : ℝ, 5*v ≤ s ∨ s ≤ -(5*v) → (5*v)^2 ≤ s^2 := by
    intro s hs
    rcases hs with hs | hs <;> nlinarith
  have a1 := abs_le.mp (le_sub_iff_add_le.mpr q1)
  have a2 := abs_le.mp (le_sub_iff_add_le.mpr q2)
  rcases ho with h | h | h | h
  · exact le_add_of_le_of_nonneg (key _ (.inr (by linarith [a1.1]))) (sq_nonneg _)
  · exact le_add_of_le_of_nonneg (key _ (.inl (by linarith [a1.2]))) (sq_nonneg _)
  · exact le_add_of_nonneg_of_le (sq_nonneg _) (key _ (.inr (by linarith [a2.1])))
  · exact le_add_of_nonneg_of_le (sq_nonneg _) (key _ (.inl (by linarith [a2.2])))

/-- **C118.** An event on nucleons moved by `s` columns and `t` rows of cells: the same participants; every cell has the thicknesses and the density of the cell it came from; and if the participants, with the cutoff of
their constituents, are inside the grid before and after, the multiplicity and the eccentricities are the same and the centre of mass moves by `s` and `t` cells. -/
theorem C118_event (w v sigma k : ℝ) (m : ℕ) (ncoll : Bool) (hv : 0 < v) (norm dxy gmax p : ℝ) (hd : 0 < dxy) (c : EventCfg ℝ) (hc : EventCfg.make norm dxy gmax p = .ok c)
    (n : ℕ) (hn : c.nsteps = n) (s t : ℤ) (debug : Bool) (A B : List (NucleonData ℝ))
    (hA : ∀ a ∈ A, a.isParticipant = true → ∀ q ∈ a.constituents, 0 ≤ q.fluctuation) (hB : ∀ b ∈ B, b.isParticipant = true → ∀ q ∈ b.constituents, 0 ≤ q.fluctuation)
    (ev e ev' e' : Event ℝ n) (h : Event.compute c (NucleonCommon.make w v m sigma ncoll k) debug ev A B = .ok e)
    (h' : Event.compute c (NucleonCommon.make w v m sigma ncoll k) debug ev' (A.map (NucleonData.translate (s * dxy) (t * dxy))) (B.map (NucleonData.translate (s * dxy) (t * dxy))) = .ok e') :
    e'.npart = e.npart ∧
    (∀ iy ix jy jx : Fin n, (jy.val : ℤ) = iy.val + t → (jx.val : ℤ) = ix.val + s → e'.TA jy jx = e.TA iy ix ∧ e'.TB jy jx = e.TB iy ix ∧ e'.TR jy jx = e.TR iy ix) ∧
    ((∀ a ∈ A ++ B, a.isParticipant = true → ∀ q ∈ a.constituents, |q.x| + 5 * v ≤ n * dxy / 2 ∧ |q.y| + 5 * v ≤ n * dxy / 2 ∧
        |q.x + s * dxy| + 5 * v ≤ n * dxy / 2 ∧ |q.y + t * dxy| + 5 * v ≤ n * dxy / 2) →
      e'.multiplicity = e.multiplicity ∧ (e.multiplicity ≠ 0 → e'.ixcm = e.ixcm + s ∧ e'.iycm = e.iycm + t ∧ e'.ecc = e.ecc)) := by
  obtain ⟨p1, p2, p3⟩ := eventCfg_params hc
  have hcen : ∀ i : ℕ, c.center (i : ℤ) = (i + 1/2) * dxy - n * dxy / 2 := by
    intro i
    have := center_extend (j := 0) hc hn (n := n) rfl i
    rw [this]; push_cast; ring
  have wt : ∀ L : List (NucleonData ℝ), (∀ a ∈ L, a.isParticipant = true → ∀ q ∈ a.constituents, 0 ≤ q.fluctuation) →
      ∀ a ∈ L.map (NucleonData.translate (s * dxy) (t * dxy)), a.isParticipant = true → ∀ q ∈ a.constituents, 0 ≤ q.fluctuation := by
    intro L hL a ha hp q hq
    obtain ⟨a0, ha0, rfl⟩ := List.mem_map.mp ha
    obtain ⟨q0, hq0, rfl⟩ := List.mem_map.mp hq
    exact hL a0 ha0 hp q0 hq0
  have dA := fun iy ix => C21_thickness_is_direct_sum w v m sigma ncoll k hv c (by rw [p2]; exact hd) debug n hn A B hA hB ev e h iy ix
  have dA' := fun iy ix => C21_thickness_is_direct_sum w v m sigma ncoll k hv c (by rw [p2]; exact hd) debug n hn _ _ (wt A hA) (wt B hB) ev' e' h' iy ix
  have hcells : ∀ iy ix jy jx : Fin n, MovedCell s t iy ix jy jx → e'.TA jy jx = e.TA iy ix ∧ e'.TB jy jx = e.TB iy ix ∧ e'.TR jy jx = e.TR iy ix := by
    intro iy ix jy jx hm
    obtain ⟨e1, e2⟩ := hm.real
    have cy : c.center jy.val = c.center iy.val + t * dxy := by rw [hcen, hcen, e1]; ring
    have cx : c.center jx.val = c.center ix.val + s * dxy := by rw [hcen, hcen, e2]; ring
    obtain ⟨a1, a2⟩ := dA iy ix
    obtain ⟨b1, b2⟩ := dA' jy jx
    rw [cx, cy, directThickness_translate] at b1 b2
    have t1 : e'.TA jy jx = e.TA iy ix := by rw [a1, b1]
    have t2 : e'.TB jy jx = e.TB iy ix := by rw [a2, b2]
    refine ⟨t1, t2, ?_⟩
    rw [C25_reduced_thickness _ _ _ _ _ _ _ _ h, C25_reduced_thickness _ _ _ _ _ _ _ _ h', t1, t2]
  refine ⟨?_, fun iy ix jy jx h1 h2 => hcells iy ix jy jx ⟨h1, h2⟩, fun hin => ?_⟩
  · rw [(C23_npart _ _ _ _ _ _ _ _ h).1, (C23_npart _ _ _ _ _ _ _ _ h').1]
    simp [List.filter_map, Function.comp_def, NucleonData.translate]
  -- nothing outside the grid, before or after
  have mean0 : norm * trentoMean p 0 0 = 0 := by
    obtain ⟨m0, m1, -⟩ := C25_between p 0 0 le_rfl le_rfl
    rw [max_self] at m1
    rw [le_antisymm m1 m0, mul_zero]
  have off : ∀ (i : ℕ) (r : ℤ), ¬ (0 ≤ (i:ℤ) + r ∧ (i:ℤ) + r < n) → (i + 1/2) * dxy - n * dxy / 2 + r * dxy ≤ -(n * dxy / 2) ∨ n * dxy / 2 ≤ (i + 1/2) * dxy - n * dxy / 2 + r * dxy := by
    intro i r hr
    rcases lt_or_ge ((i:ℤ) + r) 0 with h | h
    · left
      have : (i:ℝ) + r + 1 ≤ 0 := by exact_mod_cast h
      nlinarith
    · right
      have : (n:ℝ) ≤ i + r := by
        have : (n:ℤ) ≤ i + r := by by_contra hc; exact hr ⟨h, by omega⟩
        exact_mod_cast this
      nlinarith
  have zf : ∀ (iy ix : Fin n), ¬ ((0 ≤ (iy.val:ℤ) + t ∧ (iy.val:ℤ) + t < n) ∧ (0 ≤ (ix.val:ℤ) + s ∧ (ix.val:ℤ) + s < n)) → e.TR iy ix = 0 := by
    intro iy ix ho
    have hout : c.center ix.val + s * dxy ≤ -(n * dxy / 2) ∨ n * dxy / 2 ≤ c.center ix.val + s * dxy ∨ c.center iy.val + t * dxy ≤ -(n * dxy / 2) ∨ n * dxy / 2 ≤ c.center iy.val + t * dxy := by
      rw [hcen, hcen]
      by_cases hx : (0 ≤ (ix.val:ℤ) + s ∧ (ix.val:ℤ) + s < n)
      · have hy : ¬ (0 ≤ (iy.val:ℤ) + t ∧ (iy.val:ℤ) + t < n) := fun hy => ho ⟨hy, hx⟩
        rcases off _ _ hy with h | h
        · exact .inr (.inr (.inl h))
        · exact .inr (.inr (.inr h))
      · rcases off _ _ hx with h | h
        · exact .inl h
        · exact .inr (.inl h)
    have key : ∀ L : List (NucleonData ℝ), (∀ a ∈ L, a.isParticipant = true → ∀ q ∈ a.constituents, 0 ≤ q.fluctuation) → (∀ a ∈ L, a ∈ A ++ B) →
        directThickness (NucleonCommon.make w v m sigma ncoll k) debug L (c.center ix.val) (c.center iy.val) = 0 := by
      intro L hL hs
      rw [← directThickness_translate _ _ _ _ _ (s * dxy) (t * dxy)]
      refine directThickness_outside w v sigma k m ncoll hv debug _ (n * dxy / 2) (wt L hL) ?_ _ _ hout
      intro a ha hp q hq
      obtain ⟨a0, ha0, rfl⟩ := List.mem_map.mp ha
      obtain ⟨q0, hq0, rfl⟩ := List.mem_map.mp hq
      exact (hin a0 (hs a0 ha0) hp q0 hq0).2.2
    obtain ⟨b1, b2⟩ := dA iy ix
    rw [C25_reduced_thickness _ _ _ _ _ _ _ _ h, b1, b2, key A hA (fun a ha => List.mem_append_left _ ha), key B hB (fun a ha => List.mem_append_right _ ha), p1, p3, mean0]
  have zb : ∀ (jy jx : Fin n), ¬ ((0 ≤ (jy.val:ℤ) + -t ∧ (jy.val:ℤ) + -t < n) ∧ (0 ≤ (jx.val:ℤ) + -s ∧ (jx.val:ℤ) + -s < n)) → e'.TR jy jx = 0 := by
    intro iy ix ho
    have hout : c.center ix.val - s * dxy ≤ -(n * dxy / 2) ∨ n * dxy / 2 ≤ c.center ix.val - s * dxy ∨ c.center iy.val - t * dxy ≤ -(n * dxy / 2) ∨ n * dxy / 2 ≤ c.center iy.val - t * dxy := by
      rw [hcen, hcen]
      have off' : ∀ (i : ℕ) (r : ℤ), ¬ (0 ≤ (i:ℤ) + -r ∧ (i:ℤ) + -r < n) → (i + 1/2) * dxy - n * dxy / 2 - r * dxy ≤ -(n * dxy / 2) ∨ n * dxy / 2 ≤ (i + 1/2) * dxy - n * dxy / 2 - r * dxy := by
        intro i r hr
        have := off i (-r) hr
        push_cast at this
        rw [neg_mul, ← sub_eq_add_neg] at this
        exact this
      by_cases hx : (0 ≤ (ix.val:ℤ) + -s ∧ (ix.val:ℤ) + -s < n)
      · have hy : ¬ (0 ≤ (iy.val:ℤ) + -t ∧ (iy.val:ℤ) + -t < n) := fun hy => ho ⟨hy, hx⟩
        rcases off' _ _ hy with h | h
        · exact .inr (.inr (.inl h))
        · exact .inr (.inr (.inr h))
      · rcases off' _ _ hx with h | h
        · exact .inl h
        · exact .inr (.inl h)
    have key : ∀ L : List (NucleonData ℝ), (∀ a ∈ L, a.isParticipant = true → ∀ q ∈ a.constituents, 0 ≤ q.fluctuation) → (∀ a ∈ L, a ∈ A ++ B) →
        directThickness (NucleonCommon.make w v m sigma ncoll k) debug (L.map (NucleonData.translate (s * dxy) (t * dxy))) (c.center ix.val) (c.center iy.val) = 0 := by
      intro L hL hs
      have := directThickness_translate (NucleonCommon.make w v m sigma ncoll k) debug L (c.center ix.val - s * dxy) (c.center iy.val - t * dxy) (s * dxy) (t * dxy)
      rw [sub_add_cancel, sub_add_cancel] at this
      rw [this]
      refine directThickness_outside w v sigma k m ncoll hv debug _ (n * dxy / 2) hL ?_ _ _ hout
      intro a ha hp q hq
      have := hin a (hs a ha) hp q hq
      exact ⟨this.1, this.2.1⟩
    obtain ⟨b1, b2⟩ := dA' iy ix
    rw [C25_reduced_thickness _ _ _ _ _ _ _ _ h', b1, b2, key A hA (fun a ha => List.mem_append_left _ ha), key B hB (fun a ha => List.mem_append_right _ ha), p1, p3, mean0]
  have hM : MovedGrid s t e.TR e'.TR := by
    refine ⟨fun iy ix jy jx hm => (hcells iy ix jy jx hm).2.2, fun iy ix hne => ?_, fun jy jx hne => ?_⟩
    · have := mt (zf iy ix) hne
      push Not at this
      obtain ⟨⟨a1, a2⟩, a3, a4⟩ := this
      exact ⟨⟨((iy.val:ℤ) + t).toNat, by omega⟩, ⟨((ix.val:ℤ) + s).toNat, by omega⟩, by dsimp only; omega, by dsimp only; omega⟩
    · have := mt (zb jy jx) hne
      push Not at this
      obtain ⟨⟨a1, a2⟩, a3, a4⟩ := this
      exact ⟨⟨((jy.val:ℤ) + -t).toNat, by omega⟩, ⟨((jx.val:ℤ) + -s).toNat, by omega⟩, by dsimp only; omega, by dsimp only; omega⟩
  have s0 : gridSum e'.TR = gridSum e.TR := (hM.sum e.TR e'.TR hM.cell (fun _ _ e => e) (fun _ _ e => e)).symm
  have m1 := C27_multiplicity _ _ _ _ _ _ _ _ h
  have m2 := C27_multiplicity _ _ _ _ _ _ _ _ h'
  refine ⟨by rw [m1, m2, s0], fun hm => ?_⟩
  have hs : gridSum e.TR ≠ 0 := by
    intro hz; rw [hz, mul_zero] at m1; exact hm m1
  obtain ⟨-, cx, cy⟩ := hM.com hs
  obtain ⟨x1, y1, q2, q3, q4, q5⟩ := C28_eccentricities _ _ _ _ _ _ _ _ h'
  obtain ⟨x0, y0, r2, r3, r4, r5⟩ := C28_eccentricities _ _ _ _ _ _ _ _ h
  refine ⟨by rw [x1, x0, cx], by rw [y1, y0, cy], ?_⟩
  have key := hM.ecc hs
  rw [key] at q2 q3 q4 q5
  rw [← r2] at q2
  rw [← r3] at q3
  rw [← r4] at q4
  rw [← r5] at q5
  revert q2 q3 q4 q5
  generalize e'.ecc = a
  generalize e.ecc = b
  intro q2 q3 q4 q5
  obtain ⟨a2, a3, a4, a5⟩ := a
  obtain ⟨b2, b3, b4, b5⟩ := b
  dsimp only at q2 q3 q4 q5
  rw [q2, q3, q4, q5]

/-- One participant on each side, on a grid of 100 cells, moved five cells to the right and three down: the same multiplicity. -/
example : ∃ (c : EventCfg ℝ) (ev e e' : Event ℝ 100) (A B : List (NucleonData ℝ)), A = [⟨0, 0, 0, true, true, [⟨0, 0, 1⟩]⟩] ∧ B = [⟨1, 0, 0, true, true, [⟨1, 0, 2⟩]⟩] ∧
    Event.compute c (NucleonCommon.make (1:ℝ) 1 1 1 false 1) false ev A B = .ok e ∧
    Event.compute c (NucleonCommon.make (1:ℝ) 1 1 1 false 1) false ev (A.map (NucleonData.translate 1 (-0.6))) (B.map (NucleonData.translate 1 (-0.6))) = .ok e' ∧
    e'.multiplicity = e.multiplicity ∧ ∀ iy ix jy jx : Fin 100, (jy.val : ℤ) = iy.val + -3 → (jx.val : ℤ) = ix.val + 5 → e'.TR jy jx = e.TR iy ix := by
  obtain ⟨c, hc⟩ := C20_grid_exists 1 0.2 10 0 (by norm_num) (by norm_num) (by norm_num)
  obtain ⟨g1, g2, g3, -⟩ := C20_grid_geometry 1 0.2 10 0 (by norm_num) (by norm_num) c hc
  obtain ⟨p1, p2, p3⟩ := eventCfg_params hc
  have hns : c.nsteps = (100 : ℕ) := by
    rw [g1]; norm_num
  have hxy : c.xymax = 10 := by rw [hns] at g3; norm_num at g3; linarith
  obtain ⟨e, h⟩ := C22_deposition_in_bounds 1 1 1 1 false 1 one_pos c (by rw [p2]; norm_num) false 100 hns (by norm_num)
    [⟨0, 0, 0, true, true, [⟨0, 0, 1⟩]⟩] [⟨1, 0, 0, true, true, [⟨1, 0, 2⟩]⟩] 1 (by
      intro a ha hp
      simp only [List.singleton_append, List.mem_cons, List.not_mem_nil, or_false] at ha
      rcases ha with rfl | rfl
      · simp
      · simp) (by rw [hxy, p2]; norm_num) ⟨fun _ _ => 0, fun _ _ => 0, fun _ _ => 0, 0, 0, 0, 0, ⟨0, 0, 0, 0⟩⟩
  obtain ⟨e', h'⟩ := C22_deposition_in_bounds 1 1 1 1 false 1 one_pos c (by rw [p2]; norm_num) false 100 hns (by norm_num)
    (([⟨0, 0, 0, true, true, [⟨0, 0, 1⟩]⟩] : List (NucleonData ℝ)).map (NucleonData.translate 1 (-0.6))) (([⟨1, 0, 0, true, true, [⟨1, 0, 2⟩]⟩] : List (NucleonData ℝ)).map (NucleonData.translate 1 (-0.6))) 2 (by
      intro a ha hp
      simp only [List.map_cons, List.map_nil, List.singleton_append, List.mem_cons, List.not_mem_nil, or_false] at ha
      rcases ha with rfl | rfl
      · simp [NucleonData.translate]; norm_num [abs_le]
      · simp [NucleonData.translate]; norm_num [abs_le]) (by rw [hxy, p2]; norm_num) ⟨fun _ _ => 0, fun _ _ => 0, fun _ _ => 0, 0, 0, 0, 0, ⟨0, 0, 0, 0⟩⟩
  have wA : ∀ a ∈ [(⟨0, 0, 0, true, true, [⟨0, 0, 1⟩]⟩ : NucleonData ℝ)], a.isParticipant = true → ∀ q ∈ a.constituents, 0 ≤ q.fluctuation := by
    intro a ha hp
    simp only [List.mem_cons, List.not_mem_nil, or_false] at ha
    subst ha; simp
  have wB : ∀ a ∈ [(⟨1, 0, 0, true, true, [⟨1, 0, 2⟩]⟩ : NucleonData ℝ)], a.isParticipant = true → ∀ q ∈ a.constituents, 0 ≤ q.fluctuation := by
    intro a ha hp
    simp only [List.mem_cons, List.not_mem_nil, or_false] at ha
    subst ha; simp
  have d1 : (((5:ℤ):ℝ) * 0.2) = 1 := by norm_num
  have d2 : (((-3:ℤ):ℝ) * 0.2) = -0.6 := by norm_num
  obtain ⟨-, k2, k3⟩ := C118_event 1 1 1 1 1 false one_pos 1 0.2 10 0 (by norm_num) c hc 100 hns 5 (-3) false _ _ wA wB _ e _ e' h (by rw [d1, d2]; exact h')
  refine ⟨c, _, e, e', _, _, rfl, rfl, h, h', (k3 ?_).1, fun iy ix jy jx h1 h2 => (k2 iy ix jy jx h1 h2).2.2⟩
  intro a ha hp
  simp only [List.singleton_append, List.mem_cons, List.not_mem_nil, or_false] at ha
  rcases ha with rfl | rfl
  · intro q hq
    simp only [List.mem_cons, List.not_mem_nil, or_false] at hq
    subst hq
    rw [d1, d2]
    norm_num [abs_of_nonneg, abs_of_nonpos]
  · intro q hq
    simp only [List.mem_cons, List.not_mem_nil, or_false] at hq
    subst hq
    rw [d1, d2]
    norm_num [abs_of_nonneg, abs_of_nonpos]

end Trento
