import Verif.Lemmas.Ecc
import Verif.Props.GenMean

/-!
# C27 – C30, C32: multiplicity and eccentricities
-/

namespace Trento
open Spec

/-! ## C27 -/

/-- **C27.** After a successful `compute` the multiplicity is the cell area times the sum of all reduced thickness cells. -/
theorem C27_multiplicity (c : EventCfg ℝ) (nc : NucleonCommon ℝ) (debug : Bool) (n : ℕ) (ev ev' : Event ℝ n)
    (A B : List (NucleonData ℝ)) (h : Event.compute c nc debug ev A B = .ok ev') :
    ev'.multiplicity = c.dxy^2 * gridSum ev'.TR := by
  obtain ⟨TA, TB, npA, npB, _, _, rfl⟩ := compute_ok h
  have := (computeReducedThickness_scalars c { ev with TA := TA, TB := TB, npart := npB }).1
  rw [pow_two]; exact this

theorem trentoMean_nonneg (p a b : ℝ) : 0 ≤ a → 0 ≤ b → 0 ≤ trentoMean p a b := by
  intro ha hb
  unfold trentoMean powerMean
  split
  · rw [if_pos rfl]; exact Real.sqrt_nonneg _
  · split
    · exact le_rfl
    · split
      · exact Real.sqrt_nonneg _
      · split
        · exact le_rfl
        · have := Real.rpow_nonneg ha p
          have := Real.rpow_nonneg hb p
          positivity

/-- **C27, sign.** For `norm ≥ 0` every reduced thickness cell and the multiplicity are non-negative. -/
theorem C27_nonneg (w v : ℝ) (m : ℕ) (σ : ℝ) (ncoll : Bool) (k : ℝ) (hv : 0 < v)
    (c : EventCfg ℝ) (hd : 0 < c.dxy) (hnorm : 0 ≤ c.norm) (debug : Bool) (n : ℕ) (hn : c.nsteps = n)
    (A B : List (NucleonData ℝ))
    (hA : ∀ a ∈ A, a.isParticipant = true → ∀ q ∈ a.constituents, 0 ≤ q.fluctuation)
    (hB : ∀ b ∈ B, b.isParticipant = true → ∀ q ∈ b.constituents, 0 ≤ q.fluctuation) (ev ev' : Event ℝ n)
    (h : Event.compute c (NucleonCommon.make w v m σ ncoll k) debug ev A B = .ok ev') :
    (∀ iy ix, 0 ≤ ev'.TR iy ix) ∧ 0 ≤ ev'.multiplicity := by
  have h1 : ∀ iy ix, 0 ≤ ev'.TR iy ix := by
    intro iy ix
    obtain ⟨hTA, hTB⟩ := C21_thickness_nonneg w v m σ ncoll k hv c hd debug n hn A B hA hB ev ev' h iy ix
    rw [C25_reduced_thickness c _ debug n A B ev ev' h iy ix]
    exact mul_nonneg hnorm (trentoMean_nonneg _ _ _ hTA hTB)
  refine ⟨h1, ?_⟩
  rw [C27_multiplicity c _ debug n ev ev' A B h]
  exact mul_nonneg (by positivity) (Finset.sum_nonneg fun iy _ => Finset.sum_nonneg fun ix _ => h1 iy ix)

theorem depositAll_change_norm (c : EventCfg ℝ) (q : ℝ) (nc : NucleonCommon ℝ) (debug : Bool) {n : ℕ}
    (A : List (NucleonData ℝ)) (s : Grid ℝ n × ℕ) :
    depositAll { c with norm := q } nc debug A s = depositAll c nc debug A s := by
  induction A generalizing s with
  | nil => rfl
  | cons a A ih =>
    obtain ⟨g, j⟩ := s
    unfold depositAll
    have : depositNucleon { c with norm := q } nc debug a g = depositNucleon c nc debug a g := rfl
    rw [this]
    split
    · split
      · rfl
      · exact ih _
    · exact ih _

/-- **C27, scaling.** Multiplying the normalization by `s` multiplies every reduced thickness cell and the multiplicity
by `s`, and changes neither npart nor the thickness grids. -/
theorem C27_linear_in_norm (c : EventCfg ℝ) (s : ℝ) (nc : NucleonCommon ℝ) (debug : Bool) (n : ℕ) (ev ev' : Event ℝ n)
    (A B : List (NucleonData ℝ)) (h : Event.compute c nc debug ev A B = .ok ev') :
    ∃ ev'', Event.compute { c with norm := s * c.norm } nc debug ev A B = .ok ev'' ∧
      ev''.multiplicity = s * ev'.multiplicity ∧ (∀ iy ix, ev''.TR iy ix = s * ev'.TR iy ix) ∧
      ev''.npart = ev'.npart ∧ ev''.TA = ev'.TA ∧ ev''.TB = ev'.TB := by
  obtain ⟨TA, TB, npA, npB, h1, h2, rfl⟩ := compute_ok h
  have hc : Event.compute { c with norm := s * c.norm } nc debug ev A B =
      .ok (computeObservables (computeReducedThickness { c with norm := s * c.norm }
        { ev with TA := TA, TB := TB, npart := npB })) := by
    unfold Event.compute computeNuclearThickness
    simp only [depositAll_change_norm, h1, h2]
  have hTR : ∀ iy ix, (computeObservables (computeReducedThickness { c with norm := s * c.norm }
        { ev with TA := TA, TB := TB, npart := npB })).TR iy ix =
      s * (computeObservables (computeReducedThickness c { ev with TA := TA, TB := TB, npart := npB })).TR iy ix := by
    intro iy ix
    show (computeReducedThickness _ _).TR iy ix = s * (computeReducedThickness _ _).TR iy ix
    rw [computeReducedThickness_TR, computeReducedThickness_TR]; ring
  refine ⟨_, hc, ?_, hTR, rfl, rfl, rfl⟩
  rw [C27_multiplicity _ nc debug n ev _ A B hc, C27_multiplicity _ nc debug n ev _ A B h]
  unfold gridSum
  simp only [hTR, ← Finset.mul_sum]
  ring

/-! ## C28 -/

/-- **C28.** The four reported eccentricities are `|Σ t zⁿ| / max(Σ t |z|ⁿ, 1e-12)`, `n = 2, …, 5`, about the
thickness-weighted centre of mass, with the sums over the cells with `t ≥ 1e-12`. -/
theorem C28_eccentricities (c : EventCfg ℝ) (nc : NucleonCommon ℝ) (debug : Bool) (n : ℕ) (ev ev' : Event ℝ n)
    (A B : List (NucleonData ℝ)) (h : Event.compute c nc debug ev A B = .ok ev') :
    ev'.ixcm = comX ev'.TR ∧ ev'.iycm = comY ev'.TR ∧
    ev'.ecc.e2 = eccentricity ev'.TR 2 ∧ ev'.ecc.e3 = eccentricity ev'.TR 3 ∧
    ev'.ecc.e4 = eccentricity ev'.TR 4 ∧ ev'.ecc.e5 = eccentricity ev'.TR 5 := by
  obtain ⟨TA, TB, npA, npB, _, _, rfl⟩ := compute_ok h
  obtain ⟨-, hx, hy⟩ := computeReducedThickness_scalars c { ev with TA := TA, TB := TB, npart := npB }
  set r := computeReducedThickness c { ev with TA := TA, TB := TB, npart := npB } with hr
  refine ⟨hx, hy, ?_, ?_, ?_, ?_⟩
  · show ((cells n).foldl (obsStep r.TR r.ixcm r.iycm) EccAccs.zero).e2.finish = _
    rw [finish2, hx, hy]; rfl
  · show ((cells n).foldl (obsStep r.TR r.ixcm r.iycm) EccAccs.zero).e3.finish = _
    rw [finish3, hx, hy]; rfl
  · show ((cells n).foldl (obsStep r.TR r.ixcm r.iycm) EccAccs.zero).e4.finish = _
    rw [finish4, hx, hy]; rfl
  · show ((cells n).foldl (obsStep r.TR r.ixcm r.iycm) EccAccs.zero).e5.finish = _
    rw [finish5, hx, hy]; rfl

/-! ## C29 -/

theorem eccentricityAbout_mem {n : ℕ} (cx cy : ℝ) (T : Fin n → Fin n → ℝ) (k : ℕ) :
    0 ≤ eccentricityAbout cx cy T k ∧ eccentricityAbout cx cy T k ≤ 1 := by
  unfold eccentricityAbout
  have hpos : (0:ℝ) < max (∑ iy, ∑ ix, if T iy ix < 1e-12 then 0 else T iy ix * ‖cellZ cx cy iy ix‖^k) 1e-12 :=
    lt_max_of_lt_right (by norm_num)
  refine ⟨div_nonneg (norm_nonneg _) hpos.le, ?_⟩
  rw [div_le_one hpos]
  refine le_trans ?_ (le_max_left _ _)
  refine le_trans (norm_sum_le _ _) (Finset.sum_le_sum fun iy _ => ?_)
  refine le_trans (norm_sum_le _ _) (Finset.sum_le_sum fun ix _ => ?_)
  split
  · simp
  · rename_i hT
    have : (0:ℝ) ≤ T iy ix := le_trans (by norm_num) (not_lt.mp hT)
    rw [norm_mul, norm_pow, Complex.norm_real, Real.norm_of_nonneg this]

/-- **C29.** Every reported eccentricity of every computed event lies in `[0, 1]`. -/
theorem C29_eccentricity_range (c : EventCfg ℝ) (nc : NucleonCommon ℝ) (debug : Bool) (n : ℕ) (ev ev' : Event ℝ n)
    (A B : List (NucleonData ℝ)) (h : Event.compute c nc debug ev A B = .ok ev') :
    ∀ e ∈ [ev'.ecc.e2, ev'.ecc.e3, ev'.ecc.e4, ev'.ecc.e5], 0 ≤ e ∧ e ≤ 1 := by
  obtain ⟨-, -, h2, h3, h4, h5⟩ := C28_eccentricities c nc debug n ev ev' A B h
  intro e he
  simp only [List.mem_cons, List.not_mem_nil, or_false] at he
  rcases he with rfl | rfl | rfl | rfl
  · rw [h2]; exact eccentricityAbout_mem _ _ _ _
  · rw [h3]; exact eccentricityAbout_mem _ _ _ _
  · rw [h4]; exact eccentricityAbout_mem _ _ _ _
  · rw [h5]; exact eccentricityAbout_mem _ _ _ _

/-! ## C30 -/

theorem eccentricityAbout_congr {n : ℕ} (T T' : Fin n → Fin n → ℝ) (cx cy cx' cy' : ℝ) (k : ℕ)
    (e : Fin n × Fin n ≃ Fin n × Fin n) (hT : ∀ i, T' (e i).1 (e i).2 = T i.1 i.2) (u : ℂ) (hu : ‖u‖ = 1)
    (hz : ∀ i : Fin n × Fin n, cellZ cx' cy' (e i).1 (e i).2 = u * (starRingEnd ℂ) (cellZ cx cy i.1 i.2)) :
    eccentricityAbout cx' cy' T' k = eccentricityAbout cx cy T k := by
  unfold eccentricityAbout
  simp only [← Fintype.sum_prod_type']
  congr 1
  · rw [← e.sum_comp]
    have : ∀ i : Fin n × Fin n, (if T' (e i).1 (e i).2 < 1e-12 then (0:ℂ)
          else (T' (e i).1 (e i).2 : ℂ) * (cellZ cx' cy' (e i).1 (e i).2)^k) =
        u^k * (starRingEnd ℂ) (if T i.1 i.2 < 1e-12 then 0 else (T i.1 i.2 : ℂ) * (cellZ cx cy i.1 i.2)^k) := by
      intro i
      rw [hT, hz]
      split
      · simp
      · rw [map_mul, map_pow, Complex.conj_ofReal, mul_pow]; ring
    simp only [this]
    rw [← Finset.mul_sum, norm_mul, norm_pow, hu, one_pow, one_mul, ← map_sum, Complex.norm_conj]
  · congr 1
    rw [← e.sum_comp]
    apply Finset.sum_congr rfl
    intro i _
    rw [hT, hz, norm_mul, hu, one_mul, Complex.norm_conj]

theorem eccentricityAbout_of_small {n : ℕ} (T : Fin n → Fin n → ℝ) (cx cy : ℝ) (k : ℕ) (h : ∀ iy ix, T iy ix < 1e-12) :
    eccentricityAbout cx cy T k = 0 := by
  unfold eccentricityAbout; simp [h]

/-- The grid mirrored in x (columns reversed). -/
def Grid.mirrorX {F : Type} {n : ℕ} (T : Grid F n) : Grid F n := fun iy ix => T iy ix.rev
/-- The grid mirrored in y (rows reversed). -/
def Grid.mirrorY {F : Type} {n : ℕ} (T : Grid F n) : Grid F n := fun iy ix => T iy.rev ix
/-- The grid with x and y exchanged. -/
def Grid.swapXY {F : Type} {n : ℕ} (T : Grid F n) : Grid F n := fun iy ix => T ix iy

theorem fin_rev_val {n : ℕ} (i : Fin n) : ((i.rev.val : ℕ) : ℝ) = n - 1 - i.val := by
  rw [Fin.val_rev, Nat.cast_sub (by omega)]; push_cast; ring

theorem gridSum_mirrorX {n : ℕ} (T : Grid ℝ n) : gridSum T.mirrorX = gridSum T := by
  unfold gridSum Grid.mirrorX
  exact Finset.sum_congr rfl fun iy _ => Equiv.sum_comp Fin.revPerm (fun ix => T iy ix)

theorem gridSum_mirrorY {n : ℕ} (T : Grid ℝ n) : gridSum T.mirrorY = gridSum T := by
  unfold gridSum Grid.mirrorY
  exact Equiv.sum_comp Fin.revPerm (fun iy => ∑ ix, T iy ix)

theorem gridSum_swapXY {n : ℕ} (T : Grid ℝ n) : gridSum T.swapXY = gridSum T := by
  unfold gridSum Grid.swapXY
  exact Finset.sum_comm

/-- **C30, grid in x.** Mirroring a grid in x leaves its sum and all eccentricities unchanged and maps the centre of mass
`(cx, cy)` to `(n-1-cx, cy)`.  (If the sum vanishes there is no centre of mass; then the grid is required to have no
cell above the threshold, which `C30_no_cancellation` shows for every computed event.) -/
theorem C30_grid_mirror_x {n : ℕ} (T : Grid ℝ n) (hT : gridSum T ≠ 0 ∨ ∀ iy ix, T iy ix < 1e-12) (k : ℕ) :
    gridSum T.mirrorX = gridSum T ∧ eccentricity T.mirrorX k = eccentricity T k ∧
    (gridSum T ≠ 0 → comX T.mirrorX = n - 1 - comX T ∧ comY T.mirrorX = comY T) := by
  have hs := gridSum_mirrorX T
  have hcom : gridSum T ≠ 0 → comX T.mirrorX = n - 1 - comX T ∧ comY T.mirrorX = comY T := by
    intro h0
    have hx : gridSum (fun iy ix => T.mirrorX iy ix * (ix.val:ℝ)) = (n - 1) * gridSum T -
        gridSum (fun iy ix => T iy ix * (ix.val:ℝ)) := by
      have e := gridSum_mirrorX (fun iy ix => T iy ix * (ix.rev.val : ℝ))
      have e1 : gridSum (fun iy ix => T.mirrorX iy ix * (ix.val:ℝ)) = gridSum (fun iy ix => T iy ix * (ix.rev.val : ℝ)) := by
        rw [← e]; unfold gridSum Grid.mirrorX; simp
      rw [e1]
      unfold gridSum
      simp only [fin_rev_val, Finset.mul_sum, ← Finset.sum_sub_distrib]
      exact Finset.sum_congr rfl fun iy _ => Finset.sum_congr rfl fun ix _ => by ring
    have hy : gridSum (fun iy ix => T.mirrorX iy ix * (iy.val:ℝ)) = gridSum (fun iy ix => T iy ix * (iy.val:ℝ)) :=
      gridSum_mirrorX (fun iy ix => T iy ix * (iy.val : ℝ))
    unfold comX comY
    rw [hx, hy, hs]
    refine ⟨?_, rfl⟩
    field_simp
  refine ⟨hs, ?_, hcom⟩
  rcases hT with h0 | h0
  · unfold eccentricity
    obtain ⟨hx, hy⟩ := hcom h0
    refine eccentricityAbout_congr T T.mirrorX _ _ _ _ k ((Equiv.refl _).prodCongr Fin.revPerm) ?_ (-1) (by simp) ?_
    · intro i; simp [Grid.mirrorX]
    · intro i
      rw [hx, hy]
      unfold cellZ
      apply Complex.ext
      · simp only [Equiv.prodCongr_apply, Prod.map, Fin.revPerm_apply, fin_rev_val]; simp
      · simp
  · rw [eccentricity, eccentricity, eccentricityAbout_of_small T.mirrorX _ _ _ (fun iy ix => h0 iy ix.rev),
      eccentricityAbout_of_small _ _ _ _ h0]

/-- **C30, grid transposed.** Exchanging x and y leaves the sum and all eccentricities unchanged and exchanges the two
coordinates of the centre of mass. -/
theorem C30_grid_swap {n : ℕ} (T : Grid ℝ n) (k : ℕ) :
    gridSum T.swapXY = gridSum T ∧ eccentricity T.swapXY k = eccentricity T k ∧
    comX T.swapXY = comY T ∧ comY T.swapXY = comX T := by
  have hs := gridSum_swapXY T
  have hx : comX T.swapXY = comY T := by
    unfold comX comY; rw [hs]; congr 1
    exact gridSum_swapXY (fun iy ix => T iy ix * (iy.val : ℝ))
  have hy : comY T.swapXY = comX T := by
    unfold comX comY; rw [hs]; congr 1
    exact gridSum_swapXY (fun iy ix => T iy ix * (ix.val : ℝ))
  refine ⟨hs, ?_, hx, hy⟩
  unfold eccentricity
  rw [hx, hy]
  refine eccentricityAbout_congr T T.swapXY _ _ _ _ k (Equiv.prodComm _ _) (fun i => rfl) Complex.I (by simp) ?_
  intro i
  unfold cellZ
  apply Complex.ext <;> simp

/-- **C30, grid in y.** -/
theorem C30_grid_mirror_y {n : ℕ} (T : Grid ℝ n) (hT : gridSum T ≠ 0 ∨ ∀ iy ix, T iy ix < 1e-12) (k : ℕ) :
    gridSum T.mirrorY = gridSum T ∧ eccentricity T.mirrorY k = eccentricity T k ∧
    (gridSum T ≠ 0 → comX T.mirrorY = comX T ∧ comY T.mirrorY = n - 1 - comY T) := by
  have hrw : T.mirrorY = (T.swapXY.mirrorX).swapXY := rfl
  obtain ⟨s1, s2, s3, s4⟩ := C30_grid_swap T k
  have hT' : gridSum T.swapXY ≠ 0 ∨ ∀ iy ix, T.swapXY iy ix < 1e-12 := by
    rw [s1]; exact hT.imp id (fun h iy ix => h ix iy)
  obtain ⟨m1, m2, m3⟩ := C30_grid_mirror_x T.swapXY hT' k
  obtain ⟨t1, t2, t3, t4⟩ := C30_grid_swap (T.swapXY.mirrorX) k
  rw [hrw]
  refine ⟨by rw [t1, m1, s1], by rw [t2, m2, s2], ?_⟩
  intro h0
  obtain ⟨a, b⟩ := m3 (by rw [s1]; exact h0)
  exact ⟨by rw [t3, b, s4], by rw [t4, a, s3]⟩

/-- For every computed event, either the grid has a centre of mass, or no cell exceeds the threshold. -/
theorem C30_no_cancellation (w v : ℝ) (m : ℕ) (σ : ℝ) (ncoll : Bool) (k : ℝ) (hv : 0 < v)
    (c : EventCfg ℝ) (hd : 0 < c.dxy) (debug : Bool) (n : ℕ) (hn : c.nsteps = n)
    (A B : List (NucleonData ℝ))
    (hA : ∀ a ∈ A, a.isParticipant = true → ∀ q ∈ a.constituents, 0 ≤ q.fluctuation)
    (hB : ∀ b ∈ B, b.isParticipant = true → ∀ q ∈ b.constituents, 0 ≤ q.fluctuation) (ev ev' : Event ℝ n)
    (h : Event.compute c (NucleonCommon.make w v m σ ncoll k) debug ev A B = .ok ev') :
    gridSum ev'.TR ≠ 0 ∨ ∀ iy ix, ev'.TR iy ix < 1e-12 := by
  by_cases h0 : gridSum ev'.TR = 0
  · right
    have hM : ∀ iy ix, 0 ≤ trentoMean c.p (ev'.TA iy ix) (ev'.TB iy ix) := fun iy ix =>
      let ⟨hTA, hTB⟩ := C21_thickness_nonneg w v m σ ncoll k hv c hd debug n hn A B hA hB ev ev' h iy ix
      trentoMean_nonneg _ _ _ hTA hTB
    have hTR := C25_reduced_thickness c _ debug n A B ev ev' h
    rcases le_or_gt c.norm 0 with hneg | hpos
    · intro iy ix
      rw [hTR]
      have := mul_nonpos_of_nonpos_of_nonneg hneg (hM iy ix)
      linarith
    · have hnn : ∀ iy ix, 0 ≤ ev'.TR iy ix := fun iy ix => by rw [hTR]; exact mul_nonneg hpos.le (hM iy ix)
      intro iy ix
      have h1 := (Finset.sum_eq_zero_iff_of_nonneg (fun iy _ => Finset.sum_nonneg fun ix _ => hnn iy ix)).mp h0 iy
        (Finset.mem_univ _)
      have h2 := (Finset.sum_eq_zero_iff_of_nonneg (fun ix _ => hnn iy ix)).mp h1 ix (Finset.mem_univ _)
      rw [h2]; norm_num
  · exact .inl h0

/-- The nucleon mirrored in x. -/
noncomputable def NucleonData.mirrorX (a : NucleonData ℝ) : NucleonData ℝ :=
  { a with x := -a.x, constituents := a.constituents.map fun q => { q with x := -q.x } }
/-- The nucleon mirrored in y. -/
noncomputable def NucleonData.mirrorY (a : NucleonData ℝ) : NucleonData ℝ :=
  { a with y := -a.y, constituents := a.constituents.map fun q => { q with y := -q.y } }
/-- The nucleon with x and y exchanged. -/
noncomputable def NucleonData.swapXY (a : NucleonData ℝ) : NucleonData ℝ :=
  { a with x := a.y, y := a.x, constituents := a.constituents.map fun q => { q with x := q.y, y := q.x } }

theorem thickness_transform (nc : NucleonCommon ℝ) (debug : Bool) (x y x' y' : ℝ) (f : Constituent ℝ → Constituent ℝ)
    (hf : ∀ q, (f q).fluctuation = q.fluctuation ∧ (x' - (f q).x)^2 + (y' - (f q).y)^2 = (x - q.x)^2 + (y - q.y)^2)
    (cs : List (Constituent ℝ)) (t : ℝ) :
    nc.thicknessLoop debug x' y' (cs.map f) t = nc.thicknessLoop debug x y cs t := by
  induction cs generalizing t with
  | nil => rfl
  | cons q cs ih =>
    simp only [List.map_cons, NucleonCommon.thicknessLoop, sqr_real, (hf q).1, (hf q).2, ih]

/-- A symmetry of the plane acting on nucleons by `f`, on cell indices by `e`. -/
theorem event_transform (w v : ℝ) (m : ℕ) (σ : ℝ) (ncoll : Bool) (k : ℝ) (hv : 0 < v)
    (c : EventCfg ℝ) (hd : 0 < c.dxy) (debug : Bool) (n : ℕ) (hn : c.nsteps = n)
    (A B : List (NucleonData ℝ))
    (hA : ∀ a ∈ A, a.isParticipant = true → ∀ q ∈ a.constituents, 0 ≤ q.fluctuation)
    (hB : ∀ b ∈ B, b.isParticipant = true → ∀ q ∈ b.constituents, 0 ≤ q.fluctuation) (ev ev' ev'' : Event ℝ n)
    (h : Event.compute c (NucleonCommon.make w v m σ ncoll k) debug ev A B = .ok ev')
    (f : Constituent ℝ → Constituent ℝ) (g : NucleonData ℝ → NucleonData ℝ)
    (hg : ∀ a, (g a).constituents = a.constituents.map f ∧ (g a).isParticipant = a.isParticipant)
    (e : Fin n × Fin n → Fin n × Fin n)
    (hf : ∀ (q : Constituent ℝ) (i : Fin n × Fin n), (f q).fluctuation = q.fluctuation ∧
      (c.center i.2.val - (f q).x)^2 + (c.center i.1.val - (f q).y)^2 =
        (c.center (e i).2.val - q.x)^2 + (c.center (e i).1.val - q.y)^2)
    (h' : Event.compute c (NucleonCommon.make w v m σ ncoll k) debug ev (A.map g) (B.map g) = .ok ev'') :
    (∀ i, ev''.TR i.1 i.2 = ev'.TR (e i).1 (e i).2) ∧ ev''.npart = ev'.npart := by
  have hfl : ∀ (A : List (NucleonData ℝ)), n ≠ 0 →
      (∀ a ∈ A, a.isParticipant = true → ∀ q ∈ a.constituents, 0 ≤ q.fluctuation) →
      ∀ a ∈ A.map g, a.isParticipant = true → ∀ q ∈ a.constituents, 0 ≤ q.fluctuation := by
    intro A hn0 hA a ha hp q hq
    obtain ⟨a0, ha0, rfl⟩ := List.mem_map.mp ha
    rw [(hg a0).1] at hq
    obtain ⟨q0, hq0, rfl⟩ := List.mem_map.mp hq
    rw [(hf q0 (⟨0, by omega⟩, ⟨0, by omega⟩)).1]
    exact hA a0 ha0 (by rw [← (hg a0).2]; exact hp) q0 hq0
  constructor
  · intro i
    have hn0 : n ≠ 0 := by have := i.1.isLt; omega
    rw [C25_reduced_thickness c _ debug n _ _ ev ev'' h' i.1 i.2, C25_reduced_thickness c _ debug n _ _ ev ev' h _ _]
    obtain ⟨a1, b1⟩ := C21_thickness_is_direct_sum w v m σ ncoll k hv c hd debug n hn _ _ (hfl A hn0 hA) (hfl B hn0 hB)
      ev ev'' h' i.1 i.2
    obtain ⟨a2, b2⟩ := C21_thickness_is_direct_sum w v m σ ncoll k hv c hd debug n hn _ _ hA hB ev ev' h (e i).1 (e i).2
    have key : ∀ A : List (NucleonData ℝ),
        directThickness (NucleonCommon.make w v m σ ncoll k) debug (A.map g) (c.center i.2.val) (c.center i.1.val) =
        directThickness (NucleonCommon.make w v m σ ncoll k) debug A (c.center (e i).2.val) (c.center (e i).1.val) := by
      intro A
      have hpoint : ∀ a, thicknessAt (NucleonCommon.make w v m σ ncoll k) debug (g a) (c.center i.2.val) (c.center i.1.val) =
          thicknessAt (NucleonCommon.make w v m σ ncoll k) debug a (c.center (e i).2.val) (c.center (e i).1.val) := by
        intro a
        unfold thicknessAt NucleonCommon.thickness
        rw [(hg a).1, thickness_transform _ debug _ _ _ _ f (fun q => hf q i)]
      unfold directThickness
      rw [List.filter_map, List.map_map]
      have hfil : (fun a : NucleonData ℝ => a.isParticipant) ∘ g = fun a => a.isParticipant := by
        funext a; exact (hg a).2
      rw [hfil]
      congr 1
      apply List.map_congr_left
      intro a _
      exact hpoint a
    rw [a1, b1, key A, key B, ← a2, ← b2]
  · have hc : ∀ A : List (NucleonData ℝ), ((A.map g).filter (·.isParticipant)).length =
        (A.filter (·.isParticipant)).length := by
      intro A
      rw [List.filter_map, List.length_map]
      congr 2
      funext a; exact (hg a).2
    rw [(C23_npart c _ debug n ev ev'' _ _ h').1, (C23_npart c _ debug n ev ev' _ _ h).1, hc, hc]

theorem event_of_grid {c : EventCfg ℝ} {nc : NucleonCommon ℝ} {debug : Bool} {n : ℕ} {ev ev' ev'' : Event ℝ n}
    {A B A' B' : List (NucleonData ℝ)} (h : Event.compute c nc debug ev A B = .ok ev')
    (h' : Event.compute c nc debug ev A' B' = .ok ev'')
    (hs : gridSum ev''.TR = gridSum ev'.TR) (he : ∀ k, eccentricity ev''.TR k = eccentricity ev'.TR k) :
    ev''.multiplicity = ev'.multiplicity ∧ ev''.ecc = ev'.ecc := by
  obtain ⟨-, -, h2, h3, h4, h5⟩ := C28_eccentricities c nc debug n ev ev' A B h
  obtain ⟨-, -, g2, g3, g4, g5⟩ := C28_eccentricities c nc debug n ev ev'' A' B' h'
  constructor
  · rw [C27_multiplicity c nc debug n ev ev'' A' B' h', C27_multiplicity c nc debug n ev ev' A B h, hs]
  · cases hE : ev''.ecc; cases hE' : ev'.ecc
    rw [hE] at g2 g3 g4 g5; rw [hE'] at h2 h3 h4 h5
    simp only at *
    rw [h2, h3, h4, h5, g2, g3, g4, g5, he, he, he, he]

/-- **C30, mirrored events.** If all nucleons (and their constituents) are mirrored in x, or in y, or x and y are exchanged,
the event has the mirrored reduced thickness grid and the same npart, multiplicity and eccentricities. -/
theorem C30_event_symmetry (w v : ℝ) (m : ℕ) (σ : ℝ) (ncoll : Bool) (k : ℝ) (hv : 0 < v)
    (norm dxy gmax p : ℝ) (hd : 0 < dxy) (hg : 0 ≤ gmax) (c : EventCfg ℝ) (hc : EventCfg.make norm dxy gmax p = .ok c)
    (debug : Bool) (n : ℕ) (hn : c.nsteps = n) (A B : List (NucleonData ℝ))
    (hA : ∀ a ∈ A, a.isParticipant = true → ∀ q ∈ a.constituents, 0 ≤ q.fluctuation)
    (hB : ∀ b ∈ B, b.isParticipant = true → ∀ q ∈ b.constituents, 0 ≤ q.fluctuation) (ev ev' ev'' : Event ℝ n)
    (h : Event.compute c (NucleonCommon.make w v m σ ncoll k) debug ev A B = .ok ev')
    (S : (NucleonData ℝ → NucleonData ℝ) × (Grid ℝ n → Grid ℝ n))
    (hS : S = (NucleonData.mirrorX, Grid.mirrorX) ∨ S = (NucleonData.mirrorY, Grid.mirrorY) ∨
      S = (NucleonData.swapXY, Grid.swapXY))
    (h' : Event.compute c (NucleonCommon.make w v m σ ncoll k) debug ev (A.map S.1) (B.map S.1) = .ok ev'') :
    ev''.TR = S.2 ev'.TR ∧ ev''.npart = ev'.npart ∧ ev''.multiplicity = ev'.multiplicity ∧ ev''.ecc = ev'.ecc := by
  obtain ⟨-, hdxy, -, -, -, hcen⟩ := C20_grid_geometry norm dxy gmax p hd hg c hc
  have hd' : 0 < c.dxy := by rw [hdxy]; exact hd
  have hrev : ∀ i : Fin n, c.center i.rev.val = - c.center i.val := by
    intro i
    have := (hcen i.rev.val).1
    rw [this, hn]
    congr 2
    rw [Fin.val_rev]; have := i.isLt; omega
  have hno := C30_no_cancellation w v m σ ncoll k hv c hd' debug n hn A B hA hB ev ev' h
  rcases hS with rfl | rfl | rfl
  · obtain ⟨h1, h2⟩ := event_transform w v m σ ncoll k hv c hd' debug n hn A B hA hB ev ev' ev'' h
      (fun q => { q with x := -q.x }) NucleonData.mirrorX (fun a => ⟨rfl, rfl⟩) (fun i => (i.1, i.2.rev))
      (fun q i => ⟨rfl, by rw [hrev]; ring⟩) h'
    have hTR : ev''.TR = ev'.TR.mirrorX := by funext iy ix; exact h1 (iy, ix)
    refine ⟨hTR, h2, event_of_grid h h' ?_ ?_⟩
    · rw [hTR]; exact gridSum_mirrorX _
    · intro k; rw [hTR]; exact (C30_grid_mirror_x _ hno k).2.1
  · obtain ⟨h1, h2⟩ := event_transform w v m σ ncoll k hv c hd' debug n hn A B hA hB ev ev' ev'' h
      (fun q => { q with y := -q.y }) NucleonData.mirrorY (fun a => ⟨rfl, rfl⟩) (fun i => (i.1.rev, i.2))
      (fun q i => ⟨rfl, by rw [hrev]; ring⟩) h'
    have hTR : ev''.TR = ev'.TR.mirrorY := by funext iy ix; exact h1 (iy, ix)
    refine ⟨hTR, h2, event_of_grid h h' ?_ ?_⟩
    · rw [hTR]; exact gridSum_mirrorY _
    · intro k; rw [hTR]; exact (C30_grid_mirror_y _ hno k).2.1
  · obtain ⟨h1, h2⟩ := event_transform w v m σ ncoll k hv c hd' debug n hn A B hA hB ev ev' ev'' h
      (fun q => { q with x := q.y, y := q.x }) NucleonData.swapXY (fun a => ⟨rfl, rfl⟩) (fun i => (i.2, i.1))
      (fun q i => ⟨rfl, by ring⟩) h'
    have hTR : ev''.TR = ev'.TR.swapXY := by funext iy ix; exact h1 (iy, ix)
    refine ⟨hTR, h2, event_of_grid h h' ?_ ?_⟩
    · rw [hTR]; exact gridSum_swapXY _
    · intro k; rw [hTR]; exact (C30_grid_swap _ k).2.1

/-- Non-vacuity: a 2×2 grid with a non-zero sum and a non-trivial eccentricity. -/
example : ∃ T : Grid ℝ 2, gridSum T ≠ 0 ∧ eccentricity T 2 = 1 := by
  refine ⟨fun iy ix => if iy = 0 then 1 else 0, by simp [gridSum], ?_⟩
  simp only [eccentricity, eccentricityAbout, comX, comY, gridSum, cellZ, Fin.sum_univ_two]
  simp
  have h4 : Real.sqrt 4 = 2 := by rw [show (4:ℝ) = 2^2 by norm_num, Real.sqrt_sq (by norm_num)]
  norm_num [pow_two, Complex.norm_def, Complex.normSq_apply, h4]

/-! ## C32 -/

/-- **C32, control flow.** For every arithmetic, whatever the centre of mass is (NaN included): if every cell of the reduced
thickness compares below the threshold, every eccentricity is the value of an untouched accumulator, `√(0·0 + 0·0) / max(0, 1e-12)`. -/
theorem C32_no_overlap {F : Type} [Arith F] {n : ℕ} (ev : Event F n) (h : ∀ iy ix, lt (ev.TR iy ix) TINY = true) :
    (computeObservables ev).ecc = ⟨EccAcc.finish ⟨lit 0, lit 0, lit 0⟩, EccAcc.finish ⟨lit 0, lit 0, lit 0⟩,
      EccAcc.finish ⟨lit 0, lit 0, lit 0⟩, EccAcc.finish ⟨lit 0, lit 0, lit 0⟩⟩ := by
  have : ∀ l : List (Fin n × Fin n), l.foldl (obsStep ev.TR ev.ixcm ev.iycm) EccAccs.zero = EccAccs.zero := by
    intro l
    induction l with
    | nil => rfl
    | cons i l ih => rw [List.foldl_cons]; simp only [obsStep, h, if_true]; exact ih
  unfold computeObservables
  rw [this]
  rfl

end Trento
