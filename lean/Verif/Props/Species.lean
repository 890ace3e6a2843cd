import Verif.Model.Species
import Verif.Model.RealArith

/-!
# C11, C19, C59: species table, manual nucleus files, HDF5 file names
-/

namespace Trento

/-! ## C59 -/

/-- The documented HDF5 extensions. -/
def Spec.hdf5Extensions : List String := [".hdf5", ".hdf", ".hd5", ".h5"]

theorem mem_takeWhile_suffix {α : Type} [DecidableEq α] (c : α) (l e : List α) (he : c ∉ e) (hl : (e ++ [c]) <+: l) :
    l.takeWhile (· != c) = e := by
  obtain ⟨t, rfl⟩ := hl
  rw [List.append_assoc, List.takeWhile_append_of_pos]
  · simp
  · intro a ha
    simp only [bne_iff_ne, ne_eq]
    rintro rfl
    exact he ha

theorem takeWhile_prefix_of {α : Type} [DecidableEq α] (c : α) (l : List α) (h : c ∈ l) :
    (l.takeWhile (· != c) ++ [c]) <+: l := by
  induction l with
  | nil => simp at h
  | cons a l ih =>
    by_cases hac : a = c
    · subst hac; simp
    · have : c ∈ l := by
        rcases List.mem_cons.mp h with h | h
        · exact absurd h.symm hac
        · exact h
      simp only [List.takeWhile_cons, bne_iff_ne, ne_eq, hac, not_false_eq_true, if_true, List.cons_append]
      exact (List.cons_prefix_cons).mpr ⟨rfl, ih this⟩

/-- The extension of a path: `ext = '.' :: e` (no dot, no slash in `e`, `e` non-empty and not the whole of a name `.`)
holds exactly if the path ends with it. -/
theorem pathExtension_eq_iff (s e : List Char) (hd : '.' ∉ e) (hs : '/' ∉ e) (hne : e ≠ []) :
    pathExtension s = '.' :: e ↔ ('.' :: e) <:+ s := by
  have hpre : (pathFilename s).reverse = s.reverse.takeWhile (· != '/') := by unfold pathFilename; simp
  constructor
  · intro h
    unfold pathExtension at h
    dsimp only at h
    split at h
    · cases h
    · split at h
      · rename_i hdot
        have h1 := List.cons.inj h |>.2
        have h2 := takeWhile_prefix_of '.' (pathFilename s).reverse (by simpa using hdot)
        have h3 : (pathFilename s).reverse <+: s.reverse := by
          rw [hpre]; exact List.takeWhile_prefix _
        have h4 := h2.trans h3
        rw [← List.reverse_suffix] at h4
        simpa [h1] using h4
      · cases h
  · intro h
    have h1 : (e.reverse ++ ['.']) <+: s.reverse := by
      rw [← List.reverse_suffix]; simpa using h
    -- the suffix lies inside the file name
    have h2 : (e.reverse ++ ['.']) <+: (pathFilename s).reverse := by
      rw [hpre]
      obtain ⟨t, ht⟩ := h1
      rw [← ht, List.takeWhile_append_of_pos]
      · exact List.prefix_append _ _
      · intro a ha
        simp only [bne_iff_ne, ne_eq]
        rintro rfl
        simp [hs] at ha
    have h3 := mem_takeWhile_suffix '.' (pathFilename s).reverse e.reverse (by simpa using hd) h2
    unfold pathExtension
    dsimp only
    have h5 : ('.' :: e) <:+ pathFilename s := by
      rw [← List.reverse_suffix] at h2; simpa using h2
    rw [if_neg, if_pos, h3, List.reverse_reverse]
    · exact h5.mem (by simp)
    · rintro (h6 | h6) <;> rw [h6] at h5
      · have := h5.length_le
        cases e with
        | nil => exact hne rfl
        | cons a l => simp at this
      · obtain ⟨t, ht⟩ := h5
        cases t with
        | nil =>
          simp only [List.nil_append, List.cons.injEq, true_and] at ht
          rw [ht] at hd; simp at hd
        | cons a t =>
          have hl := congrArg List.length ht
          cases e with
          | nil => exact hne rfl
          | cons b l => simp at hl; omega

/-- **C59.** A path is treated as an HDF5 file exactly if it ends with one of the four documented extensions
(the extensions contain neither a slash nor a second dot, so this is the extension of the final path component). -/
theorem C59_filename_is_hdf5 (s : String) :
    filenameIsHdf5 s = true ↔ ∃ e ∈ Spec.hdf5Extensions, e.toList <:+ s.toList := by
  have key : ∀ e : List Char, '.' ∉ e → '/' ∉ e → e ≠ [] →
      (('.' :: e) = pathExtension s.toList ↔ ('.' :: e) <:+ s.toList) := fun e h1 h2 h3 => by
    rw [← pathExtension_eq_iff s.toList e h1 h2 h3]; exact eq_comm
  unfold filenameIsHdf5 Spec.hdf5Extensions
  simp only [List.any_cons, List.any_nil, Bool.or_false, List.mem_cons, List.not_mem_nil, or_false,
    exists_eq_or_imp, exists_eq_left]
  have e1 := key ['h','d','f','5'] (by decide) (by decide) (by decide)
  have e2 := key ['h','d','f'] (by decide) (by decide) (by decide)
  have e3 := key ['h','d','5'] (by decide) (by decide) (by decide)
  have e4 := key ['h','5'] (by decide) (by decide) (by decide)
  have t1 : ".hdf5".toList = '.' :: ['h','d','f','5'] := by decide
  have t2 : ".hdf".toList = '.' :: ['h','d','f'] := by decide
  have t3 : ".hd5".toList = '.' :: ['h','d','5'] := by decide
  have t4 : ".h5".toList = '.' :: ['h','5'] := by decide
  rw [t1, t2, t3, t4, ← e1, ← e2, ← e3, ← e4]
  by_cases hemp : (pathExtension s.toList).isEmpty = true
  · rw [if_pos hemp]
    rw [List.isEmpty_iff] at hemp
    simp [hemp]
  · rw [if_neg hemp]
    simp

/-- Non-vacuity: a path that is and one that is not. -/
example : filenameIsHdf5 "dir.x/nuclei.hdf" = true ∧ filenameIsHdf5 "dir.h5/events" = false ∧
    filenameIsHdf5 "nuclei.H5" = false := by decide

/-! ## C11 -/

/-- The table of doc/usage.rst:19-33: symbol, number of nucleons, deformed. -/
def Spec.speciesTable : List (String × Nat × Bool) :=
  [("p", 1, false), ("d", 2, false), ("Cu", 63, false), ("Cu2", 63, true), ("Xe", 129, false), ("Xe2", 129, true),
   ("Au", 197, false), ("Au2", 197, true), ("Pb", 208, false), ("U", 238, true), ("U2", 238, true), ("U3", 238, true)]

/-- Is the nucleus an instance of the deformed class? -/
def Kind.isDeformed {F : Type} : Kind F → Bool
  | .deformed .. => true
  | _ => false

section
variable {F : Type} [Arith F]

/-- **C11, accepted symbols.** Every documented symbol creates a nucleus with the documented number of nucleons, deformed
as documented, in every build and whatever is on disk. -/
theorem C11_documented_species (hdf5 : Bool) (disk : String → H5View F) (dmin : F) (s : String) (A : Nat) (deformed : Bool)
    (h : (s, A, deformed) ∈ Spec.speciesTable) :
    ∃ nuc, createNucleus hdf5 disk s dmin = .ok nuc ∧ nuc.nucleons.length = A ∧ nuc.kind.isDeformed = deformed := by
  unfold Spec.speciesTable at h
  simp only [List.mem_cons, Prod.mk.injEq, List.not_mem_nil, or_false] at h
  rcases h with ⟨rfl, rfl, rfl⟩ | ⟨rfl, rfl, rfl⟩ | ⟨rfl, rfl, rfl⟩ | ⟨rfl, rfl, rfl⟩ | ⟨rfl, rfl, rfl⟩ | ⟨rfl, rfl, rfl⟩ |
    ⟨rfl, rfl, rfl⟩ | ⟨rfl, rfl, rfl⟩ | ⟨rfl, rfl, rfl⟩ | ⟨rfl, rfl, rfl⟩ | ⟨rfl, rfl, rfl⟩ | ⟨rfl, rfl, rfl⟩ <;>
  exact ⟨_, rfl, List.length_replicate, rfl⟩

/-- **C11, everything else.** Any other string creates a nucleus only if it has an HDF5 extension (and the program was
built with HDF5), and then exactly as `ManualNucleus::create` does; otherwise `std::invalid_argument` is thrown. -/
theorem C11_other_strings (hdf5 : Bool) (disk : String → H5View F) (dmin : F) (s : String)
    (h : s ∉ Spec.speciesTable.map Prod.fst) :
    (filenameIsHdf5 s = true → hdf5 = true → createNucleus hdf5 disk s dmin = manualCreate s (disk s)) ∧
    (¬(filenameIsHdf5 s = true ∧ hdf5 = true) →
      ∃ msg, createNucleus hdf5 disk s dmin = .error (.throw .invalidArgument msg)) := by
  unfold Spec.speciesTable at h
  simp only [List.map_cons, List.map_nil, List.mem_cons, List.not_mem_nil, or_false, not_or] at h
  obtain ⟨h1, h2, h3, h4, h5, h6, h7, h8, h9, h10, h11, h12⟩ := h
  unfold createNucleus
  simp only [h1, h2, h3, h4, h5, h6, h7, h8, h9, h10, h11, h12, if_false]
  constructor
  · intro h h'; simp [h, h']
  · intro h
    by_cases hf : filenameIsHdf5 s = true
    · have : hdf5 = false := by
        cases hdf5
        · rfl
        · exact absurd ⟨hf, rfl⟩ h
      simp [hf, this]
    · simp [hf]

/-- A spherical symbol and its deformed version. -/
def Spec.deformedPairs : List (String × String) := [("Cu", "Cu2"), ("Xe", "Xe2"), ("Au", "Au2")]

/-- **C11, deformed pairs.** The spherical and the deformed version of copper, xenon and gold have the same nuclear radius
parameter `R`, surface thickness `a`, minimum distance and number of nucleons. -/
theorem C11_deformed_pairs (hdf5 : Bool) (disk : String → H5View F) (dmin : F) (s s' : String)
    (h : (s, s') ∈ Spec.deformedPairs) :
    ∃ R a b2 b4 rmax A, createNucleus hdf5 disk s dmin = .ok (Nucleus.ofKind (.woodsSaxon R a (dmin*dmin)) A) ∧
      createNucleus hdf5 disk s' dmin = .ok (Nucleus.ofKind (.deformed R a b2 b4 rmax (dmin*dmin)) A) := by
  unfold Spec.deformedPairs at h
  simp only [List.mem_cons, Prod.mk.injEq, List.not_mem_nil, or_false] at h
  rcases h with ⟨rfl, rfl⟩ | ⟨rfl, rfl⟩ | ⟨rfl, rfl⟩ <;> exact ⟨_, _, _, _, _, _, rfl, rfl⟩

/-- Non-vacuity: a string that is neither a symbol nor an HDF5 name. -/
example : "pb" ∉ Spec.speciesTable.map Prod.fst ∧ ¬ filenameIsHdf5 "pb" = true := by decide

/-! ## C19 -/

/-- What a manual nucleus file must be. -/
def Spec.validManualFile (v : H5View F) (nconfigs A : Nat) (value : Nat → Nat → Nat → F) : Prop :=
  ∃ name, v = .file [(name, .dataset [nconfigs, A, 3] value)]

/-- The two kinds of file on which the code does something undefined: a single dataset of more than three dimensions (the shape
array of three entries is overrun) and one of shape `(nconfigs, 0, 3)` (`500/A` divides by zero). -/
def Spec.undefinedManualFile (v : H5View F) : Prop :=
  (∃ name dims value, v = .file [(name, .dataset dims value)] ∧ 3 < dims.length) ∨
  ∃ nconfigs value, Spec.validManualFile v nconfigs 0 value

/-- **C19: validation, every file.** The outcome of `ManualNucleus::create` is decided by the file alone: it is undefined exactly
for the files named by `Spec.undefinedManualFile`; a nucleus is returned exactly if the file is an HDF5 file holding a single
object which is a dataset of shape `(nconfigs, A, 3)` with `A ≥ 1`, and it then has `A` nucleons and the configurations of the
file; every other file throws `std::invalid_argument`. -/
theorem C19_manual_validation (path : String) (v : H5View F) :
    (Spec.undefinedManualFile v ∧ ∃ msg, manualCreate path v = .error (.ub msg)) ∨
    (¬ Spec.undefinedManualFile v ∧ ∃ nconfigs A value, 1 ≤ A ∧ Spec.validManualFile v nconfigs A value ∧
      ∃ nuc rmax, manualCreate path v = .ok nuc ∧ nuc.nucleons.length = A ∧ nuc.kind = .manual (h5Configs value nconfigs A) rmax) ∨
    (¬ Spec.undefinedManualFile v ∧ (¬ ∃ nconfigs A value, Spec.validManualFile v nconfigs A value) ∧
      ∃ msg, manualCreate path v = .error (.throw .invalidArgument msg)) := by
  have hno : (∀ name nconfigs A value, v ≠ .file [(name, .dataset [nconfigs, A, 3] value)]) →
      (∀ name dims value, v = .file [(name, .dataset dims value)] → dims.length ≤ 3) →
      (∃ msg, manualCreate path v = .error (.throw .invalidArgument msg)) →
      (¬ Spec.undefinedManualFile v ∧ (¬ ∃ nconfigs A value, Spec.validManualFile v nconfigs A value) ∧
      ∃ msg, manualCreate path v = .error (.throw .invalidArgument msg)) := by
    intro h1 h3 h2
    refine ⟨?_, ?_, h2⟩
    · rintro (⟨name, dims, value, h, hl⟩ | ⟨nconfigs, value, name, h⟩)
      · have := h3 name dims value h; omega
      · exact h1 _ _ _ _ h
    · rintro ⟨nconfigs, A, value, name, h⟩
      exact h1 name nconfigs A value h
  match v, hno with
  | .missing, hno => exact .inr (.inr (hno (fun _ _ _ _ h => by cases h) (fun _ _ _ h => by cases h) ⟨_, rfl⟩))
  | .notHdf5, hno => exact .inr (.inr (hno (fun _ _ _ _ h => by cases h) (fun _ _ _ h => by cases h) ⟨_, rfl⟩))
  | .file [], hno => exact .inr (.inr (hno (fun _ _ _ _ h => by cases h) (fun _ _ _ h => by cases h) ⟨_, rfl⟩))
  | .file (_ :: _ :: _), hno =>
    exact .inr (.inr (hno (fun _ _ _ _ h => by cases h) (fun _ _ _ h => by cases h)
      ⟨"file must contain exactly one object", by simp [manualCreate]⟩))
  | .file [(_, .other)], hno => exact .inr (.inr (hno (fun _ _ _ _ h => by cases h) (fun _ _ _ h => by cases h) ⟨_, rfl⟩))
  | .file [(name, .dataset dims value)], hno =>
    have hl : ∀ name' dims' value', H5View.file [(name, .dataset dims value)] = .file [(name', .dataset dims' value')] →
        dims = dims' := by
      intro name' dims' value' h
      simp only [H5View.file.injEq, List.cons.injEq, Prod.mk.injEq, H5Obj.dataset.injEq] at h
      exact h.1.2.1
    match dims, hl with
    | [], hl => exact .inr (.inr (hno (fun _ _ _ _ h => by cases h) (fun _ _ _ h => by rw [← hl _ _ _ h]; simp) ⟨_, rfl⟩))
    | [_], hl => exact .inr (.inr (hno (fun _ _ _ _ h => by cases h) (fun _ _ _ h => by rw [← hl _ _ _ h]; simp) ⟨_, rfl⟩))
    | [_, _], hl => exact .inr (.inr (hno (fun _ _ _ _ h => by cases h) (fun _ _ _ h => by rw [← hl _ _ _ h]; simp) ⟨_, rfl⟩))
    | [nconfigs, A, cols], hl =>
      by_cases hc : cols = 3
      · subst hc
        by_cases hA : A = 0
        · subst hA
          exact .inl ⟨.inr ⟨nconfigs, value, name, rfl⟩, "integer division by zero", by simp [manualCreate]⟩
        · refine .inr (.inl ⟨?_, nconfigs, A, value, by omega, ⟨name, rfl⟩, ?_⟩)
          · rintro (⟨name', dims, value', h, h3⟩ | ⟨nc', value', name', h⟩)
            · rw [← hl _ _ _ h] at h3; simp at h3
            · have := hl _ _ _ h
              simp at this
              exact hA this.2
          · refine ⟨_, _, by simp [manualCreate, hA]; rfl, by simp [Nucleus.ofKind], rfl⟩
      · refine .inr (.inr (hno ?_ (fun _ _ _ h => by rw [← hl _ _ _ h]; simp) ⟨"wrong number of columns (need 3)", by simp [manualCreate, hc]⟩))
        intro _ _ _ _ h
        simp only [H5View.file.injEq, List.cons.injEq, Prod.mk.injEq, H5Obj.dataset.injEq] at h
        exact hc h.1.2.1.2.2.1
    | a :: b :: c :: d :: l, _ =>
      exact .inl ⟨.inl ⟨name, _, value, rfl, by simp⟩, "shape array overflow", by simp [manualCreate]⟩

/-- **C19 fails for rank above 3**: the shape array is overrun before the number of dimensions is checked, so instead of
`std::invalid_argument` the outcome is undefined behaviour. -/
theorem C19_rank_overflow (path name : String) (dims : List Nat) (value : Nat → Nat → Nat → F) (h : 3 < dims.length) :
    manualCreate path (.file [(name, .dataset dims value)]) = .error (.ub "shape array overflow") := by
  simp [manualCreate, h]

/-- **C19 fails for zero nucleons**: `500/A` divides by zero. -/
theorem C19_zero_nucleons (path name : String) (nconfigs : Nat) (value : Nat → Nat → Nat → F) :
    manualCreate path (.file [(name, .dataset [nconfigs, 0, 3] value)]) = .error (.ub "integer division by zero") := by
  simp [manualCreate]

end

theorem maxRadiusSq_spec (ps : List (ℝ × ℝ × ℝ)) (m : ℝ) :
    m ≤ maxRadiusSq ps m ∧ (∀ p ∈ ps, p.1^2 + p.2.1^2 + p.2.2^2 ≤ maxRadiusSq ps m) ∧
    (maxRadiusSq ps m = m ∨ ∃ p ∈ ps, maxRadiusSq ps m = p.1^2 + p.2.1^2 + p.2.2^2) := by
  induction ps generalizing m with
  | nil => simp [maxRadiusSq]
  | cons p ps ih =>
    obtain ⟨x, y, z⟩ := p
    simp only [maxRadiusSq, lt_real, decide_eq_true_eq, ← pow_two]
    by_cases h : m < x^2 + y^2 + z^2
    · rw [if_pos h]
      obtain ⟨h1, h2, h3⟩ := ih (x^2 + y^2 + z^2)
      refine ⟨by linarith, ?_, ?_⟩
      · intro q hq
        rcases List.mem_cons.mp hq with rfl | hq
        · exact h1
        · exact h2 q hq
      · right
        rcases h3 with h3 | ⟨q, hq, h3⟩
        · exact ⟨(x, y, z), by simp, h3⟩
        · exact ⟨q, by simp [hq], h3⟩
    · rw [if_neg h]
      obtain ⟨h1, h2, h3⟩ := ih m
      refine ⟨h1, ?_, ?_⟩
      · intro q hq
        rcases List.mem_cons.mp hq with rfl | hq
        · push Not at h; exact le_trans h h1
        · exact h2 q hq
      · rcases h3 with h3 | ⟨q, hq, h3⟩
        · exact .inl h3
        · exact .inr ⟨q, by simp [hq], h3⟩

/-- Distance of a position from the origin. -/
noncomputable def Spec.radiusOf (p : ℝ × ℝ × ℝ) : ℝ := Real.sqrt (p.1^2 + p.2.1^2 + p.2.2^2)

/-- **C19, radius.** The radius of an accepted manual nucleus is the maximum distance from the origin over the first `n`
configurations, where `n` configurations hold at least 500 nucleons or are all configurations of the file. -/
theorem C19_manual_radius (path name : String) (nconfigs A : Nat) (hA : A ≠ 0) (value : Nat → Nat → Nat → ℝ)
    (nuc : Nucleus ℝ) (h : manualCreate path (.file [(name, .dataset [nconfigs, A, 3] value)]) = .ok nuc) :
    ∃ n, (500 ≤ n * A ∨ n = nconfigs) ∧ n ≤ nconfigs ∧
      (∀ i < n, ∀ j < A, Spec.radiusOf (value i j 0, value i j 1, value i j 2) ≤ nuc.radius) ∧
      (n ≠ 0 → ∃ i < n, ∃ j < A, nuc.radius = Spec.radiusOf (value i j 0, value i j 1, value i j 2)) := by
  have hnuc : nuc.radius = Real.sqrt (maxRadiusSq (h5Configs value (min (500 / A + 1) nconfigs) A).flatten 0) := by
    simp only [manualCreate, List.length_cons, List.length_nil, List.getD_cons_succ, List.getD_cons_zero, hA, if_false] at h
    simp at h
    rw [← h]
    simp [Nucleus.radius, Nucleus.ofKind, Kind.radius]
  set n := min (500 / A + 1) nconfigs with hn
  have hmem : ∀ p, p ∈ (h5Configs value n A).flatten ↔ ∃ i < n, ∃ j < A, p = (value i j 0, value i j 1, value i j 2) := by
    intro p
    simp only [h5Configs, List.mem_flatten, List.mem_map, List.mem_range, h5Position]
    constructor
    · rintro ⟨l, ⟨i, hi, rfl⟩, hp⟩
      simp only [List.mem_map, List.mem_range] at hp
      obtain ⟨j, hj, rfl⟩ := hp
      exact ⟨i, hi, j, hj, rfl⟩
    · rintro ⟨i, hi, j, hj, rfl⟩
      exact ⟨_, ⟨i, hi, rfl⟩, List.mem_map.mpr ⟨j, List.mem_range.mpr hj, rfl⟩⟩
  obtain ⟨h1, h2, h3⟩ := maxRadiusSq_spec (h5Configs value n A).flatten 0
  refine ⟨n, ?_, min_le_right _ _, ?_, ?_⟩
  · rcases le_total (500 / A + 1) nconfigs with hle | hle
    · left
      rw [hn, min_eq_left hle]
      have := Nat.lt_div_mul_add (a := 500) (b := A) (by omega)
      rw [Nat.add_mul]; omega
    · right; rw [hn, min_eq_right hle]
  · intro i hi j hj
    rw [hnuc]
    apply Real.sqrt_le_sqrt
    exact h2 _ ((hmem _).mpr ⟨i, hi, j, hj, rfl⟩)
  · intro hn0
    rw [hnuc]
    rcases h3 with h3 | ⟨p, hp, h3⟩
    · refine ⟨0, Nat.pos_of_ne_zero hn0, 0, Nat.pos_of_ne_zero hA, ?_⟩
      have h4 := h2 _ ((hmem _).mpr ⟨0, Nat.pos_of_ne_zero hn0, 0, Nat.pos_of_ne_zero hA, rfl⟩)
      unfold Spec.radiusOf
      congr 1
      rw [h3] at h4 ⊢
      simp only at h4 ⊢
      have := sq_nonneg (value 0 0 0)
      have := sq_nonneg (value 0 0 1)
      have := sq_nonneg (value 0 0 2)
      linarith
    · obtain ⟨i, hi, j, hj, rfl⟩ := (hmem p).mp hp
      exact ⟨i, hi, j, hj, by rw [h3]; rfl⟩

/-- Non-vacuity: a file with two configurations of three nucleons. -/
example : ∃ nuc, manualCreate (F := ℝ) "He3.hdf" (.file [("cfg", .dataset [2, 3, 3] fun i j k => i + j + k)]) = .ok nuc :=
  ⟨_, by simp [manualCreate]; rfl⟩

end Trento
