import Verif.Lemmas.Sphere
import Verif.Props.Geometry
import Mathlib.Analysis.SpecialFunctions.Complex.Arg

/-!
# Euler angles give a uniformly distributed rotation

For `α`, `γ` uniform over a turn and `c` uniform in `[-1, 1]`, the law of `Rz(α) Rx(arccos c) Rz(γ)` does not change when it is multiplied from the
left by a fixed rotation.
-/

namespace Trento
open MeasureTheory Set Real Spec
open scoped ENNReal

local notation "SO3" => Matrix.specialOrthogonalGroup (Fin 3) ℝ

/-- mean over a turn, up to a constant -/
noncomputable def circ (k : ℝ → ℝ≥0∞) : ℝ≥0∞ := ∫⁻ γ in Ioo (-π) π, k γ

theorem periodic_lintegral {k : ℝ → ℝ≥0∞} (hk : Function.Periodic k (2*π)) (s t : ℝ) :
    ∫⁻ x in Ioc s (s + 2*π), k x = ∫⁻ x in Ioc t (t + 2*π), k x := by
  have : VAddInvariantMeasure (AddSubgroup.zmultiples (2*π)) ℝ volume := ⟨fun c s _ => measure_preimage_add _ _ _⟩
  refine (isAddFundamentalDomain_Ioc two_pi_pos s).setLIntegral_eq (isAddFundamentalDomain_Ioc two_pi_pos t) k ?_
  rintro ⟨_, m, rfl⟩ x
  show k ((m • (2*π)) + x) = k x
  rw [add_comm]
  exact hk.zsmul m x

theorem circ_eq {k : ℝ → ℝ≥0∞} (hk : Function.Periodic k (2*π)) (t : ℝ) : circ k = ∫⁻ x in Ioc t (t + 2*π), k x := by
  rw [← periodic_lintegral hk (-π) t]
  unfold circ
  rw [show -π + 2*π = π by ring]
  exact setLIntegral_congr Ioo_ae_eq_Ioc

theorem circ_shift {k : ℝ → ℝ≥0∞} (hk : Function.Periodic k (2*π)) (δ : ℝ) : circ (fun γ => k (γ + δ)) = circ k := by
  have hk' : Function.Periodic (fun γ => k (γ + δ)) (2*π) := fun x => by
    show k (x + 2*π + δ) = k (x + δ)
    rw [show x + 2*π + δ = (x + δ) + 2*π by ring]; exact hk _
  rw [circ_eq hk' 0, circ_eq hk δ]
  have := (measurePreserving_add_right volume δ).setLIntegral_comp_preimage_emb (measurableEmbedding_addRight δ) k (Ioc δ (δ + 2*π))
  rw [← this]
  congr 2
  ext x
  simp only [mem_Ioc, mem_preimage]
  constructor
  · rintro ⟨a, b⟩; constructor <;> linarith
  · rintro ⟨a, b⟩; constructor <;> linarith

/-- rotation about z by an angle -/
noncomputable def RZ (γ : ℝ) : Matrix (Fin 3) (Fin 3) ℝ := rotZ (Real.cos γ) (Real.sin γ)
/-- rotation about x by the angle in `[0, π]` with cosine `c` -/
noncomputable def RX (c : ℝ) : Matrix (Fin 3) (Fin 3) ℝ := rotX c (√(1 - c^2))

theorem RZ_mem (γ : ℝ) : RZ γ ∈ SO3 := rotZ_mem (cos_sq_add_sin_sq γ)
theorem RX_mem {c : ℝ} (h : c ∈ Icc (-1:ℝ) 1) : RX c ∈ SO3 := by
  apply rotX_mem
  rw [sq_sqrt (by nlinarith [h.1, h.2])]; ring

theorem RZ_mul (α β : ℝ) : RZ α * RZ β = RZ (β + α) := by
  unfold RZ
  ext i j
  fin_cases i <;> fin_cases j <;> simp [rotZ, Matrix.mul_apply, Fin.sum_univ_three, cos_add, sin_add] <;> ring

theorem RZ_periodic (γ : ℝ) : RZ (γ + 2*π) = RZ γ := by unfold RZ; rw [Real.cos_add_two_pi, Real.sin_add_two_pi]

/-- image of the z axis -/
def col3 (M : Matrix (Fin 3) (Fin 3) ℝ) : V3 := (M 0 2, M 1 2, M 2 2)

theorem col3_mul (P M : Matrix (Fin 3) (Fin 3) ℝ) : col3 (P * M) = act P (col3 M) := by
  simp [col3, act, Matrix.mul_apply, Fin.sum_univ_three]

theorem isRotation_of_mem {Q : Matrix (Fin 3) (Fin 3) ℝ} (h : Q ∈ SO3) : IsRotation Q := by
  rw [Matrix.mem_specialOrthogonalGroup_iff, Matrix.mem_orthogonalGroup_iff'] at h
  exact h

/-- A rotation that keeps the z axis is a rotation about z. -/
theorem fixes_z {M : Matrix (Fin 3) (Fin 3) ℝ} (hM : M ∈ SO3) (h : col3 M = (0, 0, 1)) : ∃ δ, M = RZ δ := by
  have h1 := (isRotation_of_mem hM).1
  have hd := (isRotation_of_mem hM).2
  simp only [col3, Prod.mk.injEq] at h
  obtain ⟨h02, h12, h22⟩ := h
  have e := transpose_mul_apply h1
  have e02 := e 0 2; have e12 := e 1 2; have e00 := e 0 0; have e01 := e 0 1
  simp [h02, h12, h22] at e02 e12
  simp [e02, e12] at e00 e01
  rw [Matrix.det_fin_three] at hd
  simp only [h02, h12, h22, e02, e12] at hd
  have hd' : M 0 0 * M 1 1 - M 0 1 * M 1 0 = 1 := by linarith
  have m11 : M 1 1 = M 0 0 := by linear_combination M 0 0 * hd' + M 1 0 * e01 - M 1 1 * e00
  have m01 : M 0 1 = -M 1 0 := by linear_combination -M 1 0 * hd' + M 0 0 * e01 - M 0 1 * e00
  set z : ℂ := ⟨M 0 0, M 1 0⟩ with hz
  have hn : ‖z‖ = 1 := by
    rw [Complex.norm_eq_sqrt_sq_add_sq, show z.re^2 + z.im^2 = 1 by simp only [hz]; linarith]; exact sqrt_one
  have hz0 : z ≠ 0 := by intro h; rw [h] at hn; simp at hn
  refine ⟨Complex.arg z, ?_⟩
  have hc : Real.cos (Complex.arg z) = M 0 0 := by rw [Complex.cos_arg hz0, hn, div_one]
  have hs : Real.sin (Complex.arg z) = M 1 0 := by rw [Complex.sin_arg, hn, div_one]
  unfold RZ
  rw [hc, hs]
  ext i j
  fin_cases i <;> fin_cases j <;> simp [rotZ, h02, h12, h22, e02, e12, m11, m01]

/-- cosine of the azimuth of the section -/
noncomputable def secA (n : V3) : ℝ := if √(n.1^2 + n.2.1^2) = 0 then 1 else -n.2.1 / √(n.1^2 + n.2.1^2)
/-- sine of the azimuth of the section -/
noncomputable def secB (n : V3) : ℝ := if √(n.1^2 + n.2.1^2) = 0 then 0 else n.1 / √(n.1^2 + n.2.1^2)
/-- a rotation that takes the z axis to `n` -/
noncomputable def sec (n : V3) : Matrix (Fin 3) (Fin 3) ℝ := rotZ (secA n) (secB n) * rotX n.2.2 (√(n.1^2 + n.2.1^2))

theorem secA_meas : Measurable secA := by
  unfold secA
  refine Measurable.ite ?_ (by fun_prop) (by fun_prop)
  exact measurableSet_eq_fun (by fun_prop) (by fun_prop)
theorem secB_meas : Measurable secB := by
  unfold secB
  refine Measurable.ite ?_ (by fun_prop) (by fun_prop)
  exact measurableSet_eq_fun (by fun_prop) (by fun_prop)

theorem sec_meas (i j : Fin 3) : Measurable fun n => sec n i j := by
  have hA := secA_meas
  have hB := secB_meas
  unfold sec
  simp only [Matrix.mul_apply, Fin.sum_univ_three]
  fin_cases i <;> fin_cases j <;> simp [rotZ, rotX] <;> fun_prop

theorem sec_mem {n : V3} (h : nsq n = 1) : sec n ∈ SO3 := by
  unfold nsq at h
  have hs : 0 ≤ n.1^2 + n.2.1^2 := by positivity
  refine mul_mem (rotZ_mem ?_) (rotX_mem ?_)
  · unfold secA secB
    split
    · norm_num
    · rename_i h0
      have : n.1^2 + n.2.1^2 ≠ 0 := by intro h1; rw [h1, sqrt_zero] at h0; exact h0 rfl
      rw [div_pow, div_pow, sq_sqrt hs]
      field_simp
      ring
  · rw [sq_sqrt hs]; linarith

theorem sec_col {n : V3} : col3 (sec n) = n := by
  have hs : 0 ≤ n.1^2 + n.2.1^2 := by positivity
  have e : col3 (sec n) = (secB n * √(n.1^2 + n.2.1^2), -secA n * √(n.1^2 + n.2.1^2), n.2.2) := by
    simp [col3, sec, rotZ, rotX, Matrix.mul_apply, Fin.sum_univ_three]
  rw [e]
  unfold secA secB
  split
  · rename_i h0
    have h1 : n.1^2 + n.2.1^2 = 0 := by rwa [sqrt_eq_zero hs] at h0
    have hx : n.1 = 0 := by nlinarith [sq_nonneg n.1, sq_nonneg n.2.1]
    have hy : n.2.1 = 0 := by nlinarith [sq_nonneg n.1, sq_nonneg n.2.1]
    obtain ⟨x, y, z⟩ := n
    simp only at hx hy
    simp [hx, hy]
  · rename_i h0
    obtain ⟨x, y, z⟩ := n
    simp only at h0 ⊢
    refine Prod.ext ?_ (Prod.ext ?_ rfl) <;> simp only <;> field_simp

theorem inv_mul_of_mem {S : Matrix (Fin 3) (Fin 3) ℝ} (h : S ∈ SO3) : S.transpose * S = 1 ∧ S * S.transpose = 1 := by
  rw [Matrix.mem_specialOrthogonalGroup_iff] at h
  exact ⟨(Matrix.mem_orthogonalGroup_iff' _ _).1 h.1, (Matrix.mem_orthogonalGroup_iff _ _).1 h.1⟩

theorem transpose_mem {S : Matrix (Fin 3) (Fin 3) ℝ} (h : S ∈ SO3) : S.transpose ∈ SO3 := by
  have := inv_mul_of_mem h
  rw [Matrix.mem_specialOrthogonalGroup_iff, Matrix.mem_orthogonalGroup_iff', Matrix.transpose_transpose, Matrix.det_transpose] at *
  exact ⟨this.2, h.2⟩

section
variable {ι : Type} [Finite ι] (p : ι → Fin 3 → ℝ) (f : (ι → Fin 3 → ℝ) → ℝ≥0∞)

/-- the rotated points -/
def conf (M : Matrix (Fin 3) (Fin 3) ℝ) : ι → Fin 3 → ℝ := fun i => M.mulVec (p i)

/-- mean over the last angle, as a function of the image of the axis -/
noncomputable def axisMean (n : V3) : ℝ≥0∞ := circ fun γ => f (conf p (sec n * RZ γ))

variable {f}

omit [Finite ι] in
theorem conf_meas {X : Type} [MeasurableSpace X] {M : X → Matrix (Fin 3) (Fin 3) ℝ} (hM : ∀ i j, Measurable fun x => M x i j) :
    Measurable fun x => conf p (M x) := by
  refine measurable_pi_iff.2 fun i => measurable_pi_iff.2 fun j => ?_
  simp only [conf, Matrix.mulVec, dotProduct, Fin.sum_univ_three]
  exact (((hM _ _).mul_const _).add ((hM _ _).mul_const _)).add ((hM _ _).mul_const _)

theorem mul_meas {X : Type} [MeasurableSpace X] {M N : X → Matrix (Fin 3) (Fin 3) ℝ} (hM : ∀ i j, Measurable fun x => M x i j)
    (hN : ∀ i j, Measurable fun x => N x i j) (i j : Fin 3) : Measurable fun x => (M x * N x) i j := by
  simp only [Matrix.mul_apply, Fin.sum_univ_three]
  exact (((hM _ _).mul (hN _ _)).add ((hM _ _).mul (hN _ _))).add ((hM _ _).mul (hN _ _))

theorem RZ_meas {X : Type} [MeasurableSpace X] {g : X → ℝ} (hg : Measurable g) (i j : Fin 3) : Measurable fun x => RZ (g x) i j := by
  unfold RZ
  fin_cases i <;> fin_cases j <;> simp [rotZ] <;> fun_prop
theorem RX_meas {X : Type} [MeasurableSpace X] {g : X → ℝ} (hg : Measurable g) (i j : Fin 3) : Measurable fun x => RX (g x) i j := by
  unfold RX
  fin_cases i <;> fin_cases j <;> simp [rotX] <;> fun_prop

omit [Finite ι] in
theorem axisMean_meas (hf : Measurable f) : Measurable (axisMean p f) := by
  unfold axisMean circ
  apply Measurable.lintegral_prod_right' (f := fun t : V3 × ℝ => f (conf p (sec t.1 * RZ t.2)))
  refine hf.comp (conf_meas p (mul_meas (fun i j => (sec_meas i j).comp measurable_fst) (RZ_meas measurable_snd)))

omit [Finite ι] in
/-- The mean over the last angle only depends on the image of the axis. -/
theorem circ_eq_axisMean {M : Matrix (Fin 3) (Fin 3) ℝ} (hM : M ∈ SO3) (hn : nsq (col3 M) = 1) :
    circ (fun γ => f (conf p (M * RZ γ))) = axisMean p f (col3 M) := by
  have hS := sec_mem hn
  obtain ⟨h1, h2⟩ := inv_mul_of_mem hS
  obtain ⟨δ, hδ⟩ := fixes_z (M := (sec (col3 M)).transpose * M) (mul_mem (transpose_mem hS) hM) (by
    have e : act (sec (col3 M)).transpose (col3 (sec (col3 M))) = (0, 0, 1) := by
      rw [← col3_mul, h1]; simp [col3]
    rw [sec_col] at e
    rw [col3_mul]; exact e)
  have hM' : M = sec (col3 M) * RZ δ := by
    rw [← hδ, ← Matrix.mul_assoc, h2, Matrix.one_mul]
  unfold axisMean
  rw [← circ_shift (k := fun γ => f (conf p (sec (col3 M) * RZ γ))) (fun γ => by simp only [RZ_periodic]) δ]
  congr 1
  funext γ
  conv_lhs => rw [hM', Matrix.mul_assoc, RZ_mul]

/-- mean over the three Euler angles, up to a constant -/
noncomputable def eulerInt (F : Matrix (Fin 3) (Fin 3) ℝ → ℝ≥0∞) : ℝ≥0∞ :=
  ∫⁻ α in Ioo (-π) π, ∫⁻ c in Ioo (-1) 1, ∫⁻ γ in Ioo (-π) π, F (RZ α * RX c * RZ γ)

theorem col3_RZ_RX (α c : ℝ) : col3 (RZ α * RX c) = dir c (α - π/2) := by
  simp [col3, RZ, RX, rotZ, rotX, Matrix.mul_apply, Fin.sum_univ_three, dir, cos_sub, sin_sub]
  constructor <;> ring

omit [Finite ι] in
theorem eulerInt_eq (hf : Measurable f) {Q : Matrix (Fin 3) (Fin 3) ℝ} (hQ : Q ∈ SO3) :
    eulerInt (fun M => f (conf p (Q * M))) = sphereInt (axisMean p f) := by
  have hr := isRotation_of_mem hQ
  have e1 : eulerInt (fun M => f (conf p (Q * M))) =
      circ (fun α => ∫⁻ c in Ioo (-1) 1, axisMean p f (act Q (dir c (α - π/2)))) := by
    unfold eulerInt circ
    apply lintegral_congr
    intro α
    refine setLIntegral_congr_fun measurableSet_Ioo ?_
    intro c hc
    simp only
    have hm : Q * (RZ α * RX c) ∈ SO3 := mul_mem hQ (mul_mem (RZ_mem α) (RX_mem (Ioo_subset_Icc_self hc)))
    have hn : nsq (col3 (Q * (RZ α * RX c))) = 1 := by
      rw [col3_mul, nsq_act hr.1, col3_RZ_RX, nsq_dir hc]
    have := circ_eq_axisMean p (f := f) hm hn
    rw [col3_mul, col3_RZ_RX] at this
    rw [← this]
    unfold circ
    simp only [Matrix.mul_assoc]
  rw [e1]
  have := circ_shift (k := fun φ => ∫⁻ c in Ioo (-1) 1, axisMean p f (act Q (dir c φ))) (fun φ => by
    simp only [dir, cos_add_two_pi, sin_add_two_pi]) (-(π/2))
  simp only [← sub_eq_add_neg] at this
  rw [this]
  exact sphereInt_act hr (axisMean_meas p hf)

omit [Finite ι] in
/-- The law of the rotation is invariant under rotations. -/
theorem eulerInt_act (hf : Measurable f) {Q : Matrix (Fin 3) (Fin 3) ℝ} (hQ : Q ∈ SO3) :
    eulerInt (fun M => f (conf p (Q * M))) = eulerInt (fun M => f (conf p M)) := by
  rw [eulerInt_eq p hf hQ]
  have := eulerInt_eq p hf (one_mem SO3)
  simp only [Matrix.one_mul] at this
  rw [this]

end
end Trento
