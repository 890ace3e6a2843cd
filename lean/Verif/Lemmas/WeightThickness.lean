import Verif.Props.WeightMeans
import Verif.Props.Thickness
import Verif.Lemmas.MeasEvent

/-! # The thickness functions are affine in the weights of the constituents -/

namespace Trento
open Spec

/-- contribution of a constituent with weight 1 to the sum in `thickness` -/
noncomputable def kern (nc : NucleonCommon ℝ) (debug : Bool) (x y : ℝ) (p : ℝ × ℝ) : ℝ :=
  if lt (sqr (x - p.1) + sqr (y - p.2)) nc.constituentRadiusSq then
    match nc.fastExp.eval debug (-(lit 0.5) * (sqr (x - p.1) + sqr (y - p.2)) / nc.constituentWidthSq) with
    | .ok e => e
    | .error _ => 0
  else 0

section
variable (w v : ℝ) (m : ℕ) (σ : ℝ) (ncoll : Bool) (k : ℝ) (hv : 0 < v) (debug : Bool) (x y : ℝ)
include hv

theorem eval_of_near {p : ℝ × ℝ} (h : lt (sqr (x - p.1) + sqr (y - p.2)) (NucleonCommon.make w v m σ ncoll k).constituentRadiusSq = true) :
    ∃ e, (NucleonCommon.make w v m σ ncoll k).fastExp.eval debug (-(lit 0.5) * (sqr (x - p.1) + sqr (y - p.2)) / (NucleonCommon.make w v m σ ncoll k).constituentWidthSq) = .ok e ∧ 0 ≤ e := by
  rw [make_radiusSq] at h
  rw [make_widthSq]
  simp only [lt_real, decide_eq_true_eq] at h
  obtain ⟨e, he, h0, -⟩ := thickness_exp w v m σ ncoll k hv debug (d := sqr (x - p.1) + sqr (y - p.2)) (add_nonneg (mul_self_nonneg _) (mul_self_nonneg _)) h
  exact ⟨e, he, h0⟩

theorem kern_nonneg (p : ℝ × ℝ) : 0 ≤ kern (NucleonCommon.make w v m σ ncoll k) debug x y p := by
  unfold kern
  split
  · rename_i h
    obtain ⟨e, he, h0⟩ := eval_of_near w v m σ ncoll k hv debug x y h
    rw [he]; exact h0
  · exact le_rfl

theorem thicknessLoop_kern (cs : List (Constituent ℝ)) (t : ℝ) :
    (NucleonCommon.make w v m σ ncoll k).thicknessLoop debug x y cs t =
      .ok (t + (cs.map fun c => c.fluctuation * kern (NucleonCommon.make w v m σ ncoll k) debug x y (c.x, c.y)).sum) := by
  induction cs generalizing t with
  | nil => simp [NucleonCommon.thicknessLoop]
  | cons c cs ih =>
    unfold NucleonCommon.thicknessLoop
    dsimp only
    by_cases h : lt (sqr (x - c.x) + sqr (y - c.y)) (NucleonCommon.make w v m σ ncoll k).constituentRadiusSq = true
    · obtain ⟨e, he, -⟩ := eval_of_near w v m σ ncoll k hv debug x y (p := (c.x, c.y)) h
      dsimp only at he
      have hk : kern (NucleonCommon.make w v m σ ncoll k) debug x y (c.x, c.y) = e := by
        unfold kern
        dsimp only
        rw [if_pos h, he]
      rw [if_pos h, he]
      dsimp only
      rw [ih, List.map_cons, List.sum_cons, hk, add_assoc]
    · have hk : kern (NucleonCommon.make w v m σ ncoll k) debug x y (c.x, c.y) = 0 := by
        unfold kern
        dsimp only
        rw [if_neg h]
      rw [if_neg h, ih, List.map_cons, List.sum_cons, hk, mul_zero, zero_add]

theorem thicknessAt_kern (n : NucleonData ℝ) :
    thicknessAt (NucleonCommon.make w v m σ ncoll k) debug n x y = (NucleonCommon.make w v m σ ncoll k).prefactor *
      (n.constituents.map fun c => c.fluctuation * kern (NucleonCommon.make w v m σ ncoll k) debug x y (c.x, c.y)).sum := by
  unfold thicknessAt NucleonCommon.thickness
  rw [thicknessLoop_kern w v m σ ncoll k hv]
  simp

omit hv in
theorem prefactor_nonneg : 0 ≤ (NucleonCommon.make w v m σ ncoll k).prefactor := by
  rw [make_prefactor]
  positivity

omit hv in
/-- a sum that is linear in the weights, as a function of one of them -/
theorem sum_reweigh {κ : ℝ × ℝ → ℝ} (hκ : ∀ p, 0 ≤ κ p) (cs : List (Constituent ℝ)) (hc : ∀ c ∈ cs, 0 ≤ c.fluctuation) (j : ℕ) :
    ∃ u v : ℝ, 0 ≤ u ∧ 0 ≤ v ∧ ∀ f : ℝ, ((cs.modify j fun c => { c with fluctuation := f }).map fun c => c.fluctuation * κ (c.x, c.y)).sum = u + f * v := by
  induction cs generalizing j with
  | nil => exact ⟨0, 0, le_rfl, le_rfl, fun f => by cases j <;> simp⟩
  | cons c cs ih =>
    have hcs : ∀ c ∈ cs, 0 ≤ c.fluctuation := fun c h => hc c (by simp [h])
    cases j with
    | zero =>
      refine ⟨(cs.map fun c => c.fluctuation * κ (c.x, c.y)).sum, κ (c.x, c.y), ?_, hκ _, fun f => ?_⟩
      · apply List.sum_nonneg
        intro t ht
        obtain ⟨d, hd, rfl⟩ := List.mem_map.mp ht
        exact mul_nonneg (hcs d hd) (hκ _)
      · simp [add_comm]
    | succ j =>
      obtain ⟨u, v, hu, hv, h⟩ := ih hcs j
      refine ⟨c.fluctuation * κ (c.x, c.y) + u, v, add_nonneg (mul_nonneg (hc c (by simp)) (hκ _)) hu, hv, fun f => ?_⟩
      rw [List.modify_succ_cons, List.map_cons, List.sum_cons, h]
      ring

/-- the thickness of a list of nucleons as a function of one weight -/
theorem direct_reweigh (l : List (NucleonData ℝ)) (hl : ∀ n ∈ l, ∀ c ∈ n.constituents, 0 ≤ c.fluctuation) (a j : ℕ) :
    ∃ u s : ℝ, 0 ≤ u ∧ 0 ≤ s ∧ ∀ f : ℝ, directThickness (NucleonCommon.make w v m σ ncoll k) debug (l.modify a (NucleonData.reweigh j f)) x y = u + f * s := by
  have hp := prefactor_nonneg w v m σ ncoll k
  have hκ := kern_nonneg w v m σ ncoll k hv debug x y
  have htk := thicknessAt_kern w v m σ ncoll k hv debug x y
  unfold directThickness
  generalize NucleonCommon.make w v m σ ncoll k = nc at *
  have hnn : ∀ n : NucleonData ℝ, (∀ c ∈ n.constituents, 0 ≤ c.fluctuation) → 0 ≤ thicknessAt nc debug n x y := by
    intro n hn
    rw [htk]
    refine mul_nonneg hp (List.sum_nonneg ?_)
    intro t ht
    obtain ⟨d, hd, rfl⟩ := List.mem_map.mp ht
    exact mul_nonneg (hn d hd) (hκ _)
  induction l generalizing a with
  | nil => exact ⟨0, 0, le_rfl, le_rfl, fun f => by cases a <;> simp⟩
  | cons n l ih =>
    have hl' : ∀ n ∈ l, ∀ c ∈ n.constituents, 0 ≤ c.fluctuation := fun n h => hl n (by simp [h])
    cases a with
    | zero =>
      have hrest : 0 ≤ ((l.filter (·.isParticipant)).map fun n => thicknessAt nc debug n x y).sum := by
        apply List.sum_nonneg
        intro t ht
        obtain ⟨d, hd, rfl⟩ := List.mem_map.mp ht
        exact hnn d (hl' d (List.mem_filter.mp hd).1)
      by_cases hpart : n.isParticipant = true
      · obtain ⟨u, s, hu, hs, h⟩ := sum_reweigh hκ n.constituents (hl n (by simp)) j
        refine ⟨nc.prefactor * u + ((l.filter (·.isParticipant)).map fun n => thicknessAt nc debug n x y).sum, nc.prefactor * s, add_nonneg (mul_nonneg hp hu) hrest,
          mul_nonneg hp hs, fun f => ?_⟩
        have hpf : (NucleonData.reweigh j f n).isParticipant = true := hpart
        have hh : ((NucleonData.reweigh j f n).constituents.map fun c => c.fluctuation * kern nc debug x y (c.x, c.y)).sum = u + f * s := h f
        rw [List.modify_zero_cons, List.filter_cons, if_pos hpf, List.map_cons, List.sum_cons, htk, hh]
        ring
      · refine ⟨((l.filter (·.isParticipant)).map fun n => thicknessAt nc debug n x y).sum, 0, hrest, le_rfl, fun f => ?_⟩
        have hpf : ¬ (NucleonData.reweigh j f n).isParticipant = true := hpart
        rw [List.modify_zero_cons, List.filter_cons, if_neg hpf, mul_zero, add_zero]
    | succ a =>
      obtain ⟨u, s, hu, hs, h⟩ := ih hl' a
      by_cases hpart : n.isParticipant = true
      · refine ⟨thicknessAt nc debug n x y + u, s, add_nonneg (hnn n (hl n (by simp))) hu, hs, fun f => ?_⟩
        rw [List.modify_succ_cons, List.filter_cons, if_pos hpart, List.map_cons, List.sum_cons, h]
        ring
      · refine ⟨u, s, hu, hs, fun f => ?_⟩
        rw [List.modify_succ_cons, List.filter_cons, if_neg hpart, h]

end

/-! ### When the deposition succeeds -/

/-- the boundary of the nucleon can be converted to cell numbers -/
def Fits (c : EventCfg ℝ) (nc : NucleonCommon ℝ) (n : NucleonData ℝ) : Prop :=
  ∃ b x0 x1 y0 y1, nc.boundary n = .ok b ∧ c.index b.xmin = .ok x0 ∧ c.index b.xmax = .ok x1 ∧ c.index b.ymin = .ok y0 ∧ c.index b.ymax = .ok y1

theorem depositAll_fits {w v : ℝ} {m : ℕ} {σ : ℝ} {ncoll : Bool} {k : ℝ} (hv : 0 < v) {c : EventCfg ℝ} (hd : 0 < c.dxy) {debug : Bool} {n : ℕ} (hn : c.nsteps = n) (hn1 : 1 ≤ n)
    (A : List (NucleonData ℝ)) (hf : ∀ a ∈ A, ∀ q ∈ a.constituents, 0 ≤ q.fluctuation) (s : Grid ℝ n × ℕ) :
    (∃ t, depositAll c (NucleonCommon.make w v m σ ncoll k) debug A s = .ok t) ↔ ∀ a ∈ A, a.isParticipant = true → Fits c (NucleonCommon.make w v m σ ncoll k) a := by
  induction A generalizing s with
  | nil => simp [depositAll]
  | cons a A ih =>
    obtain ⟨g, j⟩ := s
    have hf' : ∀ a ∈ A, ∀ q ∈ a.constituents, 0 ≤ q.fluctuation := fun b hb => hf b (by simp [hb])
    unfold depositAll
    by_cases hp : a.isParticipant = true
    · rw [if_pos hp]
      have hT := fun iy ix : ℤ => thicknessAt_spec w v m σ ncoll k hv debug a (hf a (by simp)) (c.center ix) (c.center iy)
      constructor
      · rintro ⟨t, ht⟩
        cases hg : depositNucleon c (NucleonCommon.make w v m σ ncoll k) debug a g with
        | error e => rw [hg] at ht; cases ht
        | ok g1 =>
          rw [hg] at ht
          intro b hb hbp
          rcases List.mem_cons.mp hb with rfl | hb
          · exact depositNucleon_ok_inv hg
          · exact (ih hf' (g1, j + 1)).mp ⟨t, ht⟩ b hb hbp
      · intro h
        obtain ⟨b, x0, x1, y0, y1, hb, h1, h2, h3, h4⟩ := h a (by simp) hp
        rw [depositNucleon_real hv hd hn hn1 (hf a (by simp)) hT hb h1 h2 h3 h4]
        exact (ih hf' _).mpr fun b hb => h b (by simp [hb])
    · rw [if_neg hp, ih hf']
      constructor
      · intro h b hb hbp
        rcases List.mem_cons.mp hb with rfl | hb
        · exact absurd hbp hp
        · exact h b hb hbp
      · exact fun h b hb => h b (by simp [hb])

theorem boundaryLoop_congr {cs cs' : List (Constituent ℝ)} (h : cs'.map (fun c => (c.x, c.y)) = cs.map fun c => (c.x, c.y)) (b : Box ℝ) : boundaryLoop cs' b = boundaryLoop cs b := by
  induction cs generalizing cs' b with
  | nil => rw [List.map_nil, List.map_eq_nil_iff] at h; rw [h]
  | cons c cs ih =>
    cases cs' with
    | nil => simp at h
    | cons c' cs' =>
      rw [List.map_cons, List.map_cons, List.cons.injEq, Prod.mk.injEq] at h
      unfold boundaryLoop
      rw [h.1.1, h.1.2]
      exact ih h.2 _

theorem boundary_revise (nc : NucleonCommon ℝ) {φ : List (Constituent ℝ) → List (Constituent ℝ)} (hφ : Keeps φ) (n : NucleonData ℝ) : nc.boundary (n.revise φ) = nc.boundary n := by
  have h := hφ n.constituents
  unfold NucleonCommon.boundary NucleonData.revise
  dsimp only
  generalize φ n.constituents = cs' at *
  generalize n.constituents = cs at *
  cases cs with
  | nil => rw [List.map_nil, List.map_eq_nil_iff] at h; rw [h]
  | cons c cs =>
    cases cs' with
    | nil => simp at h
    | cons c' cs' =>
      rw [List.map_cons, List.map_cons, List.cons.injEq, Prod.mk.injEq] at h
      dsimp only
      rw [h.1.1, h.1.2, boundaryLoop_congr h.2]

theorem fits_revise (c : EventCfg ℝ) (nc : NucleonCommon ℝ) {φ : List (Constituent ℝ) → List (Constituent ℝ)} (hφ : Keeps φ) (n : NucleonData ℝ) : Fits c nc (n.revise φ) ↔ Fits c nc n := by
  unfold Fits
  rw [boundary_revise nc hφ]

/-- the fluctuation parameter is not used in the deposition -/
theorem thickness_gamma (w v : ℝ) (m : ℕ) (σ : ℝ) (ncoll : Bool) (k k' : ℝ) (debug : Bool) (n : NucleonData ℝ) (x y : ℝ) :
    (NucleonCommon.make w v m σ ncoll k').thickness debug n x y = (NucleonCommon.make w v m σ ncoll k).thickness debug n x y := by
  have key : ∀ cs t, (NucleonCommon.make w v m σ ncoll k').thicknessLoop debug x y cs t = (NucleonCommon.make w v m σ ncoll k).thicknessLoop debug x y cs t := by
    intro cs
    induction cs with
    | nil => intro t; rfl
    | cons c cs ih =>
      intro t
      unfold NucleonCommon.thicknessLoop
      simp only [ih]
      rfl
  unfold NucleonCommon.thickness
  rw [key]
  rfl

theorem compute_gamma (c : EventCfg ℝ) (w v : ℝ) (m : ℕ) (σ : ℝ) (ncoll : Bool) (k k' : ℝ) (debug : Bool) {n : ℕ} (ev : Event ℝ n) (A B : List (NucleonData ℝ)) :
    ev.compute c (NucleonCommon.make w v m σ ncoll k') debug A B = ev.compute c (NucleonCommon.make w v m σ ncoll k) debug A B := by
  have cell : ∀ (nucl : NucleonData ℝ) iy ix (g : Grid ℝ n), depositCell c (NucleonCommon.make w v m σ ncoll k') debug nucl iy ix g = depositCell c (NucleonCommon.make w v m σ ncoll k) debug nucl iy ix g := by
    intro nucl iy ix g
    unfold depositCell
    rw [thickness_gamma w v m σ ncoll k k']
  have one : ∀ (nucl : NucleonData ℝ) (g : Grid ℝ n), depositNucleon c (NucleonCommon.make w v m σ ncoll k') debug nucl g = depositNucleon c (NucleonCommon.make w v m σ ncoll k) debug nucl g := by
    intro nucl g
    unfold depositNucleon
    simp only [cell]
    rfl
  have all : ∀ (A : List (NucleonData ℝ)) (s : Grid ℝ n × ℕ), depositAll c (NucleonCommon.make w v m σ ncoll k') debug A s = depositAll c (NucleonCommon.make w v m σ ncoll k) debug A s := by
    intro A
    induction A with
    | nil => intro s; rfl
    | cons a A ih =>
      intro s
      obtain ⟨g, j⟩ := s
      unfold depositAll
      simp only [one, ih]
  unfold Event.compute computeNuclearThickness
  simp only [all]

end Trento
