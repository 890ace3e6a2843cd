import Verif.Lemmas.Event
import Verif.Props.Nucleon

/-! Deposition of nucleons on the grid. -/

namespace Trento
open Spec

section generic
variable {F : Type} [Arith F]

theorem addAt_ok {n : Nat} (g : Grid F n) {iy ix : Int} (hy : 0 ≤ iy ∧ iy < n) (hx : 0 ≤ ix ∧ ix < n) (v : F) :
    g.addAt iy ix v = .ok fun ky kx => if (ky.val : Int) = iy ∧ (kx.val : Int) = ix then g ky kx + v else g ky kx := by
  unfold Grid.addAt
  rw [dif_pos ⟨hy, hx⟩]
  dsimp only
  congr 1
  funext ky kx
  have h1 : (ky = ⟨iy.toNat, by omega⟩ ∧ kx = ⟨ix.toNat, by omega⟩) ↔ ((ky.val : Int) = iy ∧ (kx.val : Int) = ix) := by
    constructor
    · rintro ⟨rfl, rfl⟩; constructor <;> simp <;> omega
    · rintro ⟨h1, h2⟩; constructor <;> apply Fin.ext <;> simp <;> omega
  by_cases h : ((ky.val : Int) = iy ∧ (kx.val : Int) = ix)
  · rw [if_pos (h1.mpr h), if_pos h]
  · rw [if_neg (fun h' => h (h1.mp h')), if_neg h]

/-- One grid row. -/
theorem depositRow {c : EventCfg F} {nc : NucleonCommon F} {debug : Bool} {n : Nat} {nucl : NucleonData F}
    {T : Int → Int → F} (hT : ∀ iy ix, nc.thickness debug nucl (c.center ix) (c.center iy) = .ok (T iy ix))
    {iy : Int} (hy : 0 ≤ iy ∧ iy < n) (l : List Int) (hl : ∀ i ∈ l, 0 ≤ i ∧ i < n) (hnd : l.Nodup) (g : Grid F n) :
    forRes (fun ix g => depositCell c nc debug nucl iy ix g) l g =
      .ok fun ky kx => if (ky.val : Int) = iy ∧ (kx.val : Int) ∈ l then g ky kx + T iy kx.val else g ky kx := by
  induction l generalizing g with
  | nil => simp [forRes]
  | cons i l ih =>
    unfold forRes
    have hi := hl i (by simp)
    simp only [depositCell, hT, addAt_ok g hy hi]
    have := ih (fun j hj => hl j (by simp [hj])) (List.nodup_cons.mp hnd).2
      (fun ky kx => if (ky.val : Int) = iy ∧ (kx.val : Int) = i then g ky kx + T iy i else g ky kx)
    simp only [depositCell, hT] at this
    rw [this]
    congr 1
    funext ky kx
    have hnot := (List.nodup_cons.mp hnd).1
    by_cases h1 : (ky.val : Int) = iy
    · by_cases h2 : (kx.val : Int) = i
      · rw [h2]; simp [h1, hnot]
      · by_cases h3 : (kx.val : Int) ∈ l <;> simp [h1, h2, h3]
    · simp [h1]

/-- The rectangle of cells. -/
theorem depositRect {c : EventCfg F} {nc : NucleonCommon F} {debug : Bool} {n : Nat} {nucl : NucleonData F}
    {T : Int → Int → F} (hT : ∀ iy ix, nc.thickness debug nucl (c.center ix) (c.center iy) = .ok (T iy ix))
    (lx : List Int) (hlx : ∀ i ∈ lx, 0 ≤ i ∧ i < n) (hndx : lx.Nodup)
    (ly : List Int) (hly : ∀ i ∈ ly, 0 ≤ i ∧ i < n) (hndy : ly.Nodup) (g : Grid F n) :
    forRes (fun iy g => forRes (fun ix g => depositCell c nc debug nucl iy ix g) lx g) ly g =
      .ok fun ky kx => if (ky.val : Int) ∈ ly ∧ (kx.val : Int) ∈ lx then g ky kx + T ky.val kx.val else g ky kx := by
  induction ly generalizing g with
  | nil => simp [forRes]
  | cons i l ih =>
    unfold forRes
    have hi := hly i (by simp)
    simp only [depositRow hT hi lx hlx hndx g]
    have := ih (fun j hj => hly j (by simp [hj])) (List.nodup_cons.mp hndy).2
      (fun ky kx => if (ky.val : Int) = i ∧ (kx.val : Int) ∈ lx then g ky kx + T i kx.val else g ky kx)
    rw [this]
    congr 1
    funext ky kx
    have hnot := (List.nodup_cons.mp hndy).1
    by_cases h1 : (kx.val : Int) ∈ lx
    · by_cases h2 : (ky.val : Int) = i
      · rw [h2]; simp [h1, hnot]
      · by_cases h3 : (ky.val : Int) ∈ l <;> simp [h1, h2, h3]
    · simp [h1]

/-- Deposition of one nucleon, given that its box and the index conversions are defined: exactly the cells of the
clipped index rectangle are incremented, each once. -/
theorem depositNucleon_rect {c : EventCfg F} {nc : NucleonCommon F} {debug : Bool} {n : Nat} {nucl : NucleonData F}
    (hn : c.nsteps = n) (hn1 : 1 ≤ n)
    {T : Int → Int → F} (hT : ∀ iy ix, nc.thickness debug nucl (c.center ix) (c.center iy) = .ok (T iy ix))
    {b : Box F} (hb : nc.boundary nucl = .ok b) {x0 x1 y0 y1 : Int} (h1 : c.index b.xmin = .ok x0)
    (h2 : c.index b.xmax = .ok x1) (h3 : c.index b.ymin = .ok y0) (h4 : c.index b.ymax = .ok y1) (g : Grid F n) :
    depositNucleon c nc debug nucl g = .ok fun ky kx =>
      if (clip y0 0 (n-1) ≤ (ky.val : Int) ∧ (ky.val : Int) ≤ clip y1 0 (n-1)) ∧
         (clip x0 0 (n-1) ≤ (kx.val : Int) ∧ (kx.val : Int) ≤ clip x1 0 (n-1))
      then g ky kx + T ky.val kx.val else g ky kx := by
  have htop : (0:Int) ≤ (n:Int) - 1 := by omega
  have hmem : ∀ (a b : Int), ∀ i ∈ intRange (clip a 0 (n-1)) (clip b 0 (n-1)), 0 ≤ i ∧ i < n := by
    intro a b i hi
    rw [mem_intRange] at hi
    have := clip_mem (v := a) htop
    have := clip_mem (v := b) htop
    omega
  unfold depositNucleon
  simp only [hb, h1, h2, h3, h4, hn, bind, Except.bind]
  rw [depositRect hT _ (hmem _ _) (nodup_intRange _ _) _ (hmem _ _) (nodup_intRange _ _)]
  simp only [mem_intRange]

/-- If deposition succeeded, the box and the conversions were defined. -/
theorem depositNucleon_ok_inv {c : EventCfg F} {nc : NucleonCommon F} {debug : Bool} {n : Nat} {nucl : NucleonData F}
    {g g' : Grid F n} (h : depositNucleon c nc debug nucl g = .ok g') :
    ∃ b x0 x1 y0 y1, nc.boundary nucl = .ok b ∧ c.index b.xmin = .ok x0 ∧ c.index b.xmax = .ok x1 ∧
      c.index b.ymin = .ok y0 ∧ c.index b.ymax = .ok y1 := by
  unfold depositNucleon at h
  cases hb : nc.boundary nucl with
  | error e => simp [hb, bind, Except.bind] at h
  | ok b =>
    cases h1 : c.index b.xmin with
    | error e => simp [hb, h1, bind, Except.bind] at h
    | ok x0 =>
      cases h2 : c.index b.xmax with
      | error e => simp [hb, h1, h2, bind, Except.bind] at h
      | ok x1 =>
        cases h3 : c.index b.ymin with
        | error e => simp [hb, h1, h2, h3, bind, Except.bind] at h
        | ok y0 =>
          cases h4 : c.index b.ymax with
          | error e => simp [hb, h1, h2, h3, h4, bind, Except.bind] at h
          | ok y1 => exact ⟨b, x0, x1, y0, y1, rfl, h1, h2, h3, h4⟩

end generic

/-! ### exact reals -/

theorem center_real (c : EventCfg ℝ) (i : Int) : c.center i = ((i:ℝ) + 1/2) * c.dxy - c.xymax := by
  unfold EventCfg.center; simp only [ofInt_real, lit_real]; norm_num

/-- A cell left of the lowest index has its centre left of the box. -/
theorem center_below {c : EventCfg ℝ} (hd : 0 < c.dxy) {v : ℝ} {k : Int} (hk : c.index v = .ok k) {n : Nat}
    {i : Int} (hi : 0 ≤ i ∧ i < n) (h : i < clip k 0 ((n:Int)-1)) : c.center i ≤ v := by
  have hk' := castInt_eq_ok hk
  rw [center_real]
  have hq : (i:ℝ) + 1 ≤ (v + c.xymax) / c.dxy := by
    unfold clip at h
    split at h
    · omega
    · rename_i h0
      have hki : i + 1 ≤ k := by split at h <;> omega
      have hk0 : 0 < k := by omega
      split at hk'
      · have h1 : (k:ℝ) ≤ (v + c.xymax) / c.dxy := by rw [hk']; exact Int.floor_le _
        have h2 : ((i + 1 : Int) : ℝ) ≤ k := by exact_mod_cast hki
        push_cast at h2; linarith
      · rename_i hneg
        have : ⌈(v + c.xymax) / c.dxy⌉ ≤ 0 := by
          apply Int.ceil_le.mpr; push_cast; linarith
        omega
  rw [le_div_iff₀ hd] at hq
  nlinarith

/-- A cell right of the highest index has its centre right of the box. -/
theorem center_above {c : EventCfg ℝ} (hd : 0 < c.dxy) {v : ℝ} {k : Int} (hk : c.index v = .ok k) {n : Nat}
    {i : Int} (hi : 0 ≤ i ∧ i < n) (h : clip k 0 ((n:Int)-1) < i) : v ≤ c.center i := by
  have hk' := castInt_eq_ok hk
  rw [center_real]
  have hq : (v + c.xymax) / c.dxy ≤ (i:ℝ) := by
    unfold clip at h
    split at h
    · rename_i hneg
      split at hk'
      · rename_i h0
        have := Int.floor_nonneg.mpr h0; omega
      · rename_i h0
        have : (0:ℝ) ≤ i := by exact_mod_cast hi.1
        linarith
    · rename_i h0
      have hki : k + 1 ≤ i := by split at h <;> omega
      have h2 : ((k + 1 : Int) : ℝ) ≤ i := by exact_mod_cast hki
      push_cast at h2
      split at hk'
      · have h1 : (v + c.xymax) / c.dxy < k + 1 := by rw [hk']; exact Int.lt_floor_add_one _
        linarith
      · have h1 : (v + c.xymax) / c.dxy ≤ k := by rw [hk']; exact Int.le_ceil _
        linarith
  rw [div_le_iff₀ hd] at hq
  nlinarith

/-- On exact reals, depositing one nucleon adds its thickness in *every* cell. -/
theorem depositNucleon_real {w v : ℝ} {m : ℕ} {σ : ℝ} {ncoll : Bool} {k : ℝ} (hv : 0 < v) {c : EventCfg ℝ}
    (hd : 0 < c.dxy) {debug : Bool} {n : Nat} (hn : c.nsteps = n) (hn1 : 1 ≤ n) {nucl : NucleonData ℝ}
    (hf : ∀ q ∈ nucl.constituents, 0 ≤ q.fluctuation)
    {T : Int → Int → ℝ}
    (hT : ∀ iy ix, (NucleonCommon.make w v m σ ncoll k).thickness debug nucl (c.center ix) (c.center iy) = .ok (T iy ix))
    {b : Box ℝ} (hb : (NucleonCommon.make w v m σ ncoll k).boundary nucl = .ok b) {x0 x1 y0 y1 : Int}
    (h1 : c.index b.xmin = .ok x0)
    (h2 : c.index b.xmax = .ok x1) (h3 : c.index b.ymin = .ok y0) (h4 : c.index b.ymax = .ok y1) (g : Grid ℝ n) :
    depositNucleon c (NucleonCommon.make w v m σ ncoll k) debug nucl g =
      .ok fun ky kx => g ky kx + T ky.val kx.val := by
  rw [depositNucleon_rect hn hn1 hT hb h1 h2 h3 h4]
  congr 1
  funext ky kx
  split
  · rfl
  · rename_i hout
    have hz : T ky.val kx.val = 0 := by
      have hky : (0:Int) ≤ (ky.val:Int) ∧ (ky.val:Int) < n := by have := ky.isLt; omega
      have hkx : (0:Int) ≤ (kx.val:Int) ∧ (kx.val:Int) < n := by have := kx.isLt; omega
      have := C04_thickness_zero_outside w v m σ ncoll k hv debug nucl hf b hb (c.center kx.val) (c.center ky.val) ?_
      · rw [hT] at this; exact Except.ok.inj this
      · simp only [not_and_or, not_le] at hout
        rcases hout with (h | h) | (h | h)
        · exact .inr (.inr (.inl (center_below hd h3 hky h)))
        · exact .inr (.inr (.inr (center_above hd h4 hky h)))
        · exact .inl (center_below hd h1 hkx h)
        · exact .inr (.inl (center_above hd h2 hkx h))
    rw [hz, add_zero]

end Trento
