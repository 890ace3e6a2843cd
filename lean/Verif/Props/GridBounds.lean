import Verif.Props.ExampleRun
import Verif.Props.Record
import Verif.Props.RoundedExample
import Verif.Model.Special

/-!
# C22 in every arithmetic: no write outside the thickness grid; a concrete run for C84

The rectangle of cells of a participant is clipped as integers, so the claim that no write leaves the grid needs no law of arithmetic: it
holds in the reals, in rounded arithmetic and with infinities and NaN alike.
-/

namespace Trento
open Spec

section
variable {F : Type} [Arith F]

/-- the error of a write outside the grid -/
abbrev outOfGrid : Err := .ub "grid index out of bounds"

theorem intRange_mem {lo hi k : Int} (h : k ∈ intRange lo hi) : lo ≤ k ∧ k ≤ hi := by
  unfold intRange at h
  obtain ⟨j, hj, rfl⟩ := List.mem_map.1 h
  rw [List.mem_range] at hj
  omega

theorem forRes_ne {ι S : Type} (f : ι → S → Res S) (e : Err) (l : List ι) (hf : ∀ i ∈ l, ∀ s, f i s ≠ .error e) (s : S) :
    forRes f l s ≠ .error e := by
  induction l generalizing s with
  | nil => intro h; cases h
  | cons i l ih =>
    intro h
    rw [forRes] at h
    cases hi : f i s with
    | error e' => simp only [hi] at h; exact hf i (by simp) s (hi.trans h)
    | ok s' => simp only [hi] at h; exact ih (fun j hj => hf j (by simp [hj])) s' h

theorem castInt_ne (x : F) : castInt x ≠ .error outOfGrid := by
  intro h
  unfold castInt at h
  repeat' split at h
  all_goals simp at h

theorem eval_ne (fe : FastExp F) (debug : Bool) (x : F) : fe.eval debug x ≠ .error outOfGrid := by
  intro h
  unfold FastExp.eval at h
  split at h
  · cases h
  · split at h
    · rename_i e he
      injection h with h; subst h
      unfold castSize at he
      repeat' split at he
      all_goals simp at he
    · split at h
      · simp at h
      · cases h

theorem thickness_ne (nc : NucleonCommon F) (debug : Bool) (n : NucleonData F) (x y : F) :
    nc.thickness debug n x y ≠ .error outOfGrid := by
  have hl : ∀ (cs : List (Constituent F)) (t : F), nc.thicknessLoop debug x y cs t ≠ .error outOfGrid := by
    intro cs
    induction cs with
    | nil => intro t h; cases h
    | cons c cs ih =>
      intro t h
      rw [NucleonCommon.thicknessLoop] at h
      split at h
      · split at h
        · rename_i e he; exact eval_ne _ _ _ (he.trans h)
        · exact ih _ h
      · exact ih _ h
  intro h
  unfold NucleonCommon.thickness at h
  split at h
  · rename_i e he; exact hl _ _ (he.trans h)
  · cases h

theorem deposit_ne (c : EventCfg F) (nc : NucleonCommon F) (debug : Bool) {n : Nat} (hn : c.nsteps = n) (h1 : 1 ≤ n) (nucl : NucleonData F)
    (g : Grid F n) : depositNucleon c nc debug nucl g ≠ .error outOfGrid := by
  intro h
  unfold depositNucleon at h
  simp only [bind, Except.bind] at h
  split at h
  · rename_i e he
    injection h with h; subst h
    unfold NucleonCommon.boundary at he
    split at he <;> simp at he
  · split at h
    · rename_i e he; injection h with h; subst h; exact castInt_ne _ he
    · split at h
      · rename_i e he; injection h with h; subst h; exact castInt_ne _ he
      · split at h
        · rename_i e he; injection h with h; subst h; exact castInt_ne _ he
        · split at h
          · rename_i e he; injection h with h; subst h; exact castInt_ne _ he
          · have ht : 0 ≤ c.nsteps - 1 := by omega
            refine forRes_ne _ _ _ ?_ _ h
            intro iy hy g
            refine forRes_ne _ _ _ ?_ _
            intro ix hx g h
            have b1 := intRange_mem hy
            have b2 := intRange_mem hx
            have c1 := fun v => clip_mem (v := v) ht
            unfold depositCell at h
            split at h
            · rename_i e he; injection h with h; subst h; exact thickness_ne _ _ _ _ _ he
            · unfold Grid.addAt at h
              rw [dif_pos ?_] at h
              · cases h
              · have := (c1 _).1.trans b1.1
                have := b1.2.trans (c1 _).2
                have := (c1 _).1.trans b2.1
                have := b2.2.trans (c1 _).2
                omega

/-- **C22, in every arithmetic.** On a grid with at least one cell, no nucleon, wherever it is — even with coordinates that overflow or are not
numbers — makes the computation of an event write outside the grid. No law of arithmetic is used. -/
theorem C22_every_arithmetic (c : EventCfg F) (nc : NucleonCommon F) (debug : Bool) {n : Nat} (hn : c.nsteps = n) (h1 : 1 ≤ n) (ev : Event F n)
    (A B : List (NucleonData F)) : ev.compute c nc debug A B ≠ .error (.ub "grid index out of bounds") := by
  have hall : ∀ (l : List (NucleonData F)) (s : Grid F n × Nat), depositAll c nc debug l s ≠ .error outOfGrid := by
    intro l
    induction l with
    | nil => intro s h; cases h
    | cons a l ih =>
      rintro ⟨g, k⟩ h
      rw [depositAll] at h
      split at h
      · split at h
        · rename_i e he; injection h with h; subst h; exact deposit_ne _ _ _ hn h1 _ _ he
        · exact ih _ h
      · exact ih _ h
  intro h
  unfold Event.compute at h
  split at h
  · rename_i e he; injection h with h; subst h; exact hall _ _ he
  · split at h
    · rename_i e he; injection h with h; subst h; exact hall _ _ he
    · cases h

end

/-- A participant far outside the grid, in rounded double arithmetic: the computation may be stopped by the undefined conversion to an index
or exceed a range check, but not by a write outside the grid. -/
example (c : EventCfg (Fl ieee)) (nc : NucleonCommon (Fl ieee)) (hc : c.nsteps = 1) (ev : Event (Fl ieee) 1) :
    ev.compute c nc false [⟨lit 1000000, lit 1000000, lit 0, true, true, [⟨lit 1000000, lit 1000000, lit 1⟩]⟩] [] ≠
      .error (.ub "grid index out of bounds") :=
  C22_every_arithmetic c nc false (by simpa using hc) (Nat.le_refl 1) ev _ _

/-- A participant with coordinates that are not numbers, in the arithmetic with infinities and NaN. -/
example (c : EventCfg XReal) (nc : NucleonCommon XReal) (hc : c.nsteps = 1) (ev : Event XReal 1) :
    ev.compute c nc false [⟨XReal.nan, XReal.nan, XReal.nan, true, true, [⟨XReal.nan, XReal.nan, XReal.nan⟩]⟩] [] ≠
      .error (.ub "grid index out of bounds") :=
  C22_every_arithmetic c nc false (by simpa using hc) (Nat.le_refl 1) ev _ _

/-- C84 and the documented-run form of C42 apply to the concrete proton–proton run. -/
example : ∃ n rs, runAll 0 1 exampleOptions 100 true
    (fun n => (⟨fun _ _ => 0, fun _ _ => 0, fun _ _ => 0, 0, 0, 0, 0, ⟨0, 0, 0, 0⟩⟩ : Event ℝ n)) halfTape = .ok ⟨n, rs⟩ ∧
    n = 100 ∧ ∀ rec ∈ rs, (∃ A B : Nucleus ℝ, A.nucleons.length = 1 ∧ B.nucleons.length = 1 ∧
      DocumentedEvent 1 0.2 0 1 1 A.nucleons B.nucleons rec.event) := by
  obtain ⟨⟨n, rs⟩, h⟩ := example_run
  have hh : NucleusHistory Tape Unit (mkProton : Nucleus ℝ) := .create false (fun _ => .missing) "p" 0 _ rfl
  obtain ⟨hl, key⟩ := C84_every_record exampleOptions 100 hh hh (by norm_num [exampleOptions]) (by norm_num [exampleOptions])
    (by norm_num [exampleOptions]) (by norm_num [exampleOptions]) true 0 1 _ halfTape n rs h
  refine ⟨n, rs, h, by norm_num [exampleOptions] at hl; exact_mod_cast hl, fun rec hrec => ?_⟩
  obtain ⟨A, B, -, lA, lB, -, -, -, -, -, hev⟩ := key rec hrec
  exact ⟨A, B, lA, lB, hev⟩

example : ∃ n rs, runAll 0 1 exampleOptions 100 true
    (fun n => (⟨fun _ _ => 0, fun _ _ => 0, fun _ _ => 0, 0, 0, 0, 0, ⟨0, 0, 0, 0⟩⟩ : Event ℝ n)) halfTape = .ok ⟨n, rs⟩ ∧
    ∀ rec ∈ rs, (rec.event.multiplicity = 0 ∨ ((10:ℝ) ^ (-999 : ℤ) ≤ rec.event.multiplicity ∧ rec.event.multiplicity < 10 ^ (999 : ℤ))) →
      Printable rec.b rec.event.npart rec.ncoll rec.event.multiplicity rec.event.ecc := by
  obtain ⟨⟨n, rs⟩, h⟩ := example_run
  refine ⟨n, rs, h, ?_⟩
  have hbm : (Collider.make exampleOptions 100).bmax = 1 := by
    rw [(C35_bmax exampleOptions (by norm_num [exampleOptions]) 100).1 (by norm_num [exampleOptions])]; rfl
  exact C42_documented_run exampleOptions 100 false (fun _ => .missing) 0 "p" "p" (by decide) rfl (by decide) rfl (by norm_num [exampleOptions])
    (by norm_num [exampleOptions]) (by norm_num [exampleOptions]) (by norm_num [exampleOptions]) (by norm_num [exampleOptions])
    (by norm_num [exampleOptions]) (by norm_num [exampleOptions]) (by rw [hbm]; norm_num [exampleOptions]) (by norm_num [exampleOptions]) true 0 1 _
    halfTape n rs h

end Trento
