import Verif.Model.RealArith
import Verif.Model.Collider
import Mathlib.MeasureTheory.MeasurableSpace.Constructions
import Mathlib.MeasureTheory.MeasurableSpace.Embedding
import Mathlib.MeasureTheory.MeasurableSpace.Prod
import Mathlib.MeasureTheory.Constructions.BorelSpace.Real
import Mathlib.Data.List.OfFn

/-! # Measurability of functions of lists and of the records of the model -/

namespace Trento
open MeasureTheory Set

variable {α β γ Y Z : Type} [MeasurableSpace α] [MeasurableSpace β] [MeasurableSpace γ] [MeasurableSpace Y] [MeasurableSpace Z]

/-- A set of lists is measurable if for every length the corresponding set of tuples is. -/
instance : MeasurableSpace (List α) := ⨅ n : ℕ, (inferInstance : MeasurableSpace (Fin n → α)).map List.ofFn

theorem measurableSet_list {s : Set (List α)} : MeasurableSet s ↔ ∀ n, MeasurableSet ((List.ofFn : (Fin n → α) → List α) ⁻¹' s) := by
  show MeasurableSet[⨅ n : ℕ, (inferInstance : MeasurableSpace (Fin n → α)).map List.ofFn] s ↔ _
  rw [MeasurableSpace.measurableSet_iInf]
  rfl

theorem measurable_ofFn (n : ℕ) : Measurable (List.ofFn : (Fin n → α) → List α) := fun _ hs => measurableSet_list.mp hs n

theorem embedding_ofFn (n : ℕ) : MeasurableEmbedding (List.ofFn : (Fin n → α) → List α) := by
  refine ⟨List.ofFn_injective, measurable_ofFn n, ?_⟩
  intro s hs
  rw [measurableSet_list]
  intro m
  by_cases h : m = n
  · subst h
    rw [List.ofFn_injective.preimage_image]
    exact hs
  · have : (List.ofFn : (Fin m → α) → List α) ⁻¹' (List.ofFn '' s) = ∅ := by
      ext v
      simp only [mem_preimage, mem_image, mem_empty_iff_false, iff_false, not_exists, not_and]
      intro u _ hu
      have := congrArg List.length hu
      simp at this
      exact h this.symm
    rw [this]
    exact MeasurableSet.empty

/-- A function of a parameter and a list is measurable if it is for every length of the list. -/
theorem measurable_list_param {f : Y × List α → β} (h : ∀ n, Measurable fun p : Y × (Fin n → α) => f (p.1, List.ofFn p.2)) : Measurable f := by
  intro s hs
  have e : f ⁻¹' s = ⋃ n : ℕ, (Prod.map id (List.ofFn : (Fin n → α) → List α)) '' ((fun p : Y × (Fin n → α) => f (p.1, List.ofFn p.2)) ⁻¹' s) := by
    ext ⟨y, l⟩
    simp only [mem_preimage, mem_iUnion, mem_image, Prod.exists, Prod.map_apply, id, Prod.mk.injEq]
    constructor
    · intro hl
      exact ⟨l.length, y, l.get, by rwa [List.ofFn_get], rfl, List.ofFn_get l⟩
    · rintro ⟨n, y', v, hv, rfl, rfl⟩
      exact hv
  rw [e]
  refine MeasurableSet.iUnion fun n => ?_
  exact (MeasurableEmbedding.id.prodMap (embedding_ofFn n)).measurableSet_image.mpr (h n hs)

/-- Induction over the list: the parameter may change in the recursive calls. -/
theorem measurable_list_rec {f : Y → List α → β} (h0 : Measurable fun y => f y [])
    (hs : ∀ n, (∀ {Z : Type} [MeasurableSpace Z] {y : Z → Y} {v : Z → Fin n → α}, Measurable y → Measurable v →
        Measurable fun z => f (y z) (List.ofFn (v z))) →
      Measurable fun p : Y × α × (Fin n → α) => f p.1 (p.2.1 :: List.ofFn p.2.2)) :
    Measurable fun p : Y × List α => f p.1 p.2 := by
  have key : ∀ n, Measurable fun p : Y × (Fin n → α) => f p.1 (List.ofFn p.2) := by
    intro n
    induction n with
    | zero =>
      have e : (fun p : Y × (Fin 0 → α) => f p.1 (List.ofFn p.2)) = (fun y => f y []) ∘ Prod.fst := by funext p; simp
      rw [e]
      exact h0.comp measurable_fst
    | succ n ih =>
      have h1 := hs n fun {Z} _ {y} {v} hy hv => ih.comp (hy.prodMk hv)
      have h2 : Measurable fun p : Y × (Fin (n+1) → α) => (p.1, p.2 0, fun i : Fin n => p.2 i.succ) :=
        measurable_fst.prodMk (((measurable_pi_apply 0).comp measurable_snd).prodMk
          (measurable_pi_iff.2 fun i => (measurable_pi_apply i.succ).comp measurable_snd))
      have h3 := h1.comp h2
      have e : (fun p : Y × (Fin (n+1) → α) => f p.1 (List.ofFn p.2)) =
          (fun p : Y × α × (Fin n → α) => f p.1 (p.2.1 :: List.ofFn p.2.2)) ∘ fun p : Y × (Fin (n+1) → α) => (p.1, p.2 0, fun i : Fin n => p.2 i.succ) := by
        funext p
        simp [List.ofFn_succ]
      rw [e]
      exact h3
  exact measurable_list_param key

end Trento
