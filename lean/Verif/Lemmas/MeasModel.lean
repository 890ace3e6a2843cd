import Verif.Lemmas.MeasList

/-! # Measurability: lists, failures, and the records of the model -/

namespace Trento
open MeasureTheory Set

variable {α β γ Y Z : Type} [MeasurableSpace α] [MeasurableSpace β] [MeasurableSpace γ] [MeasurableSpace Y] [MeasurableSpace Z]

/-! ### Lists -/

theorem measurable_cons' : Measurable fun p : α × List α => p.1 :: p.2 := by
  refine measurable_list_param fun n => ?_
  have h : Measurable fun p : α × (Fin n → α) => (Fin.cons p.1 p.2 : Fin (n+1) → α) := by
    refine measurable_pi_iff.2 fun i => ?_
    refine Fin.cases ?_ (fun i => ?_) i
    · simpa using measurable_fst
    · simp only [Fin.cons_succ]
      exact (measurable_pi_apply i).comp measurable_snd
  have e : (fun p : α × (Fin n → α) => p.1 :: List.ofFn p.2) = List.ofFn ∘ fun p : α × (Fin n → α) => (Fin.cons p.1 p.2 : Fin (n+1) → α) := by
    funext p
    simp [List.ofFn_succ]
  rw [e]
  exact (measurable_ofFn (n+1)).comp h

theorem _root_.Measurable.cons {f : Y → α} {g : Y → List α} (hf : Measurable f) (hg : Measurable g) : Measurable fun y => f y :: g y :=
  measurable_cons'.comp (hf.prodMk hg)

theorem measurable_list_cases {f : Y × List α → β} (h0 : Measurable fun y => f (y, [])) (h1 : Measurable fun p : Y × α × List α => f (p.1, p.2.1 :: p.2.2)) :
    Measurable f := by
  refine measurable_list_param fun n => ?_
  cases n with
  | zero =>
    have e : (fun p : Y × (Fin 0 → α) => f (p.1, List.ofFn p.2)) = (fun y => f (y, [])) ∘ Prod.fst := by funext p; simp
    rw [e]
    exact h0.comp measurable_fst
  | succ n =>
    have h2 : Measurable fun p : Y × (Fin (n+1) → α) => (p.1, p.2 0, List.ofFn fun i : Fin n => p.2 i.succ) :=
      measurable_fst.prodMk (((measurable_pi_apply 0).comp measurable_snd).prodMk
        ((measurable_ofFn n).comp (measurable_pi_iff.2 fun i => (measurable_pi_apply i.succ).comp measurable_snd)))
    have e : (fun p : Y × (Fin (n+1) → α) => f (p.1, List.ofFn p.2)) =
        (fun p : Y × α × List α => f (p.1, p.2.1 :: p.2.2)) ∘ fun p : Y × (Fin (n+1) → α) => (p.1, p.2 0, List.ofFn fun i : Fin n => p.2 i.succ) := by
      funext p
      simp [List.ofFn_succ]
    rw [e]
    exact h1.comp h2

theorem _root_.Measurable.append {f g : Y → List α} (hf : Measurable f) (hg : Measurable g) : Measurable fun y => f y ++ g y := by
  have := measurable_list_rec (Y := List α) (α := α) (f := fun y l => l ++ y) measurable_id (fun n ih => by
    have := ih (Z := List α × α × (Fin n → α)) (y := fun p => p.1) (v := fun p => p.2.2) measurable_fst (measurable_snd.comp measurable_snd)
    exact Measurable.cons (measurable_fst.comp measurable_snd) this)
  exact this.comp (hg.prodMk hf)

/-- `List.map` with a parameter -/
theorem _root_.Measurable.listMap {g : Y → α → β} (hg : Measurable fun p : Y × α => g p.1 p.2) {y : Z → Y} {l : Z → List α} (hy : Measurable y)
    (hl : Measurable l) : Measurable fun z => (l z).map (g (y z)) := by
  have := measurable_list_rec (Y := Y) (α := α) (f := fun y l => l.map (g y)) (by simp) (fun n ih => by
    have h1 := ih (Z := Y × α × (Fin n → α)) (y := fun p => p.1) (v := fun p => p.2.2) measurable_fst (measurable_snd.comp measurable_snd)
    exact Measurable.cons (hg.comp (measurable_fst.prodMk (measurable_fst.comp measurable_snd))) h1)
  exact this.comp (hy.prodMk hl)

/-- `List.foldl` with a parameter -/
theorem _root_.Measurable.listFoldl {g : Y → β → α → β} (hg : Measurable fun p : Y × β × α => g p.1 p.2.1 p.2.2) {y : Z → Y} {b : Z → β} {l : Z → List α}
    (hy : Measurable y) (hb : Measurable b) (hl : Measurable l) : Measurable fun z => (l z).foldl (g (y z)) (b z) := by
  have := measurable_list_rec (Y := Y × β) (α := α) (f := fun y l => l.foldl (g y.1) y.2) (by simpa using measurable_snd) (fun n ih => by
    exact ih (Z := (Y × β) × α × (Fin n → α)) (y := fun p => (p.1.1, g p.1.1 p.1.2 p.2.1)) (v := fun p => p.2.2)
      ((measurable_fst.comp measurable_fst).prodMk (hg.comp ((measurable_fst.comp measurable_fst).prodMk
        ((measurable_snd.comp measurable_fst).prodMk (measurable_fst.comp measurable_snd)))))
      (measurable_snd.comp measurable_snd))
  exact this.comp ((hy.prodMk hb).prodMk hl)

/-- `List.any` with a parameter -/
theorem _root_.Measurable.listAny {g : Y → α → Bool} (hg : Measurable fun p : Y × α => g p.1 p.2) {y : Z → Y} {l : Z → List α}
    (hy : Measurable y) (hl : Measurable l) : Measurable fun z => (l z).any (g (y z)) := by
  have := measurable_list_rec (Y := Y) (α := α) (f := fun y l => l.any (g y)) (by simp) (fun n ih => by
    have h1 := ih (Z := Y × α × (Fin n → α)) (y := fun p => p.1) (v := fun p => p.2.2) measurable_fst (measurable_snd.comp measurable_snd)
    have h2 : Measurable fun p : Y × α × (Fin n → α) => g p.1 p.2.1 := hg.comp (measurable_fst.prodMk (measurable_fst.comp measurable_snd))
    have hor : Measurable fun p : Bool × Bool => p.1 || p.2 := measurable_of_countable _
    exact hor.comp (h2.prodMk h1))
  exact this.comp (hy.prodMk hl)

/-! ### Failures -/

instance : MeasurableSpace Err := ⊤

/-- A set of results is measurable if its failures and its values are. -/
instance {ε : Type} [MeasurableSpace ε] : MeasurableSpace (Except ε α) :=
  (inferInstance : MeasurableSpace ε).map Except.error ⊓ (inferInstance : MeasurableSpace α).map Except.ok

section
variable {ε : Type} [MeasurableSpace ε]

theorem measurableSet_except {s : Set (Except ε α)} : MeasurableSet s ↔ MeasurableSet (Except.error ⁻¹' s) ∧ MeasurableSet (Except.ok ⁻¹' s) := Iff.rfl

theorem measurable_ok : Measurable (Except.ok : α → Except ε α) := fun _ hs => (measurableSet_except.mp hs).2
theorem measurable_error : Measurable (Except.error : ε → Except ε α) := fun _ hs => (measurableSet_except.mp hs).1

theorem embedding_ok : MeasurableEmbedding (Except.ok : α → Except ε α) := by
  refine ⟨fun a b h => by cases h; rfl, measurable_ok, fun s hs => measurableSet_except.mpr ⟨?_, ?_⟩⟩
  · have : (Except.error : ε → Except ε α) ⁻¹' (Except.ok '' s) = ∅ := by ext e; simp
    rw [this]; exact MeasurableSet.empty
  · rwa [preimage_image_eq _ fun a b h => by cases h; rfl]

theorem embedding_error : MeasurableEmbedding (Except.error : ε → Except ε α) := by
  refine ⟨fun a b h => by cases h; rfl, measurable_error, fun s hs => measurableSet_except.mpr ⟨?_, ?_⟩⟩
  · rwa [preimage_image_eq _ fun a b h => by cases h; rfl]
  · have : (Except.ok : α → Except ε α) ⁻¹' (Except.error '' s) = ∅ := by ext e; simp
    rw [this]; exact MeasurableSet.empty

/-- case distinction on a result -/
def exElim {ε α β : Type} (r : Except ε α) (f : ε → β) (g : α → β) : β := match r with
  | .error e => f e
  | .ok a => g a

theorem measurable_exElim {r : Z → Except ε α} {f : Z → ε → β} {g : Z → α → β} (hr : Measurable r) (hf : Measurable fun p : Z × ε => f p.1 p.2)
    (hg : Measurable fun p : Z × α => g p.1 p.2) : Measurable fun z => exElim (r z) (f z) (g z) := by
  have h : Measurable fun p : Z × Except ε α => exElim p.2 (f p.1) (g p.1) := by
    intro s hs
    have e : (fun p : Z × Except ε α => exElim p.2 (f p.1) (g p.1)) ⁻¹' s =
        (Prod.map id Except.error) '' ((fun p : Z × ε => f p.1 p.2) ⁻¹' s) ∪ (Prod.map id Except.ok) '' ((fun p : Z × α => g p.1 p.2) ⁻¹' s) := by
      ext ⟨z, r⟩
      cases r <;> simp [exElim]
    rw [e]
    exact ((MeasurableEmbedding.id.prodMap embedding_error).measurableSet_image.mpr (hf hs)).union
      ((MeasurableEmbedding.id.prodMap embedding_ok).measurableSet_image.mpr (hg hs))
  exact h.comp (measurable_id.prodMk hr)

/-- sequencing two steps that can fail -/
theorem measurable_exBind {r : Z → Except ε α} {g : Z → α → Except ε β} (hr : Measurable r)
    (hg : Measurable fun p : Z × α => g p.1 p.2) : Measurable fun z => exElim (r z) Except.error (g z) :=
  measurable_exElim (f := fun _ e => Except.error e) hr (measurable_error.comp measurable_snd) hg
end

/-! ### Records -/

instance : MeasurableSpace (Constituent ℝ) := MeasurableSpace.comap (fun c => (c.x, c.y, c.fluctuation)) inferInstance

theorem constituent_tuple : Measurable fun c : Constituent ℝ => (c.x, c.y, c.fluctuation) := comap_measurable _
theorem constituent_x : Measurable (Constituent.x : Constituent ℝ → ℝ) := measurable_fst.comp constituent_tuple
theorem constituent_y : Measurable (Constituent.y : Constituent ℝ → ℝ) := (measurable_fst.comp measurable_snd).comp constituent_tuple
theorem constituent_fl : Measurable (Constituent.fluctuation : Constituent ℝ → ℝ) := (measurable_snd.comp measurable_snd).comp constituent_tuple
theorem constituent_mk {f g h : Z → ℝ} (hf : Measurable f) (hg : Measurable g) (hh : Measurable h) :
    Measurable fun z => (⟨f z, g z, h z⟩ : Constituent ℝ) := measurable_comap_iff.mpr (hf.prodMk (hg.prodMk hh))

instance : MeasurableSpace (NucleonData ℝ) :=
  MeasurableSpace.comap (fun n => (n.x, n.y, n.z, n.isParticipant, n.constituentsExist, n.constituents)) inferInstance

theorem nucleon_tuple : Measurable fun n : NucleonData ℝ => (n.x, n.y, n.z, n.isParticipant, n.constituentsExist, n.constituents) := comap_measurable _
theorem nucleon_x : Measurable (NucleonData.x : NucleonData ℝ → ℝ) := measurable_fst.comp nucleon_tuple
theorem nucleon_y : Measurable (NucleonData.y : NucleonData ℝ → ℝ) := (measurable_fst.comp measurable_snd).comp nucleon_tuple
theorem nucleon_z : Measurable (NucleonData.z : NucleonData ℝ → ℝ) := (measurable_fst.comp (measurable_snd.comp measurable_snd)).comp nucleon_tuple
theorem nucleon_part : Measurable (NucleonData.isParticipant : NucleonData ℝ → Bool) :=
  (measurable_fst.comp (measurable_snd.comp (measurable_snd.comp measurable_snd))).comp nucleon_tuple
theorem nucleon_exist : Measurable (NucleonData.constituentsExist : NucleonData ℝ → Bool) :=
  (measurable_fst.comp (measurable_snd.comp (measurable_snd.comp (measurable_snd.comp measurable_snd)))).comp nucleon_tuple
theorem nucleon_cs : Measurable (NucleonData.constituents : NucleonData ℝ → List (Constituent ℝ)) :=
  (measurable_snd.comp (measurable_snd.comp (measurable_snd.comp (measurable_snd.comp measurable_snd)))).comp nucleon_tuple
theorem nucleon_mk {f g h : Z → ℝ} {p q : Z → Bool} {l : Z → List (Constituent ℝ)} (hf : Measurable f) (hg : Measurable g) (hh : Measurable h)
    (hp : Measurable p) (hq : Measurable q) (hl : Measurable l) :
    Measurable fun z => (⟨f z, g z, h z, p z, q z, l z⟩ : NucleonData ℝ) :=
  measurable_comap_iff.mpr (hf.prodMk (hg.prodMk (hh.prodMk (hp.prodMk (hq.prodMk hl)))))

instance : MeasurableSpace (TiltSpin ℝ) := MeasurableSpace.comap (fun t => (t.cosA, t.sinA, t.cosB, t.sinB)) inferInstance
theorem tilt_tuple : Measurable fun t : TiltSpin ℝ => (t.cosA, t.sinA, t.cosB, t.sinB) := comap_measurable _

instance : MeasurableSpace (Euler ℝ) := MeasurableSpace.comap (fun e => (e.c1, e.s1, e.c2, e.s2, e.c3, e.s3)) inferInstance
theorem euler_tuple : Measurable fun e : Euler ℝ => (e.c1, e.s1, e.c2, e.s2, e.c3, e.s3) := comap_measurable _

instance {E D : Type} [MeasurableSpace E] [MeasurableSpace D] : MeasurableSpace (Rand E D) :=
  MeasurableSpace.comap (fun w => (w.eng, w.dist)) inferInstance

theorem rand_tuple {E D : Type} [MeasurableSpace E] [MeasurableSpace D] : Measurable fun w : Rand E D => (w.eng, w.dist) := comap_measurable _
theorem rand_mk {E D : Type} [MeasurableSpace E] [MeasurableSpace D] {f : Z → E} {g : Z → D} (hf : Measurable f) (hg : Measurable g) :
    Measurable fun z => (⟨f z, g z⟩ : Rand E D) := measurable_comap_iff.mpr (hf.prodMk hg)

end Trento
