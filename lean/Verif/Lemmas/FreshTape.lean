import Verif.Lemmas.RenewModel
import Verif.Lemmas.IdealTape

/-! # The ideal tape is a fresh source -/

namespace Trento
open MeasureTheory Set Spec

/-- the state with the given tape -/
def tapeState (t : Tape) : Rand Tape Unit := ⟨t, ()⟩

theorem tapeState_meas : Measurable tapeState := rand_mk measurable_id measurable_const

/-- the law of the random state: independent uniform numbers -/
noncomputable def freshTape (_ : Unit) : Measure (Rand Tape Unit) := idealTape.map tapeState

instance (i : Unit) : IsProbabilityMeasure (freshTape i) := Measure.isProbabilityMeasure_map tapeState_meas.aemeasurable

theorem rand_eng_meas : Measurable fun w : Rand Tape Unit => w.eng := measurable_fst.comp rand_tuple

theorem freshTape_draw {α : Type} [MeasurableSpace α] {g : ℝ → α} (hg : Measurable g) (i : Unit) :
    (Measurable fun w : Rand Tape Unit => (g (w.eng.val 0), (⟨w.eng.next, ()⟩ : Rand Tape Unit))) ∧
    IsProbabilityMeasure (unif.map g) ∧
    (freshTape i).map (fun w : Rand Tape Unit => (g (w.eng.val 0), (⟨w.eng.next, ()⟩ : Rand Tape Unit))) = (unif.map g).prod (freshTape i) := by
  have hm : Measurable fun w : Rand Tape Unit => (g (w.eng.val 0), (⟨w.eng.next, ()⟩ : Rand Tape Unit)) :=
    (hg.comp ((tape_val_meas 0).comp rand_eng_meas)).prodMk (rand_mk (tape_next_meas.comp rand_eng_meas) measurable_const)
  refine ⟨hm, Measure.isProbabilityMeasure_map hg.aemeasurable, ?_⟩
  have h0 : Measurable fun t : Tape => (t.val 0, t.next) := (tape_val_meas 0).prodMk tape_next_meas
  unfold freshTape
  rw [Measure.map_map hm tapeState_meas, Measure.map_prod_map _ _ hg tapeState_meas, ← tape_law, Measure.map_map (hg.prodMap tapeState_meas) h0]
  rfl

theorem freshTape_fresh : FreshSource Tape Unit freshTape where
  prob i := inferInstance
  canonical_meas := (freshTape_draw measurable_id ()).1
  canonical_law i := ⟨(), by
    have := (freshTape_draw measurable_id i).2.2
    rw [Measure.map_id] at this
    exact this⟩
  normal_meas m s := (freshTape_draw (g := fun u => m + s * (2 * u - 1)) (by fun_prop) ()).1
  normal_law m s := ⟨_, (freshTape_draw (g := fun u => m + s * (2 * u - 1)) (by fun_prop) ()).2.1,
    fun i => ⟨(), (freshTape_draw (g := fun u => m + s * (2 * u - 1)) (by fun_prop) i).2.2⟩⟩
  gamma_meas a b := (freshTape_draw (g := fun u => |b| * u) (by fun_prop) ()).1
  gamma_law a b := ⟨_, (freshTape_draw (g := fun u => |b| * u) (by fun_prop) ()).2.1, fun i => ⟨(), (freshTape_draw (g := fun u => |b| * u) (by fun_prop) i).2.2⟩⟩
  radius_meas t := (freshTape_draw (g := fun u => (1 - u) * (t.headD (0, 0)).1 + u * (t.getLastD (0, 0)).1) (by fun_prop) ()).1
  radius_law t := ⟨_, (freshTape_draw (g := fun u => (1 - u) * (t.headD (0, 0)).1 + u * (t.getLastD (0, 0)).1) (by fun_prop) ()).2.1,
    fun i => ⟨(), (freshTape_draw (g := fun u => (1 - u) * (t.headD (0, 0)).1 + u * (t.getLastD (0, 0)).1) (by fun_prop) i).2.2⟩⟩
  index_meas k := (freshTape_draw (g := fun u => ⌊(k:ℝ) * u⌋₊) ((Nat.measurable_floor (R := ℝ)).comp (measurable_id.const_mul _)) ()).1
  index_law k := ⟨_, (freshTape_draw (g := fun u => ⌊(k:ℝ) * u⌋₊) ((Nat.measurable_floor (R := ℝ)).comp (measurable_id.const_mul _)) ()).2.1,
    fun i => ⟨(), (freshTape_draw (g := fun u => ⌊(k:ℝ) * u⌋₊) ((Nat.measurable_floor (R := ℝ)).comp (measurable_id.const_mul _)) i).2.2⟩⟩

end Trento
