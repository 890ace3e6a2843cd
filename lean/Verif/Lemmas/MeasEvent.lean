import Verif.Lemmas.RenewModel
import Mathlib.MeasureTheory.Function.Floor
import Mathlib.MeasureTheory.Function.SpecialFunctions.Basic
import Mathlib.MeasureTheory.Constructions.BorelSpace.Order

/-! # The event computed from two lists of nucleons is a measurable function of them -/

namespace Trento
open MeasureTheory Set

variable {Z : Type} [MeasurableSpace Z]

/-- a result that depends on a countable value measurably computed -/
theorem measurable_countable_param {N β : Type} [MeasurableSpace N] [Countable N] [MeasurableSingletonClass N] [MeasurableSpace β]
    {f : N → Z → β} (hf : ∀ k, Measurable (f k)) {k : Z → N} (hk : Measurable k) : Measurable fun z => f (k z) z := by
  have h1 : Measurable fun p : N × Z => f p.1 p.2 := measurable_from_prod_countable_right hf
  exact h1.comp (hk.prodMk measurable_id)

theorem measurable_bite {β : Type} [MeasurableSpace β] {c : Z → Bool} {f g : Z → β} (hc : Measurable c) (hf : Measurable f) (hg : Measurable g) :
    Measurable fun z => if c z = true then f z else g z :=
  Measurable.ite (hc (measurableSet_singleton true)) hf hg

theorem measurable_exBind' {α β ε : Type} [MeasurableSpace α] [MeasurableSpace β] [MeasurableSpace ε] {r : Z → Except ε α} {G : Z × α → Except ε β}
    (hr : Measurable r) (hG : Measurable G) : Measurable fun z => exElim (r z) Except.error fun a => G (z, a) :=
  measurable_exBind (g := fun z a => G (z, a)) hr hG

theorem truncR_meas {x : Z → ℝ} (hx : Measurable x) : Measurable fun z => if 0 ≤ x z then ⌊x z⌋ else ⌈x z⌉ :=
  Measurable.ite (measurableSet_le measurable_const hx) (Int.measurable_floor.comp hx) (Int.measurable_ceil.comp hx)

theorem castInt_meas {x : Z → ℝ} (hx : Measurable x) : Measurable fun z => castInt (x z) := by
  have h1 : Measurable fun k : ℤ => (if -2147483648 ≤ k ∧ k ≤ 2147483647 then .ok k else .error (.ub "double to int: out of range") : Res ℤ) :=
    measurable_of_countable _
  refine measurable_of_eq (h1.comp (truncR_meas hx)) fun z => ?_
  simp only [castInt, trunc_real, Function.comp]

theorem castSize_meas {x : Z → ℝ} (hx : Measurable x) : Measurable fun z => castSize (x z) := by
  have h1 : Measurable fun k : ℤ => (if 0 ≤ k ∧ k < 18446744073709551616 then .ok k.toNat
              else .error (.ub "double to size_t: out of range") : Res ℕ) :=
    measurable_of_countable _
  refine measurable_of_eq (h1.comp (truncR_meas hx)) fun z => ?_
  simp only [castSize, trunc_real, Function.comp]

theorem eval_meas (fe : FastExp ℝ) (debug : Bool) {x : Z → ℝ} (hx : Measurable x) : Measurable fun z => fe.eval debug (x z) := by
  let G : Z → ℕ → Res ℝ := fun z k => match fe.table[k]? with
      | none => .error (.ub "FastExp table index out of bounds")
      | some t => .ok (t * (lit 1 + x z - fe.xmin - ofInt k * fe.dx))
  have hl : Measurable fun p : Z × ℕ => G p.1 p.2 := by
    refine measurable_countable_param (N := ℕ) (k := fun p : Z × ℕ => p.2) (f := fun k (p : Z × ℕ) => G p.1 k) (fun k => ?_) measurable_snd
    simp only [G]
    cases fe.table[k]? with
    | none => exact measurable_const
    | some t =>
      refine measurable_ok.comp ?_
      exact ((((hx.comp measurable_fst).const_add _).sub_const _).sub_const _).const_mul _
  have h2 := measurable_exBind (castSize_meas (x := fun z => (x z - fe.xmin) / fe.dx + lit 0.5) (((hx.sub_const _).div_const _).add_const _)) hl
  have hc : Measurable fun z => debug && (lt (x z) fe.xmin || lt fe.xmax (x z)) := by
    simp only [lt_real]
    exact (measurable_of_countable fun b : Bool × Bool => debug && (b.1 || b.2)).comp
      ((measurable_decide' (measurableSet_lt hx measurable_const)).prodMk (measurable_decide' (measurableSet_lt measurable_const hx)))
  refine measurable_of_eq (measurable_bite hc (measurable_const (a := (.error (.throw .outOfRange "argument must be within [xmin, xmax]") : Res ℝ))) h2) fun z => ?_
  unfold FastExp.eval
  split
  · rfl
  · cases castSize ((x z - fe.xmin) / fe.dx + lit 0.5) with
    | error e => rfl
    | ok k =>
      simp only [exElim, G]
      cases fe.table[k]? <;> rfl

theorem thicknessLoop_meas (nc : NucleonCommon ℝ) (debug : Bool) (x y : ℝ) {l : Z → List (Constituent ℝ)} {t : Z → ℝ} (hl : Measurable l) (ht : Measurable t) :
    Measurable fun z => nc.thicknessLoop debug x y (l z) (t z) := by
  have h := measurable_list_rec (Y := ℝ) (α := Constituent ℝ) (f := fun t l => nc.thicknessLoop debug x y l t) measurable_ok (fun n ih => by
    have hd : Measurable fun p : ℝ × Constituent ℝ × (Fin n → Constituent ℝ) => sqr (x - p.2.1.x) + sqr (y - p.2.1.y) := by
      simp only [sqr_real]
      exact (((constituent_x.comp (measurable_fst.comp measurable_snd)).const_sub x).pow_const 2).add
        (((constituent_y.comp (measurable_fst.comp measurable_snd)).const_sub y).pow_const 2)
    have h1 := eval_meas nc.fastExp debug ((hd.const_mul (-(lit 0.5))).div_const nc.constituentWidthSq)
    have h2 := measurable_exBind h1 (g := fun p ex => nc.thicknessLoop debug x y (List.ofFn p.2.2) (p.1 + p.2.1.fluctuation * ex))
      (ih (Z := (ℝ × Constituent ℝ × (Fin n → Constituent ℝ)) × ℝ) (y := fun q => q.1.1 + q.1.2.1.fluctuation * q.2) (v := fun q => q.1.2.2)
        ((measurable_fst.comp measurable_fst).add ((constituent_fl.comp (by fun_prop)).mul measurable_snd)) (by fun_prop))
    have h3 := ih (Z := ℝ × Constituent ℝ × (Fin n → Constituent ℝ)) (y := fun q => q.1) (v := fun q => q.2.2) (by fun_prop) (by fun_prop)
    have hc : Measurable fun p : ℝ × Constituent ℝ × (Fin n → Constituent ℝ) => lt (sqr (x - p.2.1.x) + sqr (y - p.2.1.y)) nc.constituentRadiusSq := by
      simp only [lt_real]
      exact measurable_decide' (measurableSet_lt hd measurable_const)
    refine measurable_of_eq (measurable_bite hc h2 h3) fun p => ?_
    rw [NucleonCommon.thicknessLoop]
    split
    · cases nc.fastExp.eval debug (-(lit 0.5) * (sqr (x - p.2.1.x) + sqr (y - p.2.1.y)) / nc.constituentWidthSq) <;> rfl
    · rfl)
  exact h.comp (ht.prodMk hl)

theorem thickness_meas (nc : NucleonCommon ℝ) (debug : Bool) (x y : ℝ) {n : Z → NucleonData ℝ} (hn : Measurable n) :
    Measurable fun z => nc.thickness debug (n z) x y := by
  have h := measurable_exBind (thicknessLoop_meas nc debug x y (nucleon_cs.comp hn) (t := fun _ => lit 0) measurable_const)
    (g := fun _ t => .ok (nc.prefactor * t)) (measurable_ok.comp (measurable_snd.const_mul _))
  refine measurable_of_eq h fun z => ?_
  unfold NucleonCommon.thickness
  simp only [Function.comp]
  cases nc.thicknessLoop debug x y (n z).constituents (lit 0) <;> rfl

/-! ### Boundaries -/

instance : MeasurableSpace (Box ℝ) := MeasurableSpace.comap (fun b => (b.xmin, b.xmax, b.ymin, b.ymax)) inferInstance
theorem box_tuple : Measurable fun b : Box ℝ => (b.xmin, b.xmax, b.ymin, b.ymax) := comap_measurable _
theorem box_xmin : Measurable (Box.xmin : Box ℝ → ℝ) := measurable_fst.comp box_tuple
theorem box_xmax : Measurable (Box.xmax : Box ℝ → ℝ) := (measurable_fst.comp measurable_snd).comp box_tuple
theorem box_ymin : Measurable (Box.ymin : Box ℝ → ℝ) := (measurable_fst.comp (measurable_snd.comp measurable_snd)).comp box_tuple
theorem box_ymax : Measurable (Box.ymax : Box ℝ → ℝ) := (measurable_snd.comp (measurable_snd.comp measurable_snd)).comp box_tuple
theorem box_mk {a b c d : Z → ℝ} (ha : Measurable a) (hb : Measurable b) (hc : Measurable c) (hd : Measurable d) :
    Measurable fun z => (⟨a z, b z, c z, d z⟩ : Box ℝ) := measurable_comap_iff.mpr (ha.prodMk (hb.prodMk (hc.prodMk hd)))

theorem boundaryLoop_meas {l : Z → List (Constituent ℝ)} {b : Z → Box ℝ} (hl : Measurable l) (hb : Measurable b) :
    Measurable fun z => boundaryLoop (l z) (b z) := by
  have h := measurable_list_rec (Y := Box ℝ) (α := Constituent ℝ) (f := fun b l => boundaryLoop l b) measurable_id (fun n ih => by
    have hx : Measurable fun p : Box ℝ × Constituent ℝ × (Fin n → Constituent ℝ) => p.2.1.x := constituent_x.comp (by fun_prop)
    have hy : Measurable fun p : Box ℝ × Constituent ℝ × (Fin n → Constituent ℝ) => p.2.1.y := constituent_y.comp (by fun_prop)
    have h1 : Measurable fun p : Box ℝ × Constituent ℝ × (Fin n → Constituent ℝ) => (if lt p.2.1.x p.1.xmin then { p.1 with xmin := p.2.1.x }
             else if lt p.1.xmax p.2.1.x then { p.1 with xmax := p.2.1.x } else p.1 : Box ℝ) := by
      simp only [lt_real, decide_eq_true_eq]
      refine Measurable.ite (measurableSet_lt hx (box_xmin.comp measurable_fst))
        (box_mk hx (box_xmax.comp measurable_fst) (box_ymin.comp measurable_fst) (box_ymax.comp measurable_fst)) ?_
      exact Measurable.ite (measurableSet_lt (box_xmax.comp measurable_fst) hx)
        (box_mk (box_xmin.comp measurable_fst) hx (box_ymin.comp measurable_fst) (box_ymax.comp measurable_fst)) measurable_fst
    have h2 : Measurable fun p : Box ℝ × ℝ => (if lt p.2 p.1.ymin then { p.1 with ymin := p.2 }
             else if lt p.1.ymax p.2 then { p.1 with ymax := p.2 } else p.1 : Box ℝ) := by
      simp only [lt_real, decide_eq_true_eq]
      refine Measurable.ite (measurableSet_lt measurable_snd (box_ymin.comp measurable_fst))
        (box_mk (box_xmin.comp measurable_fst) (box_xmax.comp measurable_fst) measurable_snd (box_ymax.comp measurable_fst)) ?_
      exact Measurable.ite (measurableSet_lt (box_ymax.comp measurable_fst) measurable_snd)
        (box_mk (box_xmin.comp measurable_fst) (box_xmax.comp measurable_fst) (box_ymin.comp measurable_fst) measurable_snd) measurable_fst
    exact ih (h2.comp (h1.prodMk hy)) (measurable_snd.comp measurable_snd))
  exact h.comp (hb.prodMk hl)

theorem boundary_meas (nc : NucleonCommon ℝ) {n : Z → NucleonData ℝ} (hn : Measurable n) : Measurable fun z => nc.boundary (n z) := by
  have h : Measurable fun p : Unit × List (Constituent ℝ) => (match p.2 with
      | [] => .error (.ub "boundary of a nucleon without constituents")
      | c :: cs => .ok (let b := boundaryLoop cs ⟨c.x, c.x, c.y, c.y⟩
                        let r := sqrt nc.constituentRadiusSq
                        ⟨b.xmin - r, b.xmax + r, b.ymin - r, b.ymax + r⟩) : Res (Box ℝ)) := by
    refine measurable_list_cases measurable_const ?_
    refine measurable_ok.comp ?_
    have hx : Measurable fun p : Unit × Constituent ℝ × List (Constituent ℝ) => p.2.1.x := constituent_x.comp (by fun_prop)
    have hy : Measurable fun p : Unit × Constituent ℝ × List (Constituent ℝ) => p.2.1.y := constituent_y.comp (by fun_prop)
    have hb := boundaryLoop_meas (l := fun p : Unit × Constituent ℝ × List (Constituent ℝ) => p.2.2) (by fun_prop) (box_mk hx hx hy hy)
    exact box_mk ((box_xmin.comp hb).sub_const _) ((box_xmax.comp hb).add_const _) ((box_ymin.comp hb).sub_const _) ((box_ymax.comp hb).add_const _)
  refine measurable_of_eq (h.comp ((measurable_const (a := ())).prodMk (nucleon_cs.comp hn))) fun z => ?_
  unfold NucleonCommon.boundary
  simp only [Function.comp]
  cases (n z).constituents <;> rfl

/-! ### Grids -/

theorem addAt_meas {n : ℕ} (iy ix : ℤ) {g : Z → Grid ℝ n} {v : Z → ℝ} (hg : Measurable g) (hv : Measurable v) :
    Measurable fun z => (g z).addAt iy ix (v z) := by
  unfold Grid.addAt
  split
  · refine measurable_ok.comp ?_
    refine measurable_pi_iff.2 fun ky => measurable_pi_iff.2 fun kx => ?_
    have h1 : Measurable fun z => g z ky kx := (measurable_pi_apply kx).comp ((measurable_pi_apply ky).comp hg)
    split
    · exact h1.add hv
    · exact h1
  · exact measurable_const

theorem forRes_meas {ι S Y : Type} [MeasurableSpace S] [MeasurableSpace Y] {f : Y → ι → S → Res S} (hf : ∀ i, Measurable fun p : Y × S => f p.1 i p.2)
    (l : List ι) {y : Z → Y} {s : Z → S} (hy : Measurable y) (hs : Measurable s) : Measurable fun z => forRes (f (y z)) l (s z) := by
  have h : Measurable fun p : Y × S => forRes (f p.1) l p.2 := by
    induction l with
    | nil => exact measurable_ok.comp measurable_snd
    | cons i l ih =>
      have h1 := measurable_exBind (hf i) (g := fun p s => forRes (f p.1) l s) (ih.comp ((measurable_fst.comp measurable_fst).prodMk measurable_snd))
      refine measurable_of_eq h1 fun p => ?_
      rw [forRes]
      cases f p.1 i p.2 <;> rfl
  exact h.comp (hy.prodMk hs)

theorem depositCell_meas (c : EventCfg ℝ) (nc : NucleonCommon ℝ) (debug : Bool) {n : ℕ} (iy ix : ℤ) :
    Measurable fun p : NucleonData ℝ × Grid ℝ n => depositCell c nc debug p.1 iy ix p.2 := by
  have h1 := measurable_exBind (thickness_meas nc debug (c.center ix) (c.center iy) (n := fun p : NucleonData ℝ × Grid ℝ n => p.1) measurable_fst)
    (g := fun p t => p.2.addAt iy ix t) (addAt_meas iy ix (measurable_snd.comp measurable_fst) measurable_snd)
  refine measurable_of_eq h1 fun p => ?_
  unfold depositCell
  cases nc.thickness debug p.1 (c.center ix) (c.center iy) <;> rfl

theorem depositNucleon_meas (c : EventCfg ℝ) (nc : NucleonCommon ℝ) (debug : Bool) {n : ℕ} :
    Measurable fun p : NucleonData ℝ × Grid ℝ n => depositNucleon c nc debug p.1 p.2 := by
  have hidx : ∀ {f : Box ℝ → ℝ}, Measurable f → Measurable fun b => c.index (f b) := fun hf => castInt_meas ((hf.add_const _).div_const _)
  -- the loops
  have h5 : Measurable fun q : (NucleonData ℝ × Grid ℝ n) × ((ℤ × ℤ) × (ℤ × ℤ)) =>
      forRes (fun iy g => forRes (fun ix g => depositCell c nc debug q.1.1 iy ix g)
        (intRange (clip q.2.1.1 0 (c.nsteps - 1)) (clip q.2.1.2 0 (c.nsteps - 1))) g)
      (intRange (clip q.2.2.1 0 (c.nsteps - 1)) (clip q.2.2.2 0 (c.nsteps - 1))) q.1.2 := by
    refine measurable_countable_param (N := (ℤ × ℤ) × (ℤ × ℤ)) (k := fun q : (NucleonData ℝ × Grid ℝ n) × ((ℤ × ℤ) × (ℤ × ℤ)) => q.2)
      (f := fun k (q : (NucleonData ℝ × Grid ℝ n) × ((ℤ × ℤ) × (ℤ × ℤ))) =>
        forRes (fun iy g => forRes (fun ix g => depositCell c nc debug q.1.1 iy ix g)
          (intRange (clip k.1.1 0 (c.nsteps - 1)) (clip k.1.2 0 (c.nsteps - 1))) g)
        (intRange (clip k.2.1 0 (c.nsteps - 1)) (clip k.2.2 0 (c.nsteps - 1))) q.1.2) (fun k => ?_) measurable_snd
    refine forRes_meas (Y := NucleonData ℝ) (f := fun nucl iy g => forRes (fun ix g => depositCell c nc debug nucl iy ix g)
          (intRange (clip k.1.1 0 (c.nsteps - 1)) (clip k.1.2 0 (c.nsteps - 1))) g) (fun iy => ?_) _ (by fun_prop) (by fun_prop)
    exact forRes_meas (Y := NucleonData ℝ) (f := fun nucl ix g => depositCell c nc debug nucl iy ix g) (fun ix => depositCell_meas c nc debug iy ix) _
      measurable_fst measurable_snd
  -- the indices
  have h4 := measurable_exBind (Z := (NucleonData ℝ × Grid ℝ n) × (Box ℝ × (ℤ × ℤ) × ℤ)) (r := fun q => c.index q.2.1.ymax) (β := Grid ℝ n)
    (g := fun q iymax => (fun q : (NucleonData ℝ × Grid ℝ n) × ((ℤ × ℤ) × (ℤ × ℤ)) =>
      forRes (fun iy g => forRes (fun ix g => depositCell c nc debug q.1.1 iy ix g)
        (intRange (clip q.2.1.1 0 (c.nsteps - 1)) (clip q.2.1.2 0 (c.nsteps - 1))) g)
      (intRange (clip q.2.2.1 0 (c.nsteps - 1)) (clip q.2.2.2 0 (c.nsteps - 1))) q.1.2) (q.1, (q.2.2.1, (q.2.2.2, iymax))))
    ((hidx box_ymax).comp (by fun_prop)) (h5.comp (by fun_prop))
  have h3 := measurable_exBind' (Z := (NucleonData ℝ × Grid ℝ n) × (Box ℝ × (ℤ × ℤ))) (r := fun q => c.index q.2.1.ymin) (β := Grid ℝ n)
    ((hidx box_ymin).comp (by fun_prop))
    (h4.comp (f := fun q : ((NucleonData ℝ × Grid ℝ n) × (Box ℝ × (ℤ × ℤ))) × ℤ => (q.1.1, (q.1.2.1, q.1.2.2, q.2))) (by fun_prop))
  have h2 := measurable_exBind' (Z := (NucleonData ℝ × Grid ℝ n) × (Box ℝ × ℤ)) (r := fun q => c.index q.2.1.xmax) (β := Grid ℝ n)
    ((hidx box_xmax).comp (by fun_prop))
    (h3.comp (f := fun q : ((NucleonData ℝ × Grid ℝ n) × (Box ℝ × ℤ)) × ℤ => (q.1.1, (q.1.2.1, (q.1.2.2, q.2)))) (by fun_prop))
  have h1 := measurable_exBind' (Z := (NucleonData ℝ × Grid ℝ n) × Box ℝ) (r := fun q => c.index q.2.xmin) (β := Grid ℝ n)
    ((hidx box_xmin).comp (by fun_prop))
    (h2.comp (f := fun q : ((NucleonData ℝ × Grid ℝ n) × Box ℝ) × ℤ => (q.1.1, (q.1.2, q.2))) (by fun_prop))
  have h0 := measurable_exBind' (Z := NucleonData ℝ × Grid ℝ n) (r := fun q => nc.boundary q.1) (β := Grid ℝ n)
    (boundary_meas nc measurable_fst) h1
  refine measurable_of_eq h0 fun p => ?_
  unfold depositNucleon
  simp only [Function.comp]
  cases nc.boundary p.1 with
  | error e => rfl
  | ok b =>
    simp only [exElim, bind, Except.bind]
    cases c.index b.xmin with
    | error e => rfl
    | ok i1 =>
      simp only
      cases c.index b.xmax with
      | error e => rfl
      | ok i2 =>
        simp only
        cases c.index b.ymin with
        | error e => rfl
        | ok i3 =>
          simp only
          cases c.index b.ymax with
          | error e => rfl
          | ok i4 => rfl

theorem depositAll_meas (c : EventCfg ℝ) (nc : NucleonCommon ℝ) (debug : Bool) {n : ℕ} :
    Measurable fun p : (Grid ℝ n × ℕ) × List (NucleonData ℝ) => depositAll c nc debug p.2 p.1 := by
  refine measurable_list_rec (Y := Grid ℝ n × ℕ) (α := NucleonData ℝ) (f := fun s l => depositAll c nc debug l s) measurable_ok (fun m ih => ?_)
  have h1 := measurable_exBind ((depositNucleon_meas c nc debug (n := n)).comp
      (f := fun p : (Grid ℝ n × ℕ) × NucleonData ℝ × (Fin m → NucleonData ℝ) => (p.2.1, p.1.1)) (by fun_prop))
    (g := fun p g => depositAll c nc debug (List.ofFn p.2.2) (g, p.1.2 + 1))
    (ih (Z := ((Grid ℝ n × ℕ) × NucleonData ℝ × (Fin m → NucleonData ℝ)) × Grid ℝ n) (y := fun q => (q.2, q.1.1.2 + 1)) (v := fun q => q.1.2.2)
      (by fun_prop) (by fun_prop))
  have h2 := ih (Z := (Grid ℝ n × ℕ) × NucleonData ℝ × (Fin m → NucleonData ℝ)) (y := fun q => q.1) (v := fun q => q.2.2) (by fun_prop) (by fun_prop)
  have hc : Measurable fun p : (Grid ℝ n × ℕ) × NucleonData ℝ × (Fin m → NucleonData ℝ) => p.2.1.isParticipant :=
    nucleon_part.comp (measurable_fst.comp measurable_snd)
  refine measurable_of_eq (measurable_bite hc h1 h2) fun p => ?_
  obtain ⟨⟨g, k⟩, a, v⟩ := p
  rw [depositAll]
  simp only [Function.comp]
  split
  · cases depositNucleon c nc debug a g <;> rfl
  · rfl

/-! ### Reduced thickness and eccentricities -/

theorem genMean_meas (p : ℝ) {a b : Z → ℝ} (ha : Measurable a) (hb : Measurable b) : Measurable fun z => genMean p (a z) (b z) := by
  have hp : ∀ {a b : Z → ℝ}, Measurable a → Measurable b → Measurable fun z => positivePmean p (a z) (b z) := by
    intro a b ha hb
    simp only [positivePmean, pow_real]
    exact (((ha.pow_const p).add (hb.pow_const p)).const_mul _).pow_const _
  unfold genMean
  split
  · simp only [geometricMean, sqrt_real]
    exact (ha.mul hb).sqrt
  · split
    · exact hp ha hb
    · simp only [negativePmean, lt_real, Bool.or_eq_true, decide_eq_true_eq]
      exact Measurable.ite ((measurableSet_lt ha measurable_const).union (measurableSet_lt hb measurable_const)) measurable_const (hp ha hb)

/-- a fold over a fixed list with a measurable step -/
theorem foldl_meas {ι S Y : Type} [MeasurableSpace S] [MeasurableSpace Y] {f : Y → S → ι → S} (hf : ∀ i, Measurable fun p : Y × S => f p.1 p.2 i)
    (l : List ι) {y : Z → Y} {s : Z → S} (hy : Measurable y) (hs : Measurable s) : Measurable fun z => l.foldl (f (y z)) (s z) := by
  have h : Measurable fun p : Y × S => l.foldl (f p.1) p.2 := by
    induction l with
    | nil => exact measurable_snd
    | cons i l ih => exact ih.comp (measurable_fst.prodMk (hf i))
  exact h.comp (hy.prodMk hs)

theorem cell_meas {n : ℕ} {g : Z → Grid ℝ n} (hg : Measurable g) (ky kx : Fin n) : Measurable fun z => g z ky kx :=
  (measurable_pi_apply kx).comp ((measurable_pi_apply ky).comp hg)

instance {n : ℕ} : MeasurableSpace (RTState ℝ n) := MeasurableSpace.comap (fun s => (s.TR, s.sum, s.ixcm, s.iycm)) inferInstance
theorem rt_tuple {n : ℕ} : Measurable fun s : RTState ℝ n => (s.TR, s.sum, s.ixcm, s.iycm) := comap_measurable _
theorem rt_TR {n : ℕ} : Measurable (RTState.TR : RTState ℝ n → Grid ℝ n) := measurable_fst.comp rt_tuple
theorem rt_sum {n : ℕ} : Measurable (RTState.sum : RTState ℝ n → ℝ) := (measurable_fst.comp measurable_snd).comp rt_tuple
theorem rt_x {n : ℕ} : Measurable (RTState.ixcm : RTState ℝ n → ℝ) := (measurable_fst.comp (measurable_snd.comp measurable_snd)).comp rt_tuple
theorem rt_y {n : ℕ} : Measurable (RTState.iycm : RTState ℝ n → ℝ) := (measurable_snd.comp (measurable_snd.comp measurable_snd)).comp rt_tuple
theorem rt_mk {n : ℕ} {a : Z → Grid ℝ n} {b c d : Z → ℝ} (ha : Measurable a) (hb : Measurable b) (hc : Measurable c) (hd : Measurable d) :
    Measurable fun z => (⟨a z, b z, c z, d z⟩ : RTState ℝ n) := measurable_comap_iff.mpr (ha.prodMk (hb.prodMk (hc.prodMk hd)))

instance {n : ℕ} : MeasurableSpace (Event ℝ n) := MeasurableSpace.comap (fun e => (e.TA, e.TB, e.TR, (e.ixcm, e.iycm), e.npart, e.multiplicity,
  e.ecc.e2, e.ecc.e3, e.ecc.e4, e.ecc.e5)) inferInstance
theorem event_tuple {n : ℕ} : Measurable fun e : Event ℝ n => (e.TA, e.TB, e.TR, (e.ixcm, e.iycm), e.npart, e.multiplicity,
  e.ecc.e2, e.ecc.e3, e.ecc.e4, e.ecc.e5) := comap_measurable _
theorem event_TA {n : ℕ} : Measurable (Event.TA : Event ℝ n → Grid ℝ n) := measurable_fst.comp event_tuple
theorem event_TB {n : ℕ} : Measurable (Event.TB : Event ℝ n → Grid ℝ n) := (measurable_fst.comp measurable_snd).comp event_tuple
theorem event_TR {n : ℕ} : Measurable (Event.TR : Event ℝ n → Grid ℝ n) := (measurable_fst.comp (measurable_snd.comp measurable_snd)).comp event_tuple
theorem event_x {n : ℕ} : Measurable (Event.ixcm : Event ℝ n → ℝ) :=
  (measurable_fst.comp (measurable_fst.comp (measurable_snd.comp (measurable_snd.comp measurable_snd)))).comp event_tuple
theorem event_y {n : ℕ} : Measurable (Event.iycm : Event ℝ n → ℝ) :=
  (measurable_snd.comp (measurable_fst.comp (measurable_snd.comp (measurable_snd.comp measurable_snd)))).comp event_tuple
theorem event_npart {n : ℕ} : Measurable (Event.npart : Event ℝ n → ℕ) :=
  (measurable_fst.comp (measurable_snd.comp (measurable_snd.comp (measurable_snd.comp measurable_snd)))).comp event_tuple
theorem event_mult {n : ℕ} : Measurable (Event.multiplicity : Event ℝ n → ℝ) :=
  (measurable_fst.comp (measurable_snd.comp (measurable_snd.comp (measurable_snd.comp (measurable_snd.comp measurable_snd))))).comp event_tuple
theorem event_ecc {n : ℕ} : Measurable fun e : Event ℝ n => (e.ecc.e2, e.ecc.e3, e.ecc.e4, e.ecc.e5) :=
  (measurable_snd.comp (measurable_snd.comp (measurable_snd.comp (measurable_snd.comp (measurable_snd.comp measurable_snd))))).comp event_tuple
theorem event_mk {n : ℕ} {a b c : Z → Grid ℝ n} {x y m : Z → ℝ} {k : Z → ℕ} {e : Z → ℝ × ℝ × ℝ × ℝ} (ha : Measurable a) (hb : Measurable b) (hc : Measurable c)
    (hx : Measurable x) (hy : Measurable y) (hk : Measurable k) (hm : Measurable m) (he : Measurable e) :
    Measurable fun z => (⟨a z, b z, c z, x z, y z, k z, m z, ⟨(e z).1, (e z).2.1, (e z).2.2.1, (e z).2.2.2⟩⟩ : Event ℝ n) :=
  measurable_comap_iff.mpr (ha.prodMk (hb.prodMk (hc.prodMk ((hx.prodMk hy).prodMk (hk.prodMk (hm.prodMk he))))))

theorem rtStep_meas (c : EventCfg ℝ) {n : ℕ} (i : Fin n × Fin n) :
    Measurable fun p : (Grid ℝ n × Grid ℝ n) × RTState ℝ n => rtStep c p.1.1 p.1.2 p.2 i := by
  have ht : Measurable fun p : (Grid ℝ n × Grid ℝ n) × RTState ℝ n => c.norm * genMean c.p (p.1.1 i.1 i.2) (p.1.2 i.1 i.2) :=
    (genMean_meas c.p (cell_meas (by fun_prop) _ _) (cell_meas (by fun_prop) _ _)).const_mul _
  refine rt_mk ?_ ((rt_sum.comp measurable_snd).add ht) ((rt_x.comp measurable_snd).add (ht.mul_const _)) ((rt_y.comp measurable_snd).add (ht.mul_const _))
  refine measurable_pi_iff.2 fun ky => measurable_pi_iff.2 fun kx => ?_
  split
  · exact ht
  · exact cell_meas (rt_TR.comp measurable_snd) ky kx

theorem computeReducedThickness_meas (c : EventCfg ℝ) {n : ℕ} {e : Z → Event ℝ n} (he : Measurable e) :
    Measurable fun z => computeReducedThickness c (e z) := by
  have hs := foldl_meas (f := fun (g : Grid ℝ n × Grid ℝ n) s i => rtStep c g.1 g.2 s i) (rtStep_meas c) (cells n)
    (y := fun z => ((e z).TA, (e z).TB)) (s := fun z => (⟨(e z).TR, lit 0, lit 0, lit 0⟩ : RTState ℝ n))
    ((event_TA.comp he).prodMk (event_TB.comp he)) (rt_mk (event_TR.comp he) measurable_const measurable_const measurable_const)
  exact event_mk (event_TA.comp he) (event_TB.comp he) (rt_TR.comp hs) ((rt_x.comp hs).div (rt_sum.comp hs)) ((rt_y.comp hs).div (rt_sum.comp hs))
    (event_npart.comp he) ((rt_sum.comp hs).const_mul _) (event_ecc.comp he)

/-- the accumulators as a tuple -/
abbrev AccT := (ℝ × ℝ × ℝ) × (ℝ × ℝ × ℝ) × (ℝ × ℝ × ℝ) × (ℝ × ℝ × ℝ)

def EccAccs.tuple (a : EccAccs ℝ) : AccT :=
  ((a.e2.re, a.e2.im, a.e2.wt), (a.e3.re, a.e3.im, a.e3.wt), (a.e4.re, a.e4.im, a.e4.wt), (a.e5.re, a.e5.im, a.e5.wt))

instance : MeasurableSpace (EccAccs ℝ) := MeasurableSpace.comap EccAccs.tuple inferInstance
theorem acc_tuple : Measurable EccAccs.tuple := comap_measurable _

theorem obsStep_meas {n : ℕ} (i : Fin n × Fin n) :
    Measurable fun p : (Grid ℝ n × ℝ × ℝ) × EccAccs ℝ => obsStep p.1.1 p.1.2.1 p.1.2.2 p.2 i := by
  have ht : Measurable fun p : (Grid ℝ n × ℝ × ℝ) × EccAccs ℝ => p.1.1 i.1 i.2 := cell_meas (by fun_prop) _ _
  have hacc : Measurable fun p : (Grid ℝ n × ℝ × ℝ) × EccAccs ℝ => p.2.tuple := acc_tuple.comp measurable_snd
  have hF : Measurable fun p : (Grid ℝ n × ℝ × ℝ) × EccAccs ℝ => (p.1.1 i.1 i.2, p.1.2.1, p.1.2.2, p.2.tuple) := ht.prodMk (by fun_prop)
  unfold obsStep
  refine measurable_bite (by simp only [lt_real]; exact measurable_decide' (measurableSet_lt ht measurable_const)) measurable_snd ?_
  refine measurable_comap_iff.mpr ?_
  have hG : Measurable fun q : ℝ × ℝ × ℝ × AccT =>
      let t := q.1
      let x := ofInt i.2.val - q.2.1
      let x2 := x*x
      let x3 := x2*x
      let x4 := x2*x2
      let y := ofInt i.1.val - q.2.2.1
      let y2 := y*y
      let y3 := y2*y
      let y4 := y2*y2
      let r2 := x2 + y2
      let r := Real.sqrt r2
      let r4 := r2*r2
      let xy := x*y
      let x2y2 := x2*y2
      let s := q.2.2.2
      (((s.1.1 + t * (y2 - x2), s.1.2.1 + t * lit 2 * xy, s.1.2.2 + t * r2),
        (s.2.1.1 + t * (y3 - lit 3 * y * x2), s.2.1.2.1 + t * (lit 3 * x * y2 - x3), s.2.1.2.2 + t * r2 * r),
        (s.2.2.1.1 + t * (x4 + y4 - lit 6 * x2y2), s.2.2.1.2.1 + t * lit 4 * xy * (y2 - x2), s.2.2.1.2.2 + t * r4),
        (s.2.2.2.1 + t * y * (lit 5 * x4 - lit 10 * x2y2 + y4), s.2.2.2.2.1 + t * x * (x4 - lit 10 * x2y2 + lit 5 * y4), s.2.2.2.2.2 + t * r4 * r)) : AccT) := by
    dsimp only
    fun_prop
  exact hG.comp hF

theorem computeObservables_meas {n : ℕ} {e : Z → Event ℝ n} (he : Measurable e) : Measurable fun z => computeObservables (e z) := by
  have hs := foldl_meas (f := fun (g : Grid ℝ n × ℝ × ℝ) s i => obsStep g.1 g.2.1 g.2.2 s i) obsStep_meas (cells n)
    (y := fun z => ((e z).TR, (e z).ixcm, (e z).iycm)) (s := fun _ => EccAccs.zero)
    ((event_TR.comp he).prodMk ((event_x.comp he).prodMk (event_y.comp he))) measurable_const
  have hfin : Measurable fun q : AccT => (fun a b c => Real.sqrt (a * a + b * b) / max c (TINY : ℝ) : ℝ → ℝ → ℝ → ℝ) q.1.1 q.1.2.1 q.1.2.2 := by fun_prop
  have hfin4 : Measurable fun q : AccT =>
      (Real.sqrt (q.1.1 * q.1.1 + q.1.2.1 * q.1.2.1) / max q.1.2.2 (TINY : ℝ),
       Real.sqrt (q.2.1.1 * q.2.1.1 + q.2.1.2.1 * q.2.1.2.1) / max q.2.1.2.2 (TINY : ℝ),
       Real.sqrt (q.2.2.1.1 * q.2.2.1.1 + q.2.2.1.2.1 * q.2.2.1.2.1) / max q.2.2.1.2.2 (TINY : ℝ),
       Real.sqrt (q.2.2.2.1 * q.2.2.2.1 + q.2.2.2.2.1 * q.2.2.2.2.1) / max q.2.2.2.2.2 (TINY : ℝ)) := by fun_prop
  exact event_mk (event_TA.comp he) (event_TB.comp he) (event_TR.comp he) (event_x.comp he) (event_y.comp he) (event_npart.comp he) (event_mult.comp he)
    (hfin4.comp (acc_tuple.comp hs))

/-- **the event is a measurable function of the nucleons** -/
theorem compute_meas (c : EventCfg ℝ) (nc : NucleonCommon ℝ) (debug : Bool) {n : ℕ} (ev : Event ℝ n) {A B : Z → List (NucleonData ℝ)}
    (hA : Measurable A) (hB : Measurable B) : Measurable fun z => ev.compute c nc debug (A z) (B z) := by
  have hd := depositAll_meas c nc debug (n := n)
  have h2 : Measurable fun q : (Z × (Grid ℝ n × ℕ)) × (Grid ℝ n × ℕ) =>
      (.ok (computeObservables (computeReducedThickness c { ev with TA := q.1.2.1, TB := q.2.1, npart := q.2.2 })) : Res (Event ℝ n)) := by
    refine measurable_ok.comp (computeObservables_meas (computeReducedThickness_meas c ?_))
    exact event_mk (e := fun _ => (ev.ecc.e2, ev.ecc.e3, ev.ecc.e4, ev.ecc.e5)) (by fun_prop) (by fun_prop) measurable_const measurable_const measurable_const
      (by fun_prop) measurable_const measurable_const
  have h1 := measurable_exBind' (Z := Z × (Grid ℝ n × ℕ)) (r := fun q => depositAll c nc debug (B q.1) ((fun _ _ => lit 0 : Grid ℝ n), q.2.2))
    (hd.comp ((Measurable.prodMk measurable_const (by fun_prop)).prodMk (hB.comp measurable_fst))) h2
  have h0 := measurable_exBind' (r := fun z => depositAll c nc debug (A z) ((fun _ _ => lit 0 : Grid ℝ n), 0))
    (hd.comp (measurable_const.prodMk hA)) h1
  refine measurable_of_eq h0 fun z => ?_
  unfold Event.compute computeNuclearThickness
  dsimp only
  cases depositAll c nc debug (A z) ((fun _ _ => lit 0 : Grid ℝ n), 0) with
  | error e => rfl
  | ok t =>
    simp only [exElim]
    cases depositAll c nc debug (B z) ((fun _ _ => lit 0 : Grid ℝ n), t.2) <;> rfl

end Trento
