import Verif.Lemmas.WeightVariance
import Verif.Lemmas.NucleonDensity

/-!
# C106: how much the fluctuations change the thickness

The mean squared change of a nuclear thickness function by the random weights is `1/k` times a number that does not depend on the fluctuation parameter `k`.
-/

namespace Trento
open MeasureTheory Set Spec ProbabilityTheory
open scoped ENNReal

/-- The nucleons of the projectile (`true`) or of the target. -/
def Spec.nucleonsOf (side : Bool) (x : Collided) : List (NucleonData ℝ) := if side then x.2.2.1 else x.2.2.2

theorem nucleonsOf_meas (side : Bool) : Measurable (nucleonsOf side) := by
  unfold nucleonsOf
  cases side
  · simp only [Bool.false_eq_true, if_false]; fun_prop
  · simp only [if_true]; fun_prop

theorem nucleonsOf_set (side : Bool) (a j : ℕ) (f : ℝ) (x : Collided) : nucleonsOf side (setWeight (side, a, j) f x) = (nucleonsOf side x).modify a (NucleonData.reweigh j f) := by
  unfold nucleonsOf setWeight
  cases side <;> rfl

theorem nucleonsOf_unit (side : Bool) (x : Collided) : nucleonsOf side (unitWeights x) = (nucleonsOf side x).map NucleonData.unweigh := by
  unfold nucleonsOf unitWeights
  cases side <;> rfl

theorem unweigh_reweigh (j : ℕ) (f : ℝ) (n : NucleonData ℝ) : (n.reweigh j f).unweigh = n.unweigh := by
  unfold NucleonData.unweigh NucleonData.reweigh NucleonData.revise
  dsimp only
  congr 1
  refine List.ext_getElem (by simp) fun k h1 h2 => ?_
  simp only [List.getElem_map, List.getElem_modify]
  by_cases e : j = k <;> simp [e]

theorem unweigh_modify (l : List (NucleonData ℝ)) (a j : ℕ) (f : ℝ) : (l.modify a (NucleonData.reweigh j f)).map NucleonData.unweigh = l.map NucleonData.unweigh := by
  refine List.ext_getElem (by simp) fun k h1 h2 => ?_
  simp only [List.getElem_map, List.getElem_modify]
  by_cases e : a = k
  · rw [if_pos e, unweigh_reweigh]
  · rw [if_neg e]

/-! ### Measurability -/

theorem thicknessAt_meas (nc : NucleonCommon ℝ) (debug : Bool) (x y : ℝ) : Measurable fun n : NucleonData ℝ => thicknessAt nc debug n x y := by
  have h := thickness_meas nc debug x y (n := fun n : NucleonData ℝ => n) measurable_id
  have h2 := measurable_exElim (Z := NucleonData ℝ) (f := fun _ _ => (0:ℝ)) (g := fun _ t => t) h (by fun_prop) (by fun_prop)
  refine measurable_of_eq h2 fun n => ?_
  unfold thicknessAt
  cases nc.thickness debug n x y <;> rfl

theorem direct_meas (nc : NucleonCommon ℝ) (debug : Bool) (x y : ℝ) : Measurable fun l : List (NucleonData ℝ) => directThickness nc debug l x y := by
  have h1 : Measurable fun l : List (NucleonData ℝ) => l.foldl (fun s n => s + if n.isParticipant then thicknessAt nc debug n x y else 0) (0 : ℝ) :=
    Measurable.listFoldl (Y := Unit) (α := NucleonData ℝ) (β := ℝ) (g := fun _ s n => s + if n.isParticipant then thicknessAt nc debug n x y else 0) (y := fun _ => ()) (b := fun _ => 0) (l := id)
      ((measurable_fst.comp measurable_snd).add (measurable_bite (nucleon_part.comp (measurable_snd.comp measurable_snd)) ((thicknessAt_meas nc debug x y).comp (measurable_snd.comp measurable_snd)) measurable_const))
      measurable_const measurable_const measurable_id
  refine measurable_of_eq h1 fun l => ?_
  have : ∀ (l : List (NucleonData ℝ)) (s : ℝ), l.foldl (fun s n => s + if n.isParticipant then thicknessAt nc debug n x y else 0) s = s + directThickness nc debug l x y := by
    intro l
    unfold directThickness
    induction l with
    | nil => intro s; simp
    | cons n l ih =>
      intro s
      rw [List.foldl_cons, ih, List.filter_cons]
      by_cases hp : n.isParticipant = true
      · rw [if_pos hp, if_pos hp, List.map_cons, List.sum_cons]; ring
      · rw [if_neg hp, if_neg hp, add_zero]
  rw [this, zero_add]

theorem found_meas (rfuel : ℕ) (c : Collider ℝ) {A B : Nucleus ℝ} (hA : NucleusHistory Tape (LibDist ℝ) A) (hB : NucleusHistory Tape (LibDist ℝ) B) (n : ℕ) {f : Collided → ℝ≥0∞} (hf : Measurable f) :
    Measurable fun w : LibState => ifOk (c.sampleCollision rfuel n A B w) (fun t => f (collided t.1)) := by
  have hR := (renews_attempt C97_fresh.1 rfuel c A B).retry n
  have hm : Measurable fun w : LibState => ifOk (retry (attempt rfuel c A B) n w) (fun t => f t.1) :=
    measurable_ifOk (g := fun (_ : LibState) (t : Collided × LibState) => f t.1) (hR.meas.comp (f := fun w : LibState => ((), w)) (by fun_prop)) (hf.comp (measurable_fst.comp measurable_snd))
  refine measurable_of_eq hm fun w => ?_
  have := collisionLoop_attempts rfuel c A B hA hB n w
  unfold attempts at this
  rw [← this, ifOk_map]
  rfl

theorem ifOk_add {α : Type} (r : Res α) (f g : α → ℝ≥0∞) : ifOk r (fun t => f t + g t) = ifOk r f + ifOk r g := by
  cases r <;> simp [ifOk]

theorem ifOk_smul {α : Type} (r : Res α) (s : ℝ≥0∞) (f : α → ℝ≥0∞) : ifOk r (fun t => s * f t) = s * ifOk r f := by
  cases r <;> simp [ifOk]

theorem collisionMean_add (rfuel : ℕ) (c : Collider ℝ) {A B : Nucleus ℝ} (hA : NucleusHistory Tape (LibDist ℝ) A) (hB : NucleusHistory Tape (LibDist ℝ) B) (n : ℕ) {f : Collided → ℝ≥0∞} (hf : Measurable f)
    (g : Collided → ℝ≥0∞) (i : LibMix) :
    collisionMean (libMix i) rfuel c A B n (fun x => f x + g x) = collisionMean (libMix i) rfuel c A B n f + collisionMean (libMix i) rfuel c A B n g := by
  unfold collisionMean
  rw [← lintegral_add_left (found_meas rfuel c hA hB n hf)]
  exact lintegral_congr fun w => ifOk_add _ _ _

theorem collisionMean_smul (rfuel : ℕ) (c : Collider ℝ) {A B : Nucleus ℝ} (hA : NucleusHistory Tape (LibDist ℝ) A) (hB : NucleusHistory Tape (LibDist ℝ) B) (n : ℕ) {f : Collided → ℝ≥0∞} (hf : Measurable f)
    (s : ℝ≥0∞) (i : LibMix) :
    collisionMean (libMix i) rfuel c A B n (fun x => s * f x) = s * collisionMean (libMix i) rfuel c A B n f := by
  unfold collisionMean
  rw [← lintegral_const_mul s (found_meas rfuel c hA hB n hf)]
  exact lintegral_congr fun w => ifOk_smul _ _ _

theorem collisionMean_list (rfuel : ℕ) (c : Collider ℝ) {A B : Nucleus ℝ} (hA : NucleusHistory Tape (LibDist ℝ) A) (hB : NucleusHistory Tape (LibDist ℝ) B) (n : ℕ) {ι : Type} (L : List ι)
    {f : ι → Collided → ℝ≥0∞} (hf : ∀ i, Measurable (f i)) (i : LibMix) :
    (L.map fun p => collisionMean (libMix i) rfuel c A B n (f p)).sum = collisionMean (libMix i) rfuel c A B n fun x => (L.map fun p => f p x).sum := by
  induction L with
  | nil =>
    simp only [List.map_nil, List.sum_nil]
    unfold collisionMean
    have : ∀ w : LibState, ifOk (c.sampleCollision rfuel n A B w) (fun _ => (0:ℝ≥0∞)) = 0 := fun w => by cases c.sampleCollision rfuel n A B w <;> rfl
    simp only [this, lintegral_zero]
  | cons p L ih =>
    simp only [List.map_cons, List.sum_cons]
    rw [ih, collisionMean_add rfuel c hA hB n (hf p)]

theorem collisionMean_mono (rfuel : ℕ) (c : Collider ℝ) (A B : Nucleus ℝ) (n : ℕ) {f g : Collided → ℝ≥0∞} (i : LibMix)
    (h : ∀ (w : LibState) b m A' B' (w' : LibState), c.sampleCollision rfuel n A B w = .ok ((b, m, A', B'), w') → f (collided (b, m, A', B')) ≤ g (collided (b, m, A', B'))) :
    collisionMean (libMix i) rfuel c A B n f ≤ collisionMean (libMix i) rfuel c A B n g := by
  unfold collisionMean
  refine lintegral_mono fun w => ?_
  dsimp only
  cases hc : c.sampleCollision rfuel n A B w with
  | error e => exact le_rfl
  | ok t =>
    obtain ⟨⟨b, m, A', B'⟩, w'⟩ := t
    exact h _ _ _ _ _ _ hc

theorem collisionMean_const_le (rfuel : ℕ) (c : Collider ℝ) (A B : Nucleus ℝ) (n : ℕ) (s : ℝ≥0∞) (i : LibMix) : collisionMean (libMix i) rfuel c A B n (fun _ => s) ≤ s := by
  have hp := C97_fresh.1.prob i
  unfold collisionMean
  calc ∫⁻ w, ifOk (c.sampleCollision rfuel n A B w) (fun _ => s) ∂libMix i ≤ ∫⁻ _, s ∂libMix i := lintegral_mono fun w => by
        dsimp only
        cases c.sampleCollision rfuel n A B w <;> simp [ifOk]
    _ = s := by simp

/-! ### The squared deviation -/

/-- squared change of the thickness by the weights -/
noncomputable def sqDev (nc : NucleonCommon ℝ) (debug : Bool) (side : Bool) (X Y : ℝ) (x : Collided) : ℝ≥0∞ :=
  ENNReal.ofReal ((directThickness nc debug (nucleonsOf side x) X Y - directThickness nc debug ((nucleonsOf side x).map NucleonData.unweigh) X Y)^2)

theorem sqDev_meas (nc : NucleonCommon ℝ) (debug side : Bool) (X Y : ℝ) : Measurable (sqDev nc debug side X Y) := by
  have hd := direct_meas nc debug X Y
  have hn := nucleonsOf_meas side
  have hu : Measurable fun x : Collided => (nucleonsOf side x).map NucleonData.unweigh := measurable_of_eq (hn.comp unitWeights_meas) fun x => nucleonsOf_unit side x
  exact ((((hd.comp hn).sub (hd.comp hu)).pow_const 2)).ennreal_ofReal

theorem slope_meas (w v : ℝ) (m : ℕ) (σ : ℝ) (ncoll : Bool) (k : ℝ) (hv : 0 < v) (debug side : Bool) (X Y : ℝ) (a j : ℕ) :
    Measurable fun x : Collided => slope (NucleonCommon.make w v m σ ncoll k) debug X Y (nucleonsOf side x) a j := by
  have hd := direct_meas (NucleonCommon.make w v m σ ncoll k) debug X Y
  have hn := nucleonsOf_meas side
  have hs : ∀ f : ℝ, Measurable fun x : Collided => directThickness (NucleonCommon.make w v m σ ncoll k) debug (nucleonsOf side (setWeight (side, a, j) f x)) X Y :=
    fun f => hd.comp (hn.comp ((setWeight_meas (side, a, j)).comp (f := fun x : Collided => (f, x)) (by fun_prop)))
  refine measurable_of_eq ((hs 2).sub (hs 1)) fun x => ?_
  show directThickness _ _ (nucleonsOf side (setWeight (side, a, j) 2 x)) X Y - directThickness _ _ (nucleonsOf side (setWeight (side, a, j) 1 x)) X Y = _
  rw [nucleonsOf_set, nucleonsOf_set, direct_set w v m σ ncoll k hv]
  ring

theorem sqDev_gamma (w v : ℝ) (m : ℕ) (σ : ℝ) (ncoll : Bool) {k : ℝ} (hk : 0 < k) (hv : 0 < v) (debug side : Bool) (X Y : ℝ) (a j : ℕ) (x : Collided) :
    ∫⁻ f, sqDev (NucleonCommon.make w v m σ ncoll k) debug side X Y (setWeight (side, a, j) f x) ∂gammaMeasure k k =
      sqDev (NucleonCommon.make w v m σ ncoll k) debug side X Y (setWeight (side, a, j) 1 x) +
        ENNReal.ofReal (1 / k) * ENNReal.ofReal (slope (NucleonCommon.make w v m σ ncoll k) debug X Y (nucleonsOf side x) a j ^ 2) := by
  have hds := direct_set w v m σ ncoll k hv debug X Y (nucleonsOf side x) a j
  generalize NucleonCommon.make w v m σ ncoll k = nc at *
  unfold sqDev
  simp only [nucleonsOf_set, unweigh_modify]
  rw [← gamma_sq hk]
  refine lintegral_congr fun f => ?_
  rw [hds f]
  congr 2
  ring

theorem ones_set {q : Label} {Q : List Label} (h : q ∉ Q) (f : ℝ) (x : Collided) : ones Q (setWeight q f x) = setWeight q f (ones Q x) := by
  induction Q generalizing x with
  | nil => rfl
  | cons r Q ih =>
    rw [ones, ones, setWeight_comm (q := q) (r := r) (fun e => h (by simp [e])), ih fun hq => h (by simp [hq])]

theorem slope_set (nc : NucleonCommon ℝ) (debug side : Bool) (X Y : ℝ) (a j : ℕ) (q : Label) (f : ℝ) (x : Collided) :
    slope nc debug X Y (nucleonsOf side (setWeight q f x)) a j = slope nc debug X Y (nucleonsOf side x) a j := by
  obtain ⟨s, a', j'⟩ := q
  by_cases e : s = side
  · subst e
    rw [nucleonsOf_set, slope_modify]
  · have : nucleonsOf side (setWeight (s, a', j') f x) = nucleonsOf side x := by
      unfold nucleonsOf setWeight
      cases s <;> cases side <;> simp at e ⊢
    rw [this]

theorem slope_ones (nc : NucleonCommon ℝ) (debug side : Bool) (X Y : ℝ) (a j : ℕ) (Q : List Label) (x : Collided) :
    slope nc debug X Y (nucleonsOf side (ones Q x)) a j = slope nc debug X Y (nucleonsOf side x) a j := by
  induction Q generalizing x with
  | nil => rfl
  | cons q Q ih => rw [ones, ih, slope_set]

theorem sqDev_steps (o : Options ℝ) (sigma : ℝ) (hk : 0 < o.fluctuation) (hv : 0 < o.constitWidth) (hA : NucleusHistory Tape (LibDist ℝ) o.projectileA) (hB : NucleusHistory Tape (LibDist ℝ) o.projectileB)
    (rfuel n : ℕ) (debug side : Bool) (X Y : ℝ) (i : LibMix) {Q : List (ℕ × ℕ)} (hQ : Q.Nodup) :
    collisionMean (libMix i) rfuel (Collider.make o sigma) o.projectileA o.projectileB n (sqDev (Collider.make o sigma).nc debug side X Y) =
      collisionMean (libMix i) rfuel (Collider.make o sigma) o.projectileA o.projectileB n (fun x => sqDev (Collider.make o sigma).nc debug side X Y (ones (Q.map (Prod.mk side)) x)) +
        ENNReal.ofReal (1 / o.fluctuation) * (Q.map fun p => collisionMean (libMix i) rfuel (Collider.make o sigma) o.projectileA o.projectileB n
          (fun x => ENNReal.ofReal (slope (Collider.make o sigma).nc debug X Y (nucleonsOf side x) p.1 p.2 ^ 2))).sum := by
  have hm := sqDev_meas (Collider.make o sigma).nc debug side X Y
  induction Q with
  | nil => simp [ones]
  | cons p Q ih =>
    obtain ⟨hp, hQ'⟩ := List.nodup_cons.mp hQ
    obtain ⟨a, j⟩ := p
    rw [ih hQ', List.map_cons, List.map_cons, List.sum_cons, mul_add, ← add_assoc]
    congr 1
    rw [C105_weight o sigma hk hA hB rfuel n (F := fun x => sqDev (Collider.make o sigma).nc debug side X Y (ones (Q.map (Prod.mk side)) x)) (hm.comp (ones_meas _)) (side, a, j) i]
    have hs : Measurable fun x : Collided => ENNReal.ofReal (slope (Collider.make o sigma).nc debug X Y (nucleonsOf side x) a j ^ 2) :=
      ((slope_meas _ _ _ _ _ _ hv debug side X Y a j).pow_const 2).ennreal_ofReal
    have hm1 : Measurable fun x => sqDev (Collider.make o sigma).nc debug side X Y (ones ((side, a, j) :: Q.map (Prod.mk side)) x) := hm.comp (ones_meas _)
    rw [← collisionMean_smul rfuel _ hA hB n hs, ← collisionMean_add rfuel _ hA hB n hm1]
    congr 1
    funext x
    have hq : (side, a, j) ∉ Q.map (Prod.mk side) := by
      intro h
      obtain ⟨p, h1, h2⟩ := List.mem_map.mp h
      have : p = (a, j) := (Prod.mk.inj h2).2
      exact hp (this ▸ h1)
    simp only [ones, ones_set hq]
    have := sqDev_gamma o.nucleonWidth o.constitWidth o.constitNumber sigma (Collider.make o sigma).nc.calcNcoll hk hv debug side X Y a j (ones (Q.map (Prod.mk side)) x)
    rw [slope_ones] at this
    exact this

theorem sum_product {α β : Type} (l : List α) (l' : List β) (f : α × β → ℝ≥0∞) : ((l ×ˢ l').map f).sum = (l.map fun a => (l'.map fun b => f (a, b)).sum).sum := by
  induction l with
  | nil => simp
  | cons a l ih =>
    rw [List.product_cons, List.map_append, List.sum_append, ih, List.map_cons, List.sum_cons, List.map_map]
    rfl

theorem squares_unit (nc : NucleonCommon ℝ) (debug : Bool) (l : List (NucleonData ℝ)) (X Y : ℝ) : squares nc debug (l.map NucleonData.unweigh) X Y = squares nc debug l X Y := by
  unfold squares
  rw [List.filter_map, List.map_map]
  congr 1
  refine List.map_congr_left fun n _ => ?_
  simp only [Function.comp_def]
  show (List.map _ (n.constituents.map fun c => { c with fluctuation := 1 })).sum = _
  rw [List.map_map]
  rfl

theorem listSum_meas {ι : Type} (L : List ι) (f : ι → Collided → ℝ≥0∞) (hf : ∀ i, Measurable (f i)) : Measurable fun x => (L.map fun i => f i x).sum := by
  induction L with
  | nil => exact measurable_const
  | cons i L ih => simp only [List.map_cons, List.sum_cons]; exact (hf i).add ih

theorem slope_unit (nc : NucleonCommon ℝ) (debug : Bool) (X Y : ℝ) (l : List (NucleonData ℝ)) (a j : ℕ) : slope nc debug X Y (l.map NucleonData.unweigh) a j = slope nc debug X Y l a j := by
  unfold slope
  rw [List.getElem?_map]
  cases l[a]? with
  | none => rfl
  | some n =>
    dsimp only [Option.map]
    have p : (NucleonData.unweigh n).isParticipant = n.isParticipant := rfl
    have c : (NucleonData.unweigh n).constituents = n.constituents.map fun c => { c with fluctuation := 1 } := rfl
    rw [p, c, List.getElem?_map]
    cases n.constituents[j]? <;> rfl

theorem squares_meas (w v : ℝ) (m : ℕ) (σ : ℝ) (ncoll : Bool) (k : ℝ) (hv : 0 < v) (debug side : Bool) (X Y : ℝ) (N M : ℕ) :
    Measurable fun x : Collided => ((List.range N).map fun a => ((List.range M).map fun j => ENNReal.ofReal (slope (NucleonCommon.make w v m σ ncoll k) debug X Y (nucleonsOf side x) a j ^ 2)).sum).sum := by
  exact listSum_meas _ _ fun a => listSum_meas _ _ fun j => ((slope_meas w v m σ ncoll k hv debug side X Y a j).pow_const 2).ennreal_ofReal

theorem found_shape {c : Collider ℝ} {A B A' B' : Nucleus ℝ} (hA : NucleusHistory Tape (LibDist ℝ) A) (hB : NucleusHistory Tape (LibDist ℝ) B) {rfuel fuel : ℕ} {w w' : LibState} {b : ℝ} {m : ℕ}
    (h : c.sampleCollision rfuel fuel A B w = .ok ((b, m, A', B'), w')) (side : Bool) :
    (nucleonsOf side (collided (b, m, A', B'))).length = (if side then A else B).nucleons.length ∧ ∀ n ∈ nucleonsOf side (collided (b, m, A', B')), n.constituents.length ≤ c.nc.constituentNumber := by
  obtain ⟨-, -, l1, l2⟩ := collision_weights _ hA hB h
  have hl := (collided_weights _ hA hB h).2
  unfold nucleonsOf
  cases side
  · exact ⟨by simp [collided, l2], fun n hn => hl n (List.mem_append_right _ (by simpa using hn))⟩
  · exact ⟨by simp [collided, l1], fun n hn => hl n (List.mem_append_left _ (by simpa using hn))⟩

theorem squares_mean_meas (o : Options ℝ) (sigma : ℝ) (hv : 0 < o.constitWidth) (hA : NucleusHistory Tape (LibDist ℝ) o.projectileA) (hB : NucleusHistory Tape (LibDist ℝ) o.projectileB)
    (rfuel n : ℕ) (debug side : Bool) (X Y : ℝ) (i : LibMix) {N : ℕ} (hN : (if side then o.projectileA else o.projectileB).nucleons.length ≤ N) :
    collisionMean (libMix i) rfuel (Collider.make o sigma) o.projectileA o.projectileB n (fun x => squares (Collider.make o sigma).nc debug (nucleonsOf side x) X Y) =
      collisionMean (libMix i) rfuel (Collider.make o sigma) o.projectileA o.projectileB n (fun x =>
        ((List.range N).map fun a => ((List.range o.constitNumber).map fun j => ENNReal.ofReal (slope (Collider.make o sigma).nc debug X Y (nucleonsOf side x) a j ^ 2)).sum).sum) := by
  unfold collisionMean
  refine lintegral_congr fun w => ifOk_congr' fun t ht => ?_
  obtain ⟨⟨b, m, A', B'⟩, w'⟩ := t
  obtain ⟨hl, hc⟩ := found_shape hA hB ht side
  exact (squares_slope o.nucleonWidth o.constitWidth o.constitNumber sigma (Collider.make o sigma).nc.calcNcoll o.fluctuation hv debug X Y (hl.le.trans hN) hc).symm

/-- **C106, the size of the fluctuations.** With the library's distributions and an ideal engine, in the collisions found in at most `n` attempts, at any point: the mean squared difference between the
thickness of a nucleus and its thickness if all weights were 1 is `1/k` times the mean of the sum of the squared thicknesses of the single constituents, and that mean is the same for all
values of the fluctuation parameter `k`. -/
theorem C106_variance (o : Options ℝ) (sigma : ℝ) (hk : 0 < o.fluctuation) (hv : 0 < o.constitWidth) (hA : NucleusHistory Tape (LibDist ℝ) o.projectileA)
    (hB : NucleusHistory Tape (LibDist ℝ) o.projectileB) (rfuel n : ℕ) (debug side : Bool) (X Y : ℝ) (i : LibMix) :
    let mean : Options ℝ → (Collided → ℝ≥0∞) → ℝ≥0∞ := fun o => collisionMean (libMix i) rfuel (Collider.make o sigma) o.projectileA o.projectileB n
    let T : Options ℝ → Collided → ℝ := fun o x => directThickness (Collider.make o sigma).nc debug (nucleonsOf side x) X Y
    mean o (fun x => ENNReal.ofReal ((T o x - T o (unitWeights x))^2)) = ENNReal.ofReal (1 / o.fluctuation) * mean o (fun x => squares (Collider.make o sigma).nc debug (nucleonsOf side x) X Y) ∧
      ∀ k', 0 < k' → mean { o with fluctuation := k' } (fun x => squares (Collider.make { o with fluctuation := k' } sigma).nc debug (nucleonsOf side x) X Y) =
        mean o (fun x => squares (Collider.make o sigma).nc debug (nucleonsOf side x) X Y) := by
  intro mean T
  obtain ⟨N, hN⟩ : ∃ N, (if side then o.projectileA else o.projectileB).nucleons.length = N := ⟨_, rfl⟩
  have hQ : (List.range N ×ˢ List.range o.constitNumber).Nodup := List.Nodup.product List.nodup_range List.nodup_range
  refine ⟨?_, fun k' hk' => ?_⟩
  · have e1 := sqDev_steps o sigma hk hv hA hB rfuel n debug side X Y i hQ
    have e2 : collisionMean (libMix i) rfuel (Collider.make o sigma) o.projectileA o.projectileB n
        (fun x => sqDev (Collider.make o sigma).nc debug side X Y (ones ((List.range N ×ˢ List.range o.constitNumber).map (Prod.mk side)) x)) = 0 := by
      unfold collisionMean
      rw [← lintegral_zero (α := LibState) (μ := libMix i)]
      refine lintegral_congr fun w => ?_
      cases hc : (Collider.make o sigma).sampleCollision rfuel n o.projectileA o.projectileB w with
      | error e => rfl
      | ok t =>
        obtain ⟨⟨b, m, A', B'⟩, w'⟩ := t
        obtain ⟨hl, hcs⟩ := found_shape hA hB hc side
        show sqDev (Collider.make o sigma).nc debug side X Y (ones _ (collided (b, m, A', B'))) = 0
        have hun : nucleonsOf side (ones ((List.range N ×ˢ List.range o.constitNumber).map (Prod.mk side)) (collided (b, m, A', B'))) =
            (nucleonsOf side (collided (b, m, A', B'))).map NucleonData.unweigh := by
          rw [ones_eq]
          have all : ∀ a < (nucleonsOf side (collided (b, m, A', B'))).length, ∀ j < o.constitNumber, (side, a, j) ∈ (List.range N ×ˢ List.range o.constitNumber).map (Prod.mk side) := by
            intro a ha j hj
            exact List.mem_map.mpr ⟨(a, j), List.mem_product.mpr ⟨List.mem_range.mpr (by rw [← hN, ← hl]; exact ha), List.mem_range.mpr hj⟩, rfl⟩
          cases side
          · exact onList_all hcs all
          · exact onList_all hcs all
        unfold sqDev
        rw [hun, List.map_map]
        have : NucleonData.unweigh ∘ NucleonData.unweigh = NucleonData.unweigh := funext fun n => unweigh_unweigh n
        rw [this, sub_self]
        simp
    rw [e2, zero_add, sum_product] at e1
    refine Eq.trans ?_ (e1.trans ?_)
    · show collisionMean _ _ _ _ _ _ _ = _
      congr 1
      funext x
      show ENNReal.ofReal ((directThickness _ _ (nucleonsOf side x) X Y - directThickness _ _ (nucleonsOf side (unitWeights x)) X Y)^2) = _
      rw [nucleonsOf_unit]
      rfl
    · congr 1
      show _ = collisionMean _ _ _ _ _ _ _
      rw [squares_mean_meas o sigma hv hA hB rfuel n debug side X Y i hN.le]
      have hs : ∀ a j, Measurable fun x : Collided => ENNReal.ofReal (slope (Collider.make o sigma).nc debug X Y (nucleonsOf side x) a j ^ 2) := fun a j =>
        ((slope_meas _ _ _ _ _ _ hv debug side X Y a j).pow_const 2).ennreal_ofReal
      have in1 : ∀ a, ((List.range o.constitNumber).map fun j => collisionMean (libMix i) rfuel (Collider.make o sigma) o.projectileA o.projectileB n
          (fun x => ENNReal.ofReal (slope (Collider.make o sigma).nc debug X Y (nucleonsOf side x) a j ^ 2))).sum =
          collisionMean (libMix i) rfuel (Collider.make o sigma) o.projectileA o.projectileB n fun x =>
            ((List.range o.constitNumber).map fun j => ENNReal.ofReal (slope (Collider.make o sigma).nc debug X Y (nucleonsOf side x) a j ^ 2)).sum :=
        fun a => collisionMean_list rfuel _ hA hB n _ (fun j => hs a j) i
      simp only [in1]
      refine collisionMean_list rfuel _ hA hB n _ (fun a => ?_) i
      exact listSum_meas _ _ fun j => hs a j
  · have hsl : ∀ x : Collided, squares (Collider.make { o with fluctuation := k' } sigma).nc debug (nucleonsOf side x) X Y = squares (Collider.make o sigma).nc debug (nucleonsOf side x) X Y := by
      intro x
      unfold squares
      congr 1
    simp only [hsl]
    have eq1 := squares_mean_meas o sigma hv hA hB rfuel n debug side X Y i hN.le
    have inv : ∀ x : Collided, ∀ a j, slope (Collider.make o sigma).nc debug X Y (nucleonsOf side (unitWeights x)) a j = slope (Collider.make o sigma).nc debug X Y (nucleonsOf side x) a j := by
      intro x a j
      rw [nucleonsOf_unit, slope_unit]
    let G : Collided → ℝ≥0∞ := fun x => ((List.range N).map fun a => ((List.range o.constitNumber).map fun j => ENNReal.ofReal (slope (Collider.make o sigma).nc debug X Y (nucleonsOf side x) a j ^ 2)).sum).sum
    have hG : Measurable G := squares_meas _ _ _ _ _ _ hv debug side X Y _ _
    have hGu : ∀ x, G (unitWeights x) = G x := fun x => by simp only [G, inv]
    have hpos := C105_positions o sigma hk hA hB hk' rfuel n hG i
    simp only [hGu] at hpos
    refine Eq.trans ?_ (hpos.trans eq1.symm)
    have eq2 := squares_mean_meas { o with fluctuation := k' } sigma hv hA hB rfuel n debug side X Y i (N := N) hN.le
    simp only [hsl] at eq2
    refine eq2.trans ?_
    show collisionMean _ _ _ _ _ _ _ = collisionMean _ _ _ _ _ _ _
    congr 1

end Trento
