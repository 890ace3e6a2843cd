import Verif.Lemmas.Special
import Verif.Props.Observables
import Verif.Props.Collider

/-! # Embedding the real model into reals with special values: constituents, pairs, events -/

namespace Trento
open XReal
variable {E D : Type}

/-- The constants by which a nucleon computation divides are not zero, and those of which it takes a root are not negative. -/
structure NucleonCommon.Regular (nc : NucleonCommon ℝ) : Prop where
  number : nc.constituentNumber ≠ 0
  widthSq : nc.constituentWidthSq ≠ 0
  radiusSq : 0 ≤ nc.constituentRadiusSq
  dx : nc.fastExp.dx ≠ 0

theorem fin_calcSamplingWidth {w v : ℝ} {m : ℤ} (hv : 0 ≤ v) (hm : m ≠ 0) :
    calcSamplingWidth (fin w) (fin v) m = fin (calcSamplingWidth w v m) := by
  unfold calcSamplingWidth
  simp only [fin_sub, fin_lit, fin_lt, fin_sqr, fin_ofInt]
  split
  · rfl
  · rename_i h
    simp only [Bool.or_eq_true, decide_eq_true_eq, lt_real, lit_real, not_or, not_lt] at h
    have h1 : (ofInt m : ℝ) ≠ 0 := by simpa using hm
    have h2 : (lit 1 - lit 1 / ofInt m : ℝ) ≠ 0 := by
      simp only [lit_real, ofInt_real]
      intro h3
      rw [sub_eq_zero, eq_comm] at h3
      push_cast at h3
      rw [div_eq_one_iff_eq (by exact_mod_cast hm)] at h3
      exact h.1 (by exact_mod_cast h3.symm)
    rw [fin_div _ h1, fin_sub, fin_div _ h2, fin_sqrt]
    simp only [lit_real, ofInt_real, sqr_real]
    push_cast
    have h4 : v ≤ w := by have := h.2; norm_num at this; linarith
    apply div_nonneg
    · nlinarith
    · rw [sub_nonneg]
      rcases lt_or_gt_of_ne hm with h5 | h5
      · have : (m:ℝ) < 0 := by exact_mod_cast h5
        exact (div_nonpos_of_nonneg_of_nonpos zero_le_one this.le).trans zero_le_one
      · have : (1:ℝ) ≤ m := by exact_mod_cast h5
        rw [div_le_one (by linarith)]; exact this

theorem fin_FastExp_make (a b : ℝ) (k : ℕ) (hk : 2 ≤ k) : FastExp.make (fin a) (fin b) k = (FastExp.make a b k).map fin := by
  have h0 : k ≠ 0 := by omega
  have h1 : (ofInt ((k - 1 : ℕ) : ℤ) : ℝ) ≠ 0 := by
    simp only [ofInt_real]
    have : ((k - 1 : ℕ) : ℤ) ≠ 0 := by omega
    exact_mod_cast this
  unfold FastExp.make FastExp.map
  simp only [if_neg h0, fin_sub, fin_ofInt, fin_div _ h1, fin_mul, fin_add, fin_exp, List.map_map]
  rfl

theorem fin_NucleonCommon_make {w v : ℝ} {m : ℕ} (sigma : ℝ) (ncoll : Bool) {k : ℝ} (hv : 0 < v) (hm : m ≠ 0) (hk : k ≠ 0) :
    NucleonCommon.make (fin w) (fin v) m (fin sigma) ncoll (fin k) = (NucleonCommon.make w v m sigma ncoll k).map fin := by
  have h1 : sqr v ≠ 0 := by simp only [sqr_real]; positivity
  have h2 : (ofInt (m:ℤ) : ℝ) ≠ 0 := by simpa using hm
  unfold NucleonCommon.make NucleonCommon.map
  have e1 : (-(lit 0.5) * sqr maxRadiusWidths : XReal) = fin (-(lit 0.5) * sqr maxRadiusWidths) := rfl
  have e2 : sqr (maxImpactWidths * fin w) = fin (sqr (maxImpactWidths * w)) := rfl
  have e3 : sqr (maxRadiusWidths * fin v) = fin (sqr (maxRadiusWidths * v)) := rfl
  rw [e1, fin_lit, fin_FastExp_make _ _ _ (by norm_num : 2 ≤ 1000)]
  simp only [e2, e3, fin_lit, fin_calcSamplingWidth hv.le (by exact_mod_cast hm : (m:ℤ) ≠ 0),
    fin_sqr, fin_oneDivTwoPi, fin_ofInt, fin_div _ h1, fin_div _ h2, fin_div _ hk]

theorem make_regular {w v : ℝ} {m : ℕ} (sigma : ℝ) (ncoll : Bool) (k : ℝ) (hv : 0 < v) (hm : m ≠ 0) :
    (NucleonCommon.make w v m sigma ncoll k).Regular := by
  refine ⟨hm, ?_, ?_, ?_⟩
  · simp only [NucleonCommon.make, sqr_real]; positivity
  · simp only [NucleonCommon.make, sqr_real]; positivity
  · simp only [NucleonCommon.make, FastExp.make, maxRadiusWidths, sqr_real, lit_real, ofInt_real]; norm_num

theorem fin_boundaryLoop (cs : List (Constituent ℝ)) (b : Box ℝ) :
    boundaryLoop (cs.map (Constituent.map fin)) (b.map fin) = (boundaryLoop cs b).map fin := by
  induction cs generalizing b with
  | nil => rfl
  | cons c cs ih =>
    simp only [List.map_cons, boundaryLoop]
    rw [← ih]
    congr 1
    simp only [Constituent.map, Box.map, fin_lt]
    by_cases h1 : lt c.x b.xmin = true
    · simp only [h1, if_true, fin_lt]
      split_ifs <;> rfl
    · by_cases h2 : lt b.xmax c.x = true
      · simp only [h1, h2, if_true, fin_lt, Bool.false_eq_true, if_false]
        split_ifs <;> rfl
      · simp only [h1, h2, fin_lt, Bool.false_eq_true, if_false]
        split_ifs <;> rfl

theorem fin_boundary {nc : NucleonCommon ℝ} (hr : 0 ≤ nc.constituentRadiusSq) (n : NucleonData ℝ) :
    (nc.map fin).boundary (finN n) = (nc.boundary n).map (Box.map fin) := by
  obtain ⟨x, y, z, p, e, cs⟩ := n
  cases cs with
  | nil => rfl
  | cons c cs =>
    have e1 : (nc.map fin).constituentRadiusSq = fin nc.constituentRadiusSq := rfl
    have := fin_boundaryLoop cs ⟨c.x, c.x, c.y, c.y⟩
    simp only [NucleonCommon.boundary, NucleonData.map, List.map_cons, e1, fin_sqrt hr, Except.map]
    have e2 : boundaryLoop (cs.map (Constituent.map fin)) ⟨(c.map fin).x, (c.map fin).x, (c.map fin).y, (c.map fin).y⟩ =
      (boundaryLoop cs ⟨c.x, c.x, c.y, c.y⟩).map fin := this
    simp only [e2]
    simp [Box.map]

theorem fin_eval {fe : FastExp ℝ} (h : fe.dx ≠ 0) (debug : Bool) (x : ℝ) : (fe.map fin).eval debug (fin x) = (fe.eval debug x).map fin := by
  unfold FastExp.eval
  simp only [FastExp.map, fin_lt, fin_sub, fin_div _ h, fin_lit, fin_add, fin_castSize, List.getElem?_map, fin_ofInt, fin_mul]
  split
  · rfl
  · cases castSize ((x - fe.xmin) / fe.dx + lit 0.5) with
    | error e => rfl
    | ok i =>
      simp only
      cases fe.table[i]? with
      | none => rfl
      | some t => simp [Except.map]

theorem fin_thicknessLoop {nc : NucleonCommon ℝ} (hn : nc.Regular) (debug : Bool) (x y : ℝ) (cs : List (Constituent ℝ)) (t : ℝ) :
    (nc.map fin).thicknessLoop debug (fin x) (fin y) (cs.map (Constituent.map fin)) (fin t) = (nc.thicknessLoop debug x y cs t).map fin := by
  induction cs generalizing t with
  | nil => rfl
  | cons c cs ih =>
    simp only [List.map_cons, NucleonCommon.thicknessLoop, Constituent.map, NucleonCommon.map, fin_sub, fin_sqr, fin_add, fin_lt,
      fin_lit, fin_neg, fin_mul, fin_div _ hn.widthSq, fin_eval hn.dx]
    split
    · cases nc.fastExp.eval debug (-(lit 0.5) * (sqr (x - c.x) + sqr (y - c.y)) / nc.constituentWidthSq) with
      | error e => rfl
      | ok ex => exact ih _
    · exact ih _

theorem fin_thickness {nc : NucleonCommon ℝ} (hn : nc.Regular) (debug : Bool) (n : NucleonData ℝ) (x y : ℝ) :
    (nc.map fin).thickness debug (finN n) (fin x) (fin y) = (nc.thickness debug n x y).map fin := by
  unfold NucleonCommon.thickness
  have := fin_thicknessLoop hn debug x y n.constituents (lit 0)
  rw [fin_lit]
  simp only [NucleonData.map, this]
  cases nc.thicknessLoop debug x y n.constituents (lit 0) with
  | error e => rfl
  | ok t => rfl

section rng
variable [Rng ℝ E D]

theorem fin_drawConstituents (nc : NucleonCommon ℝ) (k : ℕ) (xc yc : ℝ) (w : Rand E D) :
    drawConstituents (nc.map fin) k (fin xc) (fin yc) w =
      (((drawConstituents nc k xc yc w).1.1.map (Constituent.map fin), fin (drawConstituents nc k xc yc w).1.2.1,
        fin (drawConstituents nc k xc yc w).1.2.2), (drawConstituents nc k xc yc w).2) := by
  induction k generalizing xc yc w with
  | zero => rfl
  | succ k ih =>
    have e1 : (nc.map fin).samplingWidth = fin nc.samplingWidth := rfl
    have e2 : (nc.map fin).gammaAlpha = fin nc.gammaAlpha := rfl
    have e3 : (nc.map fin).gammaBeta = fin nc.gammaBeta := rfl
    simp only [drawConstituents, e1, e2, e3, fin_lit, fin_drawNormal, fin_drawGamma, fin_add, ih, List.map_cons]
    rfl

theorem fin_sampleConstituents {nc : NucleonCommon ℝ} (hm : nc.constituentNumber ≠ 0) (n : NucleonData ℝ) (w : Rand E D) :
    (nc.map fin).sampleConstituents (finN n) w = (finN (nc.sampleConstituents n w).1, (nc.sampleConstituents n w).2) := by
  have h2 : (ofInt (nc.constituentNumber:ℤ) : ℝ) ≠ 0 := by simpa using hm
  unfold NucleonCommon.sampleConstituents
  have e1 : (nc.map fin).constituentNumber = nc.constituentNumber := rfl
  have e2 : (finN n).constituentsExist = n.constituentsExist := rfl
  simp only [e1, e2]
  split
  · rfl
  · rw [fin_lit, fin_drawConstituents]
    simp only [fin_ofInt, fin_div _ h2, NucleonData.map, fin_sub]
    simp only [List.map_map]
    congr 2

theorem fin_overlapSum {v2 : ℝ} (hv : v2 ≠ 0) (as bs : List (Constituent ℝ)) :
    overlapSum (fin v2) (as.map (Constituent.map fin)) (bs.map (Constituent.map fin)) = fin (overlapSum v2 as bs) := by
  have inner : ∀ (q : Constituent ℝ) (bs : List (Constituent ℝ)) (acc : ℝ),
      (bs.map (Constituent.map fin)).foldl (init := fin acc) (fun acc qB =>
        acc + exp (-(lit 0.25) * (sqr ((q.map fin).x - qB.x) + sqr ((q.map fin).y - qB.y)) / fin v2)) =
      fin (bs.foldl (init := acc) fun acc qB => acc + exp (-(lit 0.25) * (sqr (q.x - qB.x) + sqr (q.y - qB.y)) / v2)) := by
    intro q bs
    induction bs with
    | nil => intro acc; rfl
    | cons b bs ih =>
      intro acc
      simp only [List.map_cons, List.foldl_cons]
      rw [← ih]
      simp only [Constituent.map, fin_sub, fin_sqr, fin_add, fin_lit, fin_neg, fin_mul, fin_div _ hv, fin_exp]
  have outer : ∀ (as : List (Constituent ℝ)) (acc : ℝ),
      (as.map (Constituent.map fin)).foldl (init := fin acc) (fun acc qA =>
        (bs.map (Constituent.map fin)).foldl (init := acc) (fun acc qB =>
          acc + exp (-(lit 0.25) * (sqr (qA.x - qB.x) + sqr (qA.y - qB.y)) / fin v2))) =
      fin (as.foldl (init := acc) fun acc qA => bs.foldl (init := acc) fun acc qB =>
        acc + exp (-(lit 0.25) * (sqr (qA.x - qB.x) + sqr (qA.y - qB.y)) / v2)) := by
    intro as
    induction as with
    | nil => intro acc; rfl
    | cons a as ih =>
      intro acc
      simp only [List.map_cons, List.foldl_cons]
      rw [inner, ih]
  exact outer as _

theorem fin_oneMinusProb {nc : NucleonCommon ℝ} (hm : nc.constituentNumber ≠ 0) (t : ℝ) :
    (nc.map fin).oneMinusProb (fin t) = fin (nc.oneMinusProb t) := by
  have h2 : (lit 2 * ofInt (nc.constituentNumber:ℤ) : ℝ) ≠ 0 := by simpa using hm
  simp only [NucleonCommon.oneMinusProb, NucleonCommon.map, fin_neg, fin_mul, fin_lit, fin_ofInt, fin_div _ h2, fin_exp]

theorem fin_participate {nc : NucleonCommon ℝ} (hn : nc.Regular) (A B : NucleonData ℝ) (w : Rand E D) :
    (nc.map fin).participate (finN A) (finN B) w =
      (((nc.participate A B w).1.1, finN (nc.participate A B w).1.2.1, finN (nc.participate A B w).1.2.2), (nc.participate A B w).2) := by
  have hs : ∀ n : NucleonData ℝ, (finN n).setParticipant = finN n.setParticipant := by
    intro n
    unfold NucleonData.setParticipant
    have : (finN n).isParticipant = n.isParticipant := rfl
    rw [this]
    split <;> rfl
  have hov : ∀ A B : NucleonData ℝ, overlapSum (fin nc.constituentWidthSq) (finN A).constituents (finN B).constituents =
      fin (overlapSum nc.constituentWidthSq A.constituents B.constituents) := fun A B => fin_overlapSum hn.widthSq _ _
  unfold NucleonCommon.participate
  have e1 : (finN A).isParticipant = A.isParticipant := rfl
  have e2 : (finN B).isParticipant = B.isParticipant := rfl
  have e3 : (nc.map fin).calcNcoll = nc.calcNcoll := rfl
  have e4 : (nc.map fin).maxImpactSq = fin nc.maxImpactSq := rfl
  have e5 : (nc.map fin).constituentWidthSq = fin nc.constituentWidthSq := rfl
  have e6 : sqr ((finN A).x - (finN B).x) + sqr ((finN A).y - (finN B).y) = fin (sqr (A.x - B.x) + sqr (A.y - B.y)) := by
    show sqr (fin A.x - fin B.x) + sqr (fin A.y - fin B.y) = _
    simp only [fin_sub, fin_sqr, fin_add]
  simp only [e1, e2, e3, e4, e5, e6, fin_lt, fin_sampleConstituents hn.number, hov, fin_oneMinusProb hn.number, fin_canonical]
  split
  · rfl
  · split
    · rfl
    · split
      · simp only [hs]
      · rfl

theorem fin_pairRow {nc : NucleonCommon ℝ} (hn : nc.Regular) (cn : Bool) (A : NucleonData ℝ) (Bs : List (NucleonData ℝ)) (k : ℕ) (c : Bool)
    (w : Rand E D) : pairRow (nc.map fin) cn (finN A) (finNs Bs) k c w =
      ((finN (pairRow nc cn A Bs k c w).1.1, finNs (pairRow nc cn A Bs k c w).1.2.1, (pairRow nc cn A Bs k c w).1.2.2),
        (pairRow nc cn A Bs k c w).2) := by
  induction Bs generalizing A k c w with
  | nil => rfl
  | cons B Bs ih => simp only [List.map_cons, pairRow, fin_participate hn, ih]

theorem fin_pairLoop {nc : NucleonCommon ℝ} (hn : nc.Regular) (cn : Bool) (As Bs : List (NucleonData ℝ)) (k : ℕ) (c : Bool)
    (w : Rand E D) : pairLoop (nc.map fin) cn (finNs As) (finNs Bs) k c w =
      ((finNs (pairLoop nc cn As Bs k c w).1.1, finNs (pairLoop nc cn As Bs k c w).1.2.1, (pairLoop nc cn As Bs k c w).1.2.2),
        (pairLoop nc cn As Bs k c w).2) := by
  induction As generalizing Bs k c w with
  | nil => rfl
  | cons A As ih => simp only [List.map_cons, pairLoop, fin_pairRow hn, ih]

end rng

/-! ## Events -/

theorem fin_addAt {n : ℕ} (g : Grid ℝ n) (iy ix : ℤ) (v : ℝ) : (g.map fin).addAt iy ix (fin v) = (g.addAt iy ix v).map (Grid.map fin) := by
  unfold Grid.addAt
  split
  · simp only [Except.map]
    congr 1
    funext ky kx
    simp only [Grid.map, fin_add]
    split <;> rfl
  · rfl

theorem fin_forRes {ι S T : Type} (f : S → T) (g : ι → S → Res S) (g' : ι → T → Res T) (h : ∀ i s, g' i (f s) = (g i s).map f)
    (l : List ι) (s : S) : forRes g' l (f s) = (forRes g l s).map f := by
  induction l generalizing s with
  | nil => rfl
  | cons i l ih =>
    simp only [forRes, h]
    cases g i s with
    | error e => rfl
    | ok s => exact ih s

theorem fin_center (c : EventCfg ℝ) (i : ℤ) : (c.map fin).center i = fin (c.center i) := by
  simp [EventCfg.center, EventCfg.map]

theorem fin_index {c : EventCfg ℝ} (hd : c.dxy ≠ 0) (v : ℝ) : (c.map fin).index (fin v) = c.index v := by
  simp only [EventCfg.index, EventCfg.map, fin_add, fin_div _ hd, fin_castInt]

theorem fin_depositCell (c : EventCfg ℝ) {nc : NucleonCommon ℝ} (hn : nc.Regular) (debug : Bool) {n : ℕ} (nu : NucleonData ℝ)
    (iy ix : ℤ) (g : Grid ℝ n) : depositCell (c.map fin) (nc.map fin) debug (finN nu) iy ix (g.map fin) =
      (depositCell c nc debug nu iy ix g).map (Grid.map fin) := by
  unfold depositCell
  rw [fin_center, fin_center, fin_thickness hn]
  cases nc.thickness debug nu (c.center ix) (c.center iy) with
  | error e => rfl
  | ok t => exact fin_addAt g iy ix t

theorem fin_depositNucleon {c : EventCfg ℝ} (hd : c.dxy ≠ 0) {nc : NucleonCommon ℝ} (hn : nc.Regular) (debug : Bool) {n : ℕ} (nu : NucleonData ℝ)
    (g : Grid ℝ n) : depositNucleon (c.map fin) (nc.map fin) debug (finN nu) (g.map fin) =
      (depositNucleon c nc debug nu g).map (Grid.map fin) := by
  unfold depositNucleon
  rw [fin_boundary hn.radiusSq]
  cases nc.boundary nu with
  | error e => rfl
  | ok b =>
    simp only [bind, Except.bind, Except.map, Box.map, fin_index hd]
    cases c.index b.xmin with
    | error e => rfl
    | ok i1 =>
    cases c.index b.xmax with
    | error e => rfl
    | ok i2 =>
    cases c.index b.ymin with
    | error e => rfl
    | ok i3 =>
    cases c.index b.ymax with
    | error e => rfl
    | ok i4 =>
    simp only
    exact fin_forRes _ _ _ (fun iy g => fin_forRes _ _ _ (fun ix g => fin_depositCell c hn debug nu iy ix g) _ g) _ g

theorem fin_depositAll {c : EventCfg ℝ} (hd : c.dxy ≠ 0) {nc : NucleonCommon ℝ} (hn : nc.Regular) (debug : Bool) {n : ℕ}
    (ns : List (NucleonData ℝ)) (g : Grid ℝ n) (k : ℕ) :
    depositAll (c.map fin) (nc.map fin) debug (finNs ns) (g.map fin, k) =
      (depositAll c nc debug ns (g, k)).map fun p => (p.1.map fin, p.2) := by
  induction ns generalizing g k with
  | nil => rfl
  | cons nu ns ih =>
    have e1 : (finN nu).isParticipant = nu.isParticipant := rfl
    simp only [List.map_cons, depositAll, e1, fin_depositNucleon hd hn]
    split
    · cases depositNucleon c nc debug nu g with
      | error e => rfl
      | ok g => exact ih g _
    · exact ih g _

theorem fin_genMean {p a b : ℝ} (ha : 0 ≤ a) (hb : 0 ≤ b) : genMean (fin p) (fin a) (fin b) = fin (genMean p a b) := by
  have c1 : lt (fabs (fin p)) (TINY : XReal) = lt (fabs p) TINY := rfl
  have c2 : lt (lit 0) (fin p) = lt (lit 0) p := rfl
  by_cases hp : lt (fabs p) TINY = true
  · have e1 : genMean (fin p) = geometricMean := by unfold genMean; rw [if_pos (c1.trans hp)]
    have e2 : genMean p = geometricMean := by unfold genMean; rw [if_pos hp]
    rw [e1, e2]
    simp only [geometricMean, fin_mul]
    exact fin_sqrt (mul_nonneg ha hb)
  · have hp' : ¬ lt (fabs (fin p)) (TINY : XReal) = true := by rw [c1]; exact hp
    have hp0 : p ≠ 0 := by
      rintro rfl
      apply hp
      simp [TINY_real]
      norm_num
    by_cases h : lt (lit 0) p = true
    · have e1 : genMean (fin p) = positivePmean (fin p) := by unfold genMean; rw [if_neg hp', if_pos (c2.trans h)]
      have e2 : genMean p = positivePmean p := by unfold genMean; rw [if_neg hp, if_pos h]
      rw [e1, e2]
      have hp1 : 0 < p := by simpa using h
      unfold positivePmean
      have h1 : (0:ℝ) < lit 1 / p := by simp only [lit_real]; push_cast; positivity
      simp only [fin_lit]
      rw [fin_pow_nonneg ha hp1, fin_pow_nonneg hb hp1, fin_add, fin_mul, fin_div _ hp0, fin_pow_nonneg _ h1]
      simp only [lit_real, pow_real]
      have := Real.rpow_nonneg ha p
      have := Real.rpow_nonneg hb p
      push_cast; positivity
    · have h' : ¬ lt (lit 0) (fin p) = true := by rw [c2]; exact h
      have e1 : genMean (fin p) = negativePmean (fin p) := by unfold genMean; rw [if_neg hp', if_neg h']
      have e2 : genMean p = negativePmean p := by unfold genMean; rw [if_neg hp, if_neg h]
      rw [e1, e2]
      unfold negativePmean
      have c3 : (lt (fin a) (TINY : XReal) || lt (fin b) (TINY : XReal)) = (lt a TINY || lt b TINY) := rfl
      by_cases h3 : (lt a TINY || lt b TINY) = true
      · rw [if_pos (c3.trans h3), if_pos h3]; rfl
      · rw [if_neg (by rw [c3]; exact h3), if_neg h3]
        simp only [Bool.or_eq_true, lt_real, TINY_real, decide_eq_true_eq, not_or, not_lt] at h3
        have ha' : 0 < a := lt_of_lt_of_le (by norm_num) h3.1
        have hb' : 0 < b := lt_of_lt_of_le (by norm_num) h3.2
        unfold positivePmean
        simp only [fin_lit]
        rw [fin_pow_pos _ ha', fin_pow_pos _ hb', fin_add, fin_mul, fin_div _ hp0, fin_pow_pos]
        simp only [lit_real, pow_real]
        have := Real.rpow_pos_of_pos ha' p
        have := Real.rpow_pos_of_pos hb' p
        push_cast; positivity

theorem fin_rt_foldl (c : EventCfg ℝ) {n : ℕ} (TA TB : Grid ℝ n) (hA : ∀ i j, 0 ≤ TA i j) (hB : ∀ i j, 0 ≤ TB i j) (l : List (Fin n × Fin n))
    (s : RTState ℝ n) (s' : RTState XReal n) (h1 : s'.sum = fin s.sum) (h2 : s'.ixcm = fin s.ixcm) (h3 : s'.iycm = fin s.iycm) :
    let r := l.foldl (rtStep c TA TB) s
    let r' := l.foldl (rtStep (c.map fin) (TA.map fin) (TB.map fin)) s'
    r'.sum = fin r.sum ∧ r'.ixcm = fin r.ixcm ∧ r'.iycm = fin r.iycm := by
  induction l generalizing s s' with
  | nil => exact ⟨h1, h2, h3⟩
  | cons i l ih =>
    apply ih
    · have : (rtStep (c.map fin) (TA.map fin) (TB.map fin) s' i).sum = s'.sum + fin c.norm * genMean (fin c.p) (fin (TA i.1 i.2)) (fin (TB i.1 i.2)) := rfl
      rw [this, fin_genMean (hA _ _) (hB _ _), h1]; rfl
    · have : (rtStep (c.map fin) (TA.map fin) (TB.map fin) s' i).ixcm = s'.ixcm + fin c.norm * genMean (fin c.p) (fin (TA i.1 i.2)) (fin (TB i.1 i.2)) * ofInt i.2.val := rfl
      rw [this, fin_genMean (hA _ _) (hB _ _), h2]; rfl
    · have : (rtStep (c.map fin) (TA.map fin) (TB.map fin) s' i).iycm = s'.iycm + fin c.norm * genMean (fin c.p) (fin (TA i.1 i.2)) (fin (TB i.1 i.2)) * ofInt i.1.val := rfl
      rw [this, fin_genMean (hA _ _) (hB _ _), h3]; rfl

/-- the accumulators, number type changed -/
def EccAcc.map {F G : Type} (f : F → G) (a : EccAcc F) : EccAcc G := ⟨f a.re, f a.im, f a.wt⟩
/-- the accumulators, number type changed -/
def EccAccs.map {F G : Type} (f : F → G) (a : EccAccs F) : EccAccs G := ⟨a.e2.map f, a.e3.map f, a.e4.map f, a.e5.map f⟩

theorem fin_obsStep {n : ℕ} (TR : Grid ℝ n) (x y : ℝ) (s : EccAccs ℝ) (i : Fin n × Fin n) :
    obsStep (TR.map fin) (fin x) (fin y) (s.map fin) i = (obsStep TR x y s i).map fin := by
  unfold obsStep
  have e : TR.map fin i.1 i.2 = fin (TR i.1 i.2) := rfl
  simp only [e, fin_TINY, fin_lt]
  split
  · rfl
  · simp only [fin_ofInt, fin_sub, fin_mul, fin_add]
    rw [fin_sqrt (add_nonneg (mul_self_nonneg _) (mul_self_nonneg _))]
    simp [EccAccs.map, EccAcc.map]

theorem fin_obs_foldl {n : ℕ} (TR : Grid ℝ n) (x y : ℝ) (l : List (Fin n × Fin n)) (s : EccAccs ℝ) :
    l.foldl (obsStep (TR.map fin) (fin x) (fin y)) (s.map fin) = (l.foldl (obsStep TR x y) s).map fin := by
  induction l generalizing s with
  | nil => rfl
  | cons i l ih => rw [List.foldl_cons, fin_obsStep, ih]; rfl

theorem fin_finish (a : EccAcc ℝ) : (a.map fin).finish = fin a.finish := by
  unfold EccAcc.finish
  simp only [EccAcc.map, fin_mul, fin_add, fin_TINY, fin_fmax]
  rw [fin_sqrt (add_nonneg (mul_self_nonneg _) (mul_self_nonneg _)), fin_div]
  simp only [fmax_real, TINY_real]
  have : (0:ℝ) < max a.wt 1e-12 := lt_max_of_lt_right (by norm_num)
  exact this.ne'

/-- Two events agree in everything that can be observed through the accessors used for output: grids, participants, multiplicity,
eccentricities; the numbers of the first are finite. -/
structure Spec.SameEvent {n : ℕ} (x : Event XReal n) (r : Event ℝ n) : Prop where
  TA : ∀ i j, x.TA i j = fin (r.TA i j)
  TB : ∀ i j, x.TB i j = fin (r.TB i j)
  TR : ∀ i j, x.TR i j = fin (r.TR i j)
  npart : x.npart = r.npart
  multiplicity : x.multiplicity = fin r.multiplicity
  ecc : x.ecc = r.ecc.map fin

end Trento
