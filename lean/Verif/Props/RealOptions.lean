import Verif.Model.NumberText
import Verif.Props.IntegerOptions
import Verif.Lemmas.Text

/-! # Options that are real numbers (C110)

The real-valued options are read by `boost::lexical_cast<double>` (model: `lexNumber` in `Verif/Model/NumberText.lean`). -/

namespace Trento
open Spec

/-! ## Specification: decimal numerals -/

namespace Spec

/-- The character of a digit. -/
def digit (d : Fin 10) : Char := ['0', '1', '2', '3', '4', '5', '6', '7', '8', '9'].get d

/-- A possible sign: nothing, `+` or `-`. -/
inductive Sign | none | plus | minus

/-- Its text. -/
def Sign.text : Sign → List Char
  | .none => []
  | .plus => ['+']
  | .minus => ['-']

/-- The factor it stands for. -/
def Sign.factor : Sign → ℚ
  | .minus => -1
  | _ => 1

/-- A decimal numeral: sign, digits, possibly a point and more digits, possibly an exponent. -/
structure Numeral where
  sign : Sign
  whole : List (Fin 10)
  /-- `none`: no decimal point -/
  fraction : Option (List (Fin 10))
  /-- `none`: no exponent; else whether it is a capital `E`, its sign, its digits -/
  exponent : Option (Bool × Sign × List (Fin 10))

/-- The value of digits, most significant first. -/
def digitsValue (ds : List (Fin 10)) : ℕ := Nat.ofDigits 10 (ds.reverse.map Fin.val)

namespace Numeral

/-- There is a digit before or after the point, and one in the exponent if there is an exponent. -/
def Proper (n : Numeral) : Prop :=
  (n.whole ≠ [] ∨ ∃ ds, n.fraction = some ds ∧ ds ≠ []) ∧ ∀ x, n.exponent = some x → x.2.2 ≠ []

/-- How the numeral is written. -/
def text (n : Numeral) : List Char :=
  n.sign.text ++ n.whole.map digit ++
    (match n.fraction with | none => [] | some ds => '.' :: ds.map digit) ++
    (match n.exponent with | none => [] | some (cap, s, ds) => (if cap then 'E' else 'e') :: s.text ++ ds.map digit)

/-- The number it stands for. -/
def value (n : Numeral) : ℚ :=
  n.sign.factor *
    (digitsValue n.whole + (match n.fraction with | none => 0 | some ds => (digitsValue ds : ℚ) / 10 ^ ds.length)) *
    (match n.exponent with | none => 1 | some (_, s, ds) => (10:ℚ) ^ ((s.factor * digitsValue ds).num))

end Numeral

/-- `s` is the word `w` (in lower case) with letters of any case. -/
def AnyCase (w s : List Char) : Prop := List.Forall₂ (fun a b => b = a ∨ b = a.toUpper) w s

/-- The texts for infinity: a sign or none, `inf` or `infinity` in letters of any case. -/
def InfinityText (neg : Bool) (s : List Char) : Prop :=
  ∃ (g : Sign) (w : List Char), s = g.text ++ w ∧ (neg = true ↔ g = .minus) ∧ (AnyCase "inf".toList w ∨ AnyCase "infinity".toList w)

/-- The texts for "not a number": a sign or none, `nan` in letters of any case, possibly something in parentheses. -/
def NanText (s : List Char) : Prop :=
  ∃ (g : Sign) (w t : List Char), s = g.text ++ w ++ t ∧ AnyCase "nan".toList w ∧ (t = [] ∨ ∃ u, t = '(' :: u ++ [')'])

end Spec

/-! ## Digits -/

theorem isDig_digit (d : Fin 10) : isDig (digit d) = true := by revert d; decide
theorem digit_val (d : Fin 10) : (digit d).toNat - 48 = d.val := by revert d; decide

theorem digit_of_isDig (c : Char) (h : isDig c = true) : ∃ d, digit d = c := by
  unfold isDig at h
  simp only [Bool.and_eq_true, decide_eq_true_eq] at h
  obtain ⟨h1, h2⟩ := h
  have hc : c = Char.ofNat c.toNat := (Char.ofNat_toNat c).symm
  generalize c.toNat = n at h1 h2 hc
  subst hc
  refine ⟨⟨n - 48, by omega⟩, ?_⟩
  interval_cases n <;> rfl

theorem digits_of_isDig (s : List Char) (h : ∀ c ∈ s, isDig c = true) : ∃ ds : List (Fin 10), ds.map digit = s := by
  induction s with
  | nil => exact ⟨[], rfl⟩
  | cons c s ih =>
    obtain ⟨d, hd⟩ := digit_of_isDig c (h c List.mem_cons_self)
    obtain ⟨ds, hds⟩ := ih fun c hc => h c (List.mem_cons_of_mem _ hc)
    exact ⟨d :: ds, by rw [List.map_cons, hd, hds]⟩

theorem digitsVal_digits_aux (ds : List (Fin 10)) (acc : List ℕ) :
    (ds.map digit).foldl (fun a c => 10 * a + (c.toNat - 48)) (Nat.ofDigits 10 acc) = Nat.ofDigits 10 (ds.reverse.map Fin.val ++ acc) := by
  induction ds generalizing acc with
  | nil => simp
  | cons d ds ih =>
    rw [List.map_cons, List.foldl_cons, digit_val]
    have : 10 * Nat.ofDigits 10 acc + d.val = Nat.ofDigits 10 (d.val :: acc) := by
      rw [Nat.ofDigits_cons]; simp [add_comm]
    rw [this, ih]
    simp

theorem digitsVal_digits (ds : List (Fin 10)) : digitsVal (ds.map digit) = digitsValue ds := by
  have := digitsVal_digits_aux ds []
  simpa [digitsVal, digitsValue] using this

theorem digitsValue_append (a b : List (Fin 10)) : (digitsValue (a ++ b) : ℚ) = digitsValue a * 10 ^ b.length + digitsValue b := by
  unfold digitsValue
  rw [List.reverse_append, List.map_append, Nat.ofDigits_append]
  push_cast
  simp
  ring

theorem map_digit_isDig (ds : List (Fin 10)) : ∀ c ∈ ds.map digit, isDig c = true := by
  intro c hc
  obtain ⟨d, -, rfl⟩ := List.mem_map.mp hc
  exact isDig_digit d

theorem takeWhile_isDig (s : List Char) : ∀ c ∈ s.takeWhile isDig, isDig c = true := by
  induction s with
  | nil => intro c hc; cases hc
  | cons a s ih =>
    intro c hc
    rw [List.takeWhile_cons] at hc
    split at hc
    · rename_i ha
      rcases List.mem_cons.mp hc with rfl | hc
      · exact ha
      · exact ih c hc
    · cases hc

theorem dropWhile_head (s : List Char) : ∀ c ∈ (s.dropWhile isDig).head?, isDig c = false := by
  intro c hc
  induction s with
  | nil => cases hc
  | cons a s ih =>
    rw [List.dropWhile_cons] at hc
    split at hc
    · exact ih hc
    · rename_i h
      simp only [List.head?_cons, Option.mem_some_iff] at hc
      subst hc
      simpa using h

theorem scanSign_text (g : Sign) (s : List Char) (hs : ∀ c ∈ s.head?, c ≠ '-' ∧ c ≠ '+') : scanSign (g.text ++ s) = (decide (g.factor = -1), s) := by
  cases g with
  | none =>
    show scanSign s = _
    have : decide (Sign.factor .none = -1) = false := by
      rw [decide_eq_false_iff_not]; unfold Sign.factor; norm_num
    rw [this]
    match s, hs with
    | [], _ => rfl
    | c :: s, hs =>
      have := hs c (by simp)
      unfold scanSign
      split
      · rename_i h; injection h with h; exact absurd h this.1
      · rename_i h; injection h with h; exact absurd h this.2
      · rfl
  | plus =>
    have : decide (Sign.factor .plus = -1) = false := by
      rw [decide_eq_false_iff_not]; unfold Sign.factor; norm_num
    rw [this]; rfl
  | minus =>
    have : decide (Sign.factor .minus = -1) = true := by
      rw [decide_eq_true_iff]; rfl
    rw [this]; rfl

theorem scanSign_back (s : List Char) : ∃ g : Sign, s = g.text ++ (scanSign s).2 ∧ (scanSign s).1 = decide (g.factor = -1) ∧ ((scanSign s).1 = true ↔ g = .minus) := by
  unfold scanSign
  split
  · refine ⟨.minus, rfl, ?_, by simp⟩
    symm; rw [decide_eq_true_iff]; rfl
  · refine ⟨.plus, rfl, ?_, by simp⟩
    symm; rw [decide_eq_false_iff_not]; unfold Sign.factor; norm_num
  · refine ⟨.none, rfl, ?_, by simp⟩
    symm; rw [decide_eq_false_iff_not]; unfold Sign.factor; norm_num

theorem applySign_factor (g : Sign) (q : ℚ) : applySign (decide (g.factor = -1)) q = g.factor * q := by
  unfold applySign Sign.factor
  cases g <;> norm_num

/-! ## Scanning numerals -/

def expText : Option (Bool × Sign × List (Fin 10)) → List Char
  | none => []
  | some (cap, s, ds) => (if cap then 'E' else 'e') :: s.text ++ ds.map digit

def fracText : Option (List (Fin 10)) → List Char
  | none => []
  | some ds => '.' :: ds.map digit

theorem expText_head (x : Option (Bool × Sign × List (Fin 10))) : ∀ c ∈ (expText x).head?, isDig c = false ∧ c ≠ '.' ∧ c ≠ '-' ∧ c ≠ '+' := by
  intro c hc
  match x with
  | none => cases hc
  | some (true, s, ds) => simp [expText] at hc; subst hc; decide
  | some (false, s, ds) => simp [expText] at hc; subst hc; decide

theorem fracText_head (f : Option (List (Fin 10))) (x : Option (Bool × Sign × List (Fin 10))) :
    ∀ c ∈ (fracText f ++ expText x).head?, isDig c = false ∧ c ≠ '-' ∧ c ≠ '+' := by
  intro c hc
  match f with
  | none => exact ⟨(expText_head x c hc).1, (expText_head x c hc).2.2⟩
  | some ds => simp [fracText] at hc; subst hc; decide

theorem digits_head {ds : List (Fin 10)} {t : List Char} (ht : ∀ c ∈ t.head?, c ≠ '-' ∧ c ≠ '+') : ∀ c ∈ (ds.map digit ++ t).head?, c ≠ '-' ∧ c ≠ '+' := by
  intro c hc
  cases ds with
  | nil => exact ht c hc
  | cons d ds =>
    simp at hc
    subst hc
    have := isDig_not_sign (isDig_digit d)
    exact ⟨this.1, this.2.1⟩

theorem scanExp_expText (x : Option (Bool × Sign × List (Fin 10))) :
    scanExp (expText x) = (x.map fun x => (decide (x.2.1.factor = -1), x.2.2.map digit), []) := by
  match x with
  | none => rfl
  | some (cap, s, ds) =>
    have h1 : scanSign (s.text ++ ds.map digit) = (decide (s.factor = -1), ds.map digit) := by
      have := scanSign_text s (ds.map digit ++ []) (digits_head (by simp))
      simpa using this
    obtain ⟨h2, h3⟩ := takeWhile_digits (s := ds.map digit) (t := []) (map_digit_isDig ds) (by simp)
    simp only [List.append_nil] at h2 h3
    cases cap <;>
    · simp only [expText, scanExp, List.cons_append]
      simp [h1, h2, h3]

theorem scanFrac_fracText (f : Option (List (Fin 10))) (x : Option (Bool × Sign × List (Fin 10))) :
    scanFrac (fracText f ++ expText x) = ((f.getD []).map digit, expText x) := by
  match f with
  | none =>
    show scanFrac (expText x) = _
    have := expText_head x
    unfold scanFrac
    split
    · rename_i s heq
      exact absurd rfl (this '.' (by rw [heq]; rfl)).2.1
    · rfl
  | some ds =>
    obtain ⟨h2, h3⟩ := takeWhile_digits (s := ds.map digit) (t := expText x) (map_digit_isDig ds) (fun c hc => (expText_head x c hc).1)
    show ((ds.map digit ++ expText x).takeWhile isDig, (ds.map digit ++ expText x).dropWhile isDig) = _
    rw [h2, h3]; rfl

theorem text_eq (n : Numeral) : n.text = n.sign.text ++ (n.whole.map digit ++ (fracText n.fraction ++ expText n.exponent)) := by
  unfold Numeral.text
  rw [List.append_assoc, List.append_assoc]
  congr 3

theorem factor_num (s : Sign) (k : ℕ) : (10:ℚ) ^ ((s.factor * k).num) = if decide (s.factor = -1) then 1 / 10 ^ k else 10 ^ k := by
  cases s with
  | minus =>
    have : decide (Sign.factor .minus = -1) = true := by rw [decide_eq_true_iff]; rfl
    rw [this, if_pos rfl]
    have : ((Sign.factor .minus * k).num) = -(k:ℤ) := by
      show ((-1 : ℚ) * k).num = _
      rw [neg_one_mul, Rat.num_neg_eq_neg_num]; simp
    rw [this, zpow_neg]; simp
  | none =>
    have : decide (Sign.factor .none = -1) = false := by rw [decide_eq_false_iff_not]; unfold Sign.factor; norm_num
    rw [this]
    have : ((Sign.factor .none * k).num) = (k:ℤ) := by
      show ((1 : ℚ) * k).num = _
      rw [one_mul]; simp
    rw [this]; simp
  | plus =>
    have : decide (Sign.factor .plus = -1) = false := by rw [decide_eq_false_iff_not]; unfold Sign.factor; norm_num
    rw [this]
    have : ((Sign.factor .plus * k).num) = (k:ℤ) := by
      show ((1 : ℚ) * k).num = _
      rw [one_mul]; simp
    rw [this]; simp

theorem value_eq (n : Numeral) : n.value = (match n.exponent with
    | none => applySign (decide (n.sign.factor = -1)) ((digitsVal (n.whole.map digit ++ (n.fraction.getD []).map digit) : ℚ) / 10 ^ ((n.fraction.getD []).map digit).length)
    | some (_, s, ds) =>
      if decide (s.factor = -1) then
        applySign (decide (n.sign.factor = -1)) ((digitsVal (n.whole.map digit ++ (n.fraction.getD []).map digit) : ℚ) / 10 ^ ((n.fraction.getD []).map digit).length) / 10 ^ digitsVal (ds.map digit)
      else applySign (decide (n.sign.factor = -1)) ((digitsVal (n.whole.map digit ++ (n.fraction.getD []).map digit) : ℚ) / 10 ^ ((n.fraction.getD []).map digit).length) *
        10 ^ digitsVal (ds.map digit)) := by
  have hm : (digitsVal (n.whole.map digit ++ (n.fraction.getD []).map digit) : ℚ) / 10 ^ ((n.fraction.getD []).map digit).length =
      digitsValue n.whole + (match n.fraction with | none => 0 | some ds => (digitsValue ds : ℚ) / 10 ^ ds.length) := by
    rw [← List.map_append, digitsVal_digits, digitsValue_append, List.length_map]
    cases n.fraction with
    | none => simp [digitsValue]
    | some ds =>
      simp only [Option.getD_some]
      have : (10:ℚ) ^ ds.length ≠ 0 := by positivity
      field_simp
  simp only [hm, applySign_factor]
  unfold Numeral.value
  cases n.exponent with
  | none => simp
  | some x =>
    obtain ⟨cap, s, ds⟩ := x
    simp only [factor_num, digitsVal_digits]
    by_cases hd : decide (s.factor = -1) = true
    · rw [if_pos hd, if_pos hd, mul_one_div]
    · rw [if_neg hd, if_neg hd]

theorem scanFloat_text (n : Numeral) (hn : n.Proper) : scanFloat n.text = (some n.value, []) := by
  obtain ⟨h1, h2⟩ := hn
  rw [text_eq]
  unfold scanFloat
  have a1 := scanSign_text n.sign (n.whole.map digit ++ (fracText n.fraction ++ expText n.exponent))
    (digits_head fun c hc => (fracText_head _ _ c hc).2)
  obtain ⟨a2, a3⟩ := takeWhile_digits (s := n.whole.map digit) (t := fracText n.fraction ++ expText n.exponent) (map_digit_isDig _)
    (fun c hc => (fracText_head _ _ c hc).1)
  simp only [a1, a2, a3, scanFrac_fracText, scanExp_expText]
  have hne : ((n.whole.map digit).isEmpty && ((n.fraction.getD []).map digit).isEmpty) = false := by
    rcases h1 with h1 | ⟨ds, h1, h3⟩
    · cases hw : n.whole with
      | nil => exact absurd hw h1
      | cons d ds => simp
    · rw [h1]
      cases ds with
      | nil => exact absurd rfl h3
      | cons d ds => simp
  rw [hne, value_eq]
  simp only [Bool.false_eq_true, if_false]
  cases hx : n.exponent with
  | none => rfl
  | some x =>
    obtain ⟨cap, s, ds⟩ := x
    have := h2 _ hx
    cases ds with
    | nil => exact absurd rfl this
    | cons d ds => rfl

theorem scanFrac_back (s : List Char) (hs : ∀ c ∈ s.head?, isDig c = false) : ∃ f : Option (List (Fin 10)), s = fracText f ++ (scanFrac s).2 ∧ (scanFrac s).1 = (f.getD []).map digit := by
  unfold scanFrac
  split
  · rename_i s
    obtain ⟨ds, hds⟩ := digits_of_isDig (s.takeWhile isDig) (takeWhile_isDig s)
    refine ⟨some ds, ?_, hds.symm⟩
    show '.' :: s = '.' :: (ds.map digit ++ s.dropWhile isDig)
    rw [hds, List.takeWhile_append_dropWhile]
  · exact ⟨none, rfl, rfl⟩

theorem scanExp_back (s : List Char) (h : (scanExp s).2 = []) : ∃ x : Option (Bool × Sign × List (Fin 10)), s = expText x ∧
    (scanExp s).1 = x.map fun x => (decide (x.2.1.factor = -1), x.2.2.map digit) := by
  match s with
  | [] => exact ⟨none, rfl, rfl⟩
  | c :: s =>
    unfold scanExp at h ⊢
    dsimp only at h ⊢
    split at h
    · rename_i hc
      rw [if_pos hc]
      dsimp only at h
      obtain ⟨g, g1, g2, -⟩ := scanSign_back s
      obtain ⟨ds, hds⟩ := digits_of_isDig ((scanSign s).2.takeWhile isDig) (takeWhile_isDig _)
      have hs2 : (scanSign s).2 = ds.map digit := by
        rw [hds]
        conv_lhs => rw [← List.takeWhile_append_dropWhile (p := isDig) (l := (scanSign s).2), h, List.append_nil]
      refine ⟨some (decide (c = 'E'), g, ds), ?_, ?_⟩
      · rw [hs2] at g1
        show c :: s = (if decide (c = 'E') then 'E' else 'e') :: (g.text ++ ds.map digit)
        rw [← g1]
        congr 1
        rcases hc with rfl | rfl <;> rfl
      · simp only [Option.map_some, g2, hds]
    · cases h

theorem scanFloat_back (s : List Char) (q : ℚ) (h : scanFloat s = (some q, [])) : ∃ n : Numeral, n.Proper ∧ n.text = s ∧ n.value = q := by
  obtain ⟨g, g1, g2, -⟩ := scanSign_back s
  set s1 := (scanSign s).2 with hs1
  obtain ⟨w, hw⟩ := digits_of_isDig (s1.takeWhile isDig) (takeWhile_isDig s1)
  obtain ⟨f, f1, f2⟩ := scanFrac_back (s1.dropWhile isDig) (dropWhile_head s1)
  set s2 := (scanFrac (s1.dropWhile isDig)).2 with hs2
  have hsc : scanSign s = (decide (g.factor = -1), s1) := by rw [← g2]
  have hfr : scanFrac (s1.dropWhile isDig) = ((f.getD []).map digit, s2) := by rw [← f2]
  unfold scanFloat at h
  simp only [hsc, hfr] at h
  split at h
  · cases h
  · rename_i hne
    have hrest : (scanExp s2).2 = [] := by
      split at h <;> rename_i heq <;> rw [heq] <;> cases h <;> rfl
    obtain ⟨x, x1, x2⟩ := scanExp_back s2 hrest
    have hxe : scanExp s2 = (x.map fun x => (decide (x.2.1.factor = -1), x.2.2.map digit), []) := by rw [← x2, ← hrest]
    refine ⟨⟨g, w, f, x⟩, ⟨?_, ?_⟩, ?_, ?_⟩
    · by_contra hc
      push Not at hc
      obtain ⟨c1, c2⟩ := hc
      apply hne
      rw [← hw]
      have c1 : w = [] := c1
      subst c1
      cases f with
      | none => rfl
      | some ds => rw [c2 ds rfl]; rfl
    · intro y hy hnil
      have hy : x = some y := hy
      subst hy
      obtain ⟨cap, sg, ds⟩ := y
      have hnil : ds = [] := hnil
      subst hnil
      rw [hxe] at h
      cases h
    · rw [text_eq]
      show g.text ++ (w.map digit ++ (fracText f ++ expText x)) = s
      rw [← x1, ← f1, hw, List.takeWhile_append_dropWhile, ← g1]
    · rw [value_eq]
      show (match x with | none => _ | some (_, s, ds) => _) = q
      rw [hxe] at h
      rw [← hw] at h
      rcases x with _ | ⟨cap, sg, _ | ⟨d, ds⟩⟩
      · exact Option.some.inj (Prod.mk.inj h).1
      · cases h
      · exact Option.some.inj (Prod.mk.inj h).1

/-! ## Special values -/

/-- lower and upper case letters -/
theorem matchWord_iff (w : List (Char × Char)) (s t : List Char) : matchWord w s = some t ↔ ∃ v, s = v ++ t ∧ List.Forall₂ (fun a b => b = a.1 ∨ b = a.2) w v := by
  induction w generalizing s with
  | nil =>
    unfold matchWord
    constructor
    · intro h; cases h; exact ⟨[], rfl, .nil⟩
    · rintro ⟨v, rfl, h⟩; cases h; rfl
  | cons a w ih =>
    obtain ⟨l, u⟩ := a
    cases s with
    | nil =>
      unfold matchWord
      constructor
      · intro h; cases h
      · rintro ⟨v, h, h'⟩; cases h'; cases h
    | cons c s =>
      unfold matchWord
      constructor
      · intro h
        split at h
        · rename_i hc
          obtain ⟨v, rfl, h2⟩ := (ih s).mp h
          exact ⟨c :: v, rfl, .cons hc h2⟩
        · cases h
      · rintro ⟨v, h, h'⟩
        cases h' with
        | cons hb hr =>
          cases h
          rw [if_pos hb]
          exact (ih _).mpr ⟨_, rfl, hr⟩

theorem nanWord_iff (s t : List Char) : matchWord nanWord s = some t ↔ ∃ v, s = v ++ t ∧ AnyCase "nan".toList v := by
  rw [matchWord_iff]
  have : nanWord = "nan".toList.map fun c => (c, c.toUpper) := by decide
  rw [this]
  simp only [AnyCase, List.forall₂_map_left_iff]

theorem infWord_iff (s t : List Char) : matchWord infWord s = some t ↔ ∃ v, s = v ++ t ∧ AnyCase "inf".toList v := by
  rw [matchWord_iff]
  have : infWord = "inf".toList.map fun c => (c, c.toUpper) := by decide
  rw [this]
  simp only [AnyCase, List.forall₂_map_left_iff]

theorem infinityWord_iff (s t : List Char) : matchWord infinityWord s = some t ↔ ∃ v, s = v ++ t ∧ AnyCase "infinity".toList v := by
  rw [matchWord_iff]
  have : infinityWord = "infinity".toList.map fun c => (c, c.toUpper) := by decide
  rw [this]
  simp only [AnyCase, List.forall₂_map_left_iff]

theorem anyCase_head {w v : List Char} (h : AnyCase w v) (hw : w ≠ []) : ∃ c r, v = c :: r ∧ (c = w.headD 'x' ∨ c = (w.headD 'x').toUpper) := by
  cases h with
  | nil => exact absurd rfl hw
  | cons hb _ => exact ⟨_, _, rfl, hb⟩

theorem word_head {v t : List Char} (h : AnyCase "nan".toList v ∨ AnyCase "inf".toList v ∨ AnyCase "infinity".toList v) : ∀ c ∈ (v ++ t).head?, c ∈ ['n', 'N', 'i', 'I'] := by
  intro c hc
  have : ∃ c r, v = c :: r ∧ c ∈ ['n', 'N', 'i', 'I'] := by
    rcases h with h | h | h
    · obtain ⟨c, r, h1, h2⟩ := anyCase_head h (by decide)
      exact ⟨c, r, h1, by rcases h2 with rfl | rfl <;> decide⟩
    · obtain ⟨c, r, h1, h2⟩ := anyCase_head h (by decide)
      exact ⟨c, r, h1, by rcases h2 with rfl | rfl <;> decide⟩
    · obtain ⟨c, r, h1, h2⟩ := anyCase_head h (by decide)
      exact ⟨c, r, h1, by rcases h2 with rfl | rfl <;> decide⟩
  obtain ⟨c', r, rfl, hm⟩ := this
  simp only [List.cons_append, List.head?_cons, Option.mem_some_iff] at hc
  subst hc; exact hm

theorem word_head_sign {c : Char} (h : c ∈ ['n', 'N', 'i', 'I']) : (c ≠ '-' ∧ c ≠ '+') ∧ isDig c = false ∧ c ≠ '.' := by
  simp only [List.mem_cons, List.not_mem_nil, or_false] at h
  rcases h with rfl | rfl | rfl | rfl <;> decide

theorem scanSign_word (g : Sign) {v t : List Char} (h : AnyCase "nan".toList v ∨ AnyCase "inf".toList v ∨ AnyCase "infinity".toList v) :
    scanSign (g.text ++ (v ++ t)) = (decide (g.factor = -1), v ++ t) :=
  scanSign_text g (v ++ t) fun c hc => (word_head_sign (word_head h c hc)).1

theorem factor_minus (g : Sign) : (decide (g.factor = -1) = true) ↔ g = .minus := by
  rw [decide_eq_true_iff]
  cases g <;> unfold Sign.factor <;> simp <;> norm_num

theorem nan_not_inf {v t : List Char} (h : AnyCase "nan".toList v) : ¬ (AnyCase "inf".toList (v ++ t) ∨ AnyCase "infinity".toList (v ++ t)) := by
  cases h with
  | @cons a b l1 l2 hb _ =>
    rintro (h | h) <;>
    · cases h with
      | cons hc _ =>
        rcases hb with rfl | rfl <;> rcases hc with hc | hc <;> revert hc <;> decide

theorem lexSpecial_nan (s : List Char) : lexSpecial s = some .nan ↔ NanText s := by
  constructor
  · intro h
    obtain ⟨g, g1, -, -⟩ := scanSign_back s
    unfold lexSpecial at h
    dsimp only at h
    split at h
    · rename_i hm
      obtain ⟨v, h1, h2⟩ := (nanWord_iff _ _).mp hm
      exact ⟨g, v, [], by rw [List.append_assoc, ← h1]; exact g1, h2, .inl rfl⟩
    · rename_i t hm
      obtain ⟨v, h1, h2⟩ := (nanWord_iff _ _).mp hm
      split at h
      · rename_i hl
        refine ⟨g, v, '(' :: t, by rw [List.append_assoc, ← h1]; exact g1, h2, .inr ⟨t.dropLast, ?_⟩⟩
        obtain ⟨hne, hl⟩ := List.getLast?_eq_some_iff.mp hl
        rw [hl]; simp
      · cases h
    · cases h
    · split at h <;> cases h
  · rintro ⟨g, w, t, rfl, hw, ht⟩
    unfold lexSpecial
    rw [List.append_assoc, scanSign_word g (.inl hw)]
    have : matchWord nanWord (w ++ t) = some t := (nanWord_iff _ _).mpr ⟨w, rfl, hw⟩
    simp only [this]
    rcases ht with rfl | ⟨u, rfl⟩
    · rfl
    · simp

theorem lexSpecial_inf (s : List Char) (neg : Bool) : lexSpecial s = some (.inf neg) ↔ InfinityText neg s := by
  constructor
  · intro h
    obtain ⟨g, g1, -, g3⟩ := scanSign_back s
    unfold lexSpecial at h
    dsimp only at h
    split at h
    · cases h
    · split at h <;> cases h
    · cases h
    · split at h
      · rename_i hi
        cases h
        refine ⟨g, (scanSign s).2, g1, g3, ?_⟩
        rcases hi with hi | hi
        · obtain ⟨v, h1, h2⟩ := (infWord_iff _ _).mp hi
          rw [List.append_nil] at h1
          exact .inl (h1 ▸ h2)
        · obtain ⟨v, h1, h2⟩ := (infinityWord_iff _ _).mp hi
          rw [List.append_nil] at h1
          exact .inr (h1 ▸ h2)
      · cases h
  · rintro ⟨g, w, rfl, hg, hw⟩
    unfold lexSpecial
    have hs := scanSign_word (t := []) g (.inr hw)
    rw [List.append_nil] at hs
    rw [hs]
    have hneg : decide (g.factor = -1) = neg := by
      rw [Bool.eq_iff_iff, factor_minus, hg]
    rw [hneg]
    have hnan : matchWord nanWord w = none := by
      cases hm : matchWord nanWord w with
      | none => rfl
      | some t =>
        obtain ⟨v, rfl, h2⟩ := (nanWord_iff _ _).mp hm
        exact absurd hw (nan_not_inf h2)
    simp only [hnan]
    rw [if_pos]
    rcases hw with hw | hw
    · exact .inl ((infWord_iff _ _).mpr ⟨w, by simp, hw⟩)
    · exact .inr ((infinityWord_iff _ _).mpr ⟨w, by simp, hw⟩)

theorem lexSpecial_finite (s : List Char) (q : ℚ) : lexSpecial s ≠ some (.finite q) := by
  unfold lexSpecial
  dsimp only
  intro h
  split at h
  · cases h
  · split at h <;> cases h
  · cases h
  · split at h <;> cases h

theorem text_head (n : Numeral) (hn : n.Proper) : ∃ g : Sign, ∃ c r, n.text = g.text ++ c :: r ∧ (isDig c = true ∨ c = '.') := by
  rw [text_eq]
  obtain ⟨h1, -⟩ := hn
  cases hw : n.whole with
  | cons d ds => exact ⟨n.sign, digit d, _, by simp; rfl, .inl (isDig_digit d)⟩
  | nil =>
    rcases h1 with h1 | ⟨ds, h1, -⟩
    · exact absurd hw h1
    · rw [h1]; exact ⟨n.sign, '.', _, by simp [fracText]; rfl, .inr rfl⟩

theorem numeral_not_special (n : Numeral) (hn : n.Proper) : lexSpecial n.text = none := by
  obtain ⟨g, c, r, ht, hc⟩ := text_head n hn
  have hs : scanSign n.text = (decide (g.factor = -1), c :: r) := by
    rw [ht]
    refine scanSign_text g _ fun c' hc' => ?_
    simp only [List.head?_cons, Option.mem_some_iff] at hc'
    subst hc'
    rcases hc with hc | rfl
    · exact ⟨(isDig_not_sign hc).1, (isDig_not_sign hc).2.1⟩
    · decide
  have key : ∀ v t, c :: r = v ++ t → ¬ (AnyCase "nan".toList v ∨ AnyCase "inf".toList v ∨ AnyCase "infinity".toList v) := by
    intro v t he hv
    have := word_head (t := t) hv c (by rw [← he]; rfl)
    obtain ⟨-, h2, h3⟩ := word_head_sign this
    rcases hc with hc | hc
    · rw [hc] at h2; cases h2
    · exact h3 hc
  unfold lexSpecial
  simp only [hs]
  have h1 : matchWord nanWord (c :: r) = none := by
    cases hm : matchWord nanWord (c :: r) with
    | none => rfl
    | some t =>
      obtain ⟨v, he, h2⟩ := (nanWord_iff _ _).mp hm
      exact absurd (.inl h2) (key v t he)
  simp only [h1]
  rw [if_neg]
  rintro (hm | hm)
  · obtain ⟨v, he, h2⟩ := (infWord_iff _ _).mp hm
    exact key v [] he (.inr (.inl h2))
  · obtain ⟨v, he, h2⟩ := (infinityWord_iff _ _).mp hm
    exact key v [] he (.inr (.inr h2))

theorem text_last (n : Numeral) (hn : n.Proper) : ∃ c, n.text.getLast? = some c ∧ (isDig c = true ∨ c = '.') := by
  rw [text_eq]
  obtain ⟨h1, h2⟩ := hn
  have dl : ∀ (ds : List (Fin 10)) (p : List Char), ds ≠ [] → ∃ c, (p ++ ds.map digit).getLast? = some c ∧ (isDig c = true ∨ c = '.') := by
    intro ds p hne
    have hne' : ds.map digit ≠ [] := by simpa using hne
    refine ⟨(ds.map digit).getLast hne', ?_, .inl (map_digit_isDig ds _ (List.getLast_mem hne'))⟩
    rw [List.getLast?_append_of_ne_nil _ hne', List.getLast?_eq_some_getLast hne']
  cases hx : n.exponent with
  | some x =>
    obtain ⟨cap, s, ds⟩ := x
    have := dl ds (n.sign.text ++ (n.whole.map digit ++ (fracText n.fraction ++ ((if cap then 'E' else 'e') :: s.text)))) (h2 _ hx)
    simpa [expText] using this
  | none =>
    simp only [expText, List.append_nil]
    cases hf : n.fraction with
    | some ds =>
      cases hds : ds with
      | nil => exact ⟨'.', by simp [fracText], .inr rfl⟩
      | cons d ds' =>
        have := dl ds (n.sign.text ++ (n.whole.map digit ++ ['.'])) (by rw [hds]; simp)
        rw [hds] at this
        simpa [fracText] using this
    | none =>
      have hw : n.whole ≠ [] := by
        rcases h1 with h1 | ⟨ds, h1, -⟩
        · exact h1
        · rw [hf] at h1; cases h1
      have := dl n.whole n.sign.text hw
      simpa [fracText] using this

/-- **C110, texts.** A real option accepts exactly the decimal numerals — digits with at most one sign, one decimal point and one exponent — whose magnitude does not overflow a `double`, and gives them
their value; and, whether the user wants that or not, the words for infinity and not-a-number.  Nothing else is accepted: no blanks, no trailing characters, no hexadecimal numbers, no decimal comma. -/
theorem C110_texts (s : String) :
    (∀ q, lexNumber s = some (.finite q) ↔ ∃ n : Numeral, n.Proper ∧ n.text = s.toList ∧ n.value = q ∧ |q| < 2 ^ 1024 - 2 ^ 970) ∧
    (∀ neg, lexNumber s = some (.inf neg) ↔ InfinityText neg s.toList) ∧
    (lexNumber s = some .nan ↔ NanText s.toList) := by
  refine ⟨fun q => ?_, fun neg => ?_, ?_⟩
  · constructor
    · intro h
      unfold lexNumber at h
      split at h
      · rename_i v hv
        cases h
        exact absurd hv (lexSpecial_finite _ _)
      · split at h
        · rename_i q' hq
          split at h
          · cases h
          · split at h
            · cases h
            · rename_i hb
              cases h
              obtain ⟨n, h1, h2, h3⟩ := scanFloat_back _ _ hq
              exact ⟨n, h1, h2, h3, not_le.mp hb⟩
        · cases h
    · rintro ⟨n, h1, h2, h3, h4⟩
      unfold lexNumber
      rw [← h2, numeral_not_special n h1, scanFloat_text n h1]
      dsimp only
      obtain ⟨c, hc, hd⟩ := text_last n h1
      rw [hc, if_neg, if_neg, h3]
      · rw [h3]; exact not_le.mpr h4
      · rcases hd with hd | rfl
        · have := isDig_not_sign hd
          simp [this]
        · decide
  · constructor
    · intro h
      unfold lexNumber at h
      split at h
      · rename_i v hv
        cases h
        exact (lexSpecial_inf _ _).mp hv
      · split at h
        · split at h
          · cases h
          · split at h <;> cases h
        · cases h
    · intro h
      unfold lexNumber
      rw [(lexSpecial_inf _ _).mpr h]
  · constructor
    · intro h
      unfold lexNumber at h
      split at h
      · rename_i v hv
        cases h
        exact (lexSpecial_nan _).mp hv
      · split at h
        · split at h
          · cases h
          · split at h <;> cases h
        · cases h
    · intro h
      unfold lexNumber
      rw [(lexSpecial_nan _).mpr h]

section
variable {F : Type} [Arith F]

/-- **C110, options.** If a run starts and one of the real options is given, then it is given once in that source, as a decimal numeral that does not overflow, whose value, rounded to a `double`, the run
uses, or as a word for infinity or not-a-number. -/
theorem C110_options (special : TextNumber → Option F) (L : Lib F) (env : OsEnv) (ce : CacheEnv) (fs : FS F) (args : List String) (vm : VarMap F)
    (h : configure (numberLib special L) env ce fs args = .ok (.run vm)) :
    ∃ (cmd : List ParsedOption) (paths : List String) (files : List (List ParsedOption)), cliParse F args = .ok cmd ∧
      ConfigFiles (numberLib special L) env ce fs paths files ∧
      (∀ k ∈ ["reduced-thickness", "fluctuation", "nucleon-width", "constit-width", "nucleon-min-dist", "cross-section", "normalization", "b-min", "b-max", "grid-max", "grid-step"],
        ∀ ms, firstMention k (cmd :: files) = some ms → ∃ s, ms = [[s]] ∧
          ((∃ n : Numeral, n.Proper ∧ n.text = s.toList ∧ |n.value| < 2 ^ 1024 - 2 ^ 970 ∧ vm.dbl k = .ok (lit n.value)) ∨
          (∃ neg, ∃ x, InfinityText neg s.toList ∧ special (.inf neg) = some x ∧ vm.dbl k = .ok x) ∨
          ∃ x, NanText s.toList ∧ special .nan = some x ∧ vm.dbl k = .ok x)) := by
  obtain ⟨cmd, paths, files, h1, -, h3, -, h4, -⟩ := C56_values (numberLib special L) env ce fs args vm h
  refine ⟨cmd, paths, files, h1, h3, ?_⟩
  intro k hk ms hms
  obtain ⟨s, x, e1, e2, e3⟩ := h4 k hk ms hms
  refine ⟨s, e1, ?_⟩
  have e2 : ((lexNumber s).bind fun v => match v with | .finite q => some (lit q) | v => special v) = some x := e2
  obtain ⟨c1, c2, c3⟩ := C110_texts s
  cases hl : lexNumber s with
  | none => rw [hl] at e2; cases e2
  | some v =>
    rw [hl, Option.bind_some] at e2
    cases v with
    | finite q =>
      obtain ⟨n, n1, n2, n3, n4⟩ := (c1 q).mp hl
      have e2 : some (lit q) = some x := e2
      cases e2
      subst n3
      exact .inl ⟨n, n1, n2, n4, e3⟩
    | inf neg => exact .inr (.inl ⟨neg, x, (c2 neg).mp hl, e2, e3⟩)
    | nan => exact .inr (.inr ⟨x, c3.mp hl, e2, e3⟩)

end

/-! ## Concrete cases -/

theorem no_overflow (q : ℚ) (h : |q| ≤ 1000000) : |q| < 2 ^ 1024 - 2 ^ 970 := by
  have h1 : (2:ℚ) ^ 1024 = 2 ^ 970 * 2 ^ 54 := by rw [← pow_add]
  have h2 : (1:ℚ) ≤ 2 ^ 970 := one_le_pow₀ (by norm_num)
  rw [h1]
  clear h1
  generalize (2:ℚ) ^ 970 = p at *
  norm_num
  linarith

/-- `-1.5e+2` is -150. -/
example : lexNumber "-1.5e+2" = some (.finite (-150)) :=
  ((C110_texts _).1 _).mpr ⟨⟨.minus, [1], some [5], some (false, .plus, [2])⟩, ⟨.inl (by simp), by simp⟩, by decide, by
    norm_num [Numeral.value, Sign.factor, digitsValue, Nat.ofDigits], no_overflow _ (by norm_num [abs_of_pos])⟩

/-- `.5`, `6.` and `1E-3` are numbers. -/
example : lexNumber ".5" = some (.finite (1/2)) ∧ lexNumber "6." = some (.finite 6) ∧ lexNumber "1E-3" = some (.finite (1/1000)) :=
  ⟨((C110_texts _).1 _).mpr ⟨⟨.none, [], some [5], none⟩, ⟨.inr ⟨[5], rfl, by simp⟩, by simp⟩, by decide, by norm_num [Numeral.value, Sign.factor, digitsValue, Nat.ofDigits], no_overflow _ (by norm_num [abs_of_pos])⟩,
   ((C110_texts _).1 _).mpr ⟨⟨.none, [6], some [], none⟩, ⟨.inl (by simp), by simp⟩, by decide, by norm_num [Numeral.value, Sign.factor, digitsValue, Nat.ofDigits], no_overflow _ (by norm_num [abs_of_pos])⟩,
   ((C110_texts _).1 _).mpr ⟨⟨.none, [1], none, some (true, .minus, [3])⟩, ⟨.inl (by simp), by simp⟩, by decide, by
    have : ((-1:ℚ) * ((Nat.ofDigits 10 [3] : ℕ) : ℚ)).num = -3 := by norm_num [Nat.ofDigits]
    norm_num [Numeral.value, Sign.factor, digitsValue, Nat.ofDigits], no_overflow _ (by norm_num [abs_of_pos])⟩⟩

/-- `-INF`, `Nan` and `nan(7)` are special values; a decimal comma, a blank, a hexadecimal number, an empty text and an unfinished exponent are refused. -/
example : lexNumber "-INF" = some (.inf true) ∧ lexNumber "Nan" = some .nan ∧ lexNumber "nan(7)" = some .nan ∧
    lexNumber "0,5" = none ∧ lexNumber " 1" = none ∧ lexNumber "0x10" = none ∧ lexNumber "" = none ∧ lexNumber "1e" = none ∧ lexNumber "." = none := by
  refine ⟨rfl, rfl, rfl, rfl, rfl, rfl, rfl, rfl, rfl⟩

end Trento
