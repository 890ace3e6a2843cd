import Verif.Spec.Cache
import Verif.Lemmas.CacheText
import Verif.Lemmas.Casts
import Verif.Props.OutputText

/-! # The cross section cache: C50–C53 -/

namespace Trento
open Spec
set_option linter.unusedSectionVars false

section generic
variable {F : Type} [Arith F]

/-- The variables after reading a record. -/
def varsOf (r : CacheRecord) : CacheVars F :=
  { m := some r.m, w := some (lit r.w), v := some (lit r.v), s := some (lit r.s), sp := some (lit r.sp) }

theorem intOf_scan {a : List Char} {k : ℤ} (h : intOf a = some k) : scanInt a = (some k, []) := by
  unfold intOf at h
  split at h
  · rename_i k' heq; injection h with h; rw [heq, h]
  · cases h

theorem numberOf_scanF {a : List Char} {q : ℚ} (h : numberOf a = some q) : scanF a = (some (lit q : F), []) := by
  unfold numberOf at h
  unfold scanF
  split at h
  · rename_i k' heq; injection h with h; rw [heq, h]
  · cases h

/-- Reading one record from a good stream. -/
theorem readRecord_record {text : List Char} {r : CacheRecord} {ws : List (List Char)} {rest : List (List Char)} (x : CacheVars F)
    (hw : RecordWords ws r) (ht : words text = ws ++ rest) :
    ∃ t, readRecord x { rest := text } = (varsOf r, { rest := t, eof := t.isEmpty }) ∧ words t = rest := by
  obtain ⟨a, b, c, d, e, rfl, ha, hb, hc, hd, he⟩ := hw
  -- a stream that is not exhausted is good
  have good : ∀ {t : List Char} {a : List Char} {l : List (List Char)}, words t = a :: l →
      ({ rest := t, eof := t.isEmpty } : IStream) = { rest := t } := by
    intro t a l h
    cases t with
    | nil => simp [words, wordsFrom] at h
    | cons c t => rfl
  obtain ⟨t1, h1, w1⟩ := extract_word (0:ℤ) scanInt (fun s t ht => scanInt_append s ht) ht (intOf_scan ha)
  obtain ⟨t2, h2, w2⟩ := extract_word (lit 0 : F) scanF (fun s t ht => scanF_append s t ht) w1 (numberOf_scanF hb)
  obtain ⟨t3, h3, w3⟩ := extract_word (lit 0 : F) scanF (fun s t ht => scanF_append s t ht) w2 (numberOf_scanF hc)
  obtain ⟨t4, h4, w4⟩ := extract_word (lit 0 : F) scanF (fun s t ht => scanF_append s t ht) w3 (numberOf_scanF hd)
  obtain ⟨t5, h5, w5⟩ := extract_word (lit 0 : F) scanF (fun s t ht => scanF_append s t ht) w4 (numberOf_scanF he)
  refine ⟨t5, ?_, w5⟩
  unfold readRecord
  simp only [h1, good w1, h2, good w2, h3, good w3, h4, good w4, h5]
  rfl

/-- Reading from a stream with only white space left: all variables keep their values, the stream is at its end. -/
theorem readRecord_blank {text : List Char} (x : CacheVars F) (h : words text = []) :
    readRecord x { rest := text } = (x, { rest := [], eof := true, fail := true }) := by
  unfold readRecord
  rw [extract_blank _ _ h]
  simp [extract_bad]

/-- Whether a record passes the test of the loop. -/
def fitsB (key : CacheKey F) (r : CacheRecord) : Bool :=
  almostEqual key.w (lit r.w) && almostEqual key.v (lit r.v) && almostEqual key.s (lit r.s) && decide (key.m = r.m)

theorem matchRecord_vars (key : CacheKey F) (r : CacheRecord) :
    matchRecord key (varsOf r) = .ok (if fitsB key r then some (lit r.sp) else none) := by
  unfold matchRecord varsOf fitsB useVar
  simp only [bind, Except.bind, pure, Except.pure]
  cases h1 : almostEqual key.w (lit r.w) <;> simp
  cases h2 : almostEqual key.v (lit r.v) <;> simp
  cases h3 : almostEqual key.s (lit r.s) <;> simp
  by_cases h4 : key.m = r.m <;> simp [h4]

/-- The search over the records that remain, after `r0` was read and did not fit. -/
theorem searchCache_from (key : CacheKey F) (recs : List CacheRecord) :
    ∀ (text : List Char) (r0 : CacheRecord) (fuel : ℕ), CacheContent text recs → fitsB key r0 = false → recs.length + 1 ≤ fuel →
      searchCache key fuel (varsOf r0) { rest := text, eof := text.isEmpty } =
        .ok ((recs.find? (fitsB key)).map fun r => lit r.sp) := by
  induction recs with
  | nil =>
    intro text r0 fuel hc h0 hf
    obtain ⟨fuel, rfl⟩ : ∃ k, fuel = k + 1 := ⟨fuel - 1, by simp at hf; omega⟩
    obtain ⟨wss, hw, hr⟩ := hc
    cases hr
    cases text with
    | nil => rfl
    | cons c text =>
      rw [searchCache]
      simp only [List.isEmpty_cons, Bool.false_eq_true, if_false]
      rw [readRecord_blank _ hw]
      simp only [matchRecord_vars, h0, Bool.false_eq_true, if_false]
      cases fuel with
      | zero => rfl
      | succ fuel => rfl
  | cons r recs ih =>
    intro text r0 fuel hc h0 hf
    obtain ⟨fuel, rfl⟩ : ∃ k, fuel = k + 1 := ⟨fuel - 1, by simp at hf; omega⟩
    obtain ⟨wss, hw, hr⟩ := hc
    cases hr with
    | cons h1 h2 =>
      rename_i ws wss
      obtain ⟨t, ht1, ht2⟩ := readRecord_record (F := F) (varsOf r0) h1 (rest := wss.flatten) (by rw [hw]; rfl)
      have hne : text.isEmpty = false := by
        cases text with
        | nil =>
          obtain ⟨a, b, c, d, e, rfl, -⟩ := h1
          simp [words, wordsFrom] at hw
        | cons c t => rfl
      rw [searchCache]
      simp only [hne, Bool.false_eq_true, if_false, ht1, matchRecord_vars]
      cases hfit : fitsB key r with
      | true => simp [hfit]
      | false =>
        simp only [Bool.false_eq_true, if_false, List.find?_cons, hfit]
        exact ih t r fuel ⟨wss, ht2, h2⟩ hfit (by simp at hf; omega)

/-- The search in a file with at least one record. -/
theorem searchCache_content (key : CacheKey F) {text : List Char} {recs : List CacheRecord} (hc : CacheContent text recs)
    (hne : recs ≠ []) (fuel : ℕ) (hf : recs.length + 1 ≤ fuel) :
    searchCache key fuel {} { rest := text } = .ok ((recs.find? (fitsB key)).map fun r => lit r.sp) := by
  obtain ⟨fuel, rfl⟩ : ∃ k, fuel = k + 1 := ⟨fuel - 1, by omega⟩
  obtain ⟨wss, hw, hr⟩ := hc
  cases hr with
  | nil => exact absurd rfl hne
  | cons h1 h2 =>
    rename_i ws r wss recs
    obtain ⟨t, ht1, ht2⟩ := readRecord_record (F := F) {} h1 (rest := wss.flatten) (by rw [hw]; rfl)
    rw [searchCache]
    simp only [Bool.false_eq_true, if_false, ht1, matchRecord_vars]
    cases hfit : fitsB key r with
    | true => simp [hfit]
    | false =>
      simp only [Bool.false_eq_true, if_false, List.find?_cons, hfit]
      exact searchCache_from key recs t r fuel ⟨wss, ht2, h2⟩ hfit (by simp at hf; omega)

end generic

theorem fitsB_real (key : CacheKey ℝ) (r : CacheRecord) : fitsB key r = true ↔ Fits key r := by
  unfold fitsB almostEqual Fits
  simp only [lit_real, fabs_real, lt_real, Bool.and_eq_true, decide_eq_true_eq]
  norm_num
  tauto

open scoped Classical in
theorem lookup_eq (recs : List CacheRecord) (key : CacheKey ℝ) :
    ((recs.find? (fitsB key)).map fun r => (lit r.sp : ℝ)) = lookup recs key := by
  unfold lookup
  have : fitsB key = fun r => decide (Fits key r) := by
    funext r
    rw [Bool.eq_iff_iff, fitsB_real]; simp
  rw [this]
  rfl

/-! ## C53: termination of the search -/

/-- The search in a file with at least one record, and nothing else. -/
theorem search_lookup (key : CacheKey ℝ) {text : List Char} {recs : List CacheRecord} (hc : CacheContent text recs)
    (hne : recs ≠ []) (fuel : ℕ) (hf : recs.length + 1 ≤ fuel) :
    searchCache key fuel {} { rest := text } = .ok (lookup recs key) := by
  rw [searchCache_content key hc hne fuel hf, lookup_eq]

theorem takeDrop_length {α : Type} (p : α → Bool) (s : List α) : (s.takeWhile p).length + (s.dropWhile p).length = s.length := by
  rw [← List.length_append, List.takeWhile_append_dropWhile]

theorem scanSign_length (s : List Char) : (scanSign s).2.length ≤ s.length := by
  unfold scanSign
  split <;> simp

/-- An integer that was read consists of at least one character. -/
theorem scanInt_consumes {s t : List Char} {k : ℤ} (h : scanInt s = (some k, t)) : t.length < s.length := by
  unfold scanInt at h
  dsimp only at h
  have h1 := scanSign_length s
  have h2 := takeDrop_length isDig (scanSign s).2
  by_cases he : ((scanSign s).2.takeWhile isDig).isEmpty = true
  · simp only [he, if_true, Prod.mk.injEq] at h; cases h.1
  · simp only [he, Bool.false_eq_true, if_false, Prod.mk.injEq] at h
    rw [← h.2]
    have : 0 < ((scanSign s).2.takeWhile isDig).length := by
      rw [List.length_pos_iff]; intro h0; rw [h0] at he; exact he rfl
    omega

theorem scanFrac_length (s : List Char) : (scanFrac s).1.length + (scanFrac s).2.length ≤ s.length := by
  unfold scanFrac
  split
  · rename_i s
    have := takeDrop_length isDig s
    simp only [List.length_cons]; omega
  · simp

theorem scanExp_length (s : List Char) : (scanExp s).2.length ≤ s.length := by
  unfold scanExp
  split
  · rename_i c s
    split
    · have h1 := takeDrop_length isDig (scanSign s).2
      have h2 := scanSign_length s
      simp only [List.length_cons]; omega
    · simp
  · simp

/-- So does a floating point number. -/
theorem scanFloat_consumes {s t : List Char} {q : ℚ} (h : scanFloat s = (some q, t)) : t.length < s.length := by
  unfold scanFloat at h
  dsimp only at h
  have h1 := scanSign_length s
  have h2 := takeDrop_length isDig (scanSign s).2
  have h3 := scanFrac_length ((scanSign s).2.dropWhile isDig)
  have h4 := scanExp_length (scanFrac ((scanSign s).2.dropWhile isDig)).2
  by_cases he : (((scanSign s).2.takeWhile isDig).isEmpty && (scanFrac ((scanSign s).2.dropWhile isDig)).1.isEmpty) = true
  · simp only [he, if_true, Prod.mk.injEq] at h; cases h.1
  · simp only [he, Bool.false_eq_true, if_false] at h
    have hpos : 0 < ((scanSign s).2.takeWhile isDig).length + (scanFrac ((scanSign s).2.dropWhile isDig)).1.length := by
      by_contra h0
      apply he
      have a1 : ((scanSign s).2.takeWhile isDig) = [] := List.eq_nil_of_length_eq_zero (by omega)
      have a2 : (scanFrac ((scanSign s).2.dropWhile isDig)).1 = [] := List.eq_nil_of_length_eq_zero (by omega)
      rw [a1, a2]; rfl
    have ht : t = (scanExp (scanFrac ((scanSign s).2.dropWhile isDig)).2).2 := by
      generalize scanExp (scanFrac ((scanSign s).2.dropWhile isDig)).2 = z at h
      obtain ⟨o, z2⟩ := z
      split at h
      · rename_i heq; cases heq; simp only [Prod.mk.injEq] at h; exact h.2.symm
      · simp only [Prod.mk.injEq] at h; cases h.1
      · rename_i heq; cases heq; simp only [Prod.mk.injEq] at h; exact h.2.symm
    rw [ht]; omega

theorem scanF_consumes {s t : List Char} {x : ℝ} (h : scanF s = (some x, t)) : t.length < s.length := by
  unfold scanF at h
  split at h
  · rename_i q t' heq
    simp only [Prod.mk.injEq] at h
    rw [← h.2]; exact scanFloat_consumes heq
  · simp only [Prod.mk.injEq] at h; cases h.1

/-- After an extraction the stream has failed, or it has fewer characters left. -/
theorem extract_shrinks {α : Type} (zero : α) (scan : List Char → Option α × List Char)
    (hscan : ∀ s t x, scan s = (some x, t) → t.length < s.length) (is : IStream) :
    (is.extract zero scan).2.fail = true ∨
      (is.fail = false ∧ (is.extract zero scan).2.rest.length < is.rest.length) := by
  unfold IStream.extract
  by_cases hb : (is.eof || is.fail) = true
  · left; simp only [hb, if_true]
  · simp only [hb, Bool.false_eq_true, if_false]
    have hf : is.fail = false := by
      rw [Bool.not_eq_true, Bool.or_eq_false_iff] at hb; exact hb.2
    by_cases he : (is.rest.dropWhile isSpace).isEmpty = true
    · left; simp only [he, if_true]
    · simp only [he, Bool.false_eq_true, if_false]
      have hl := takeDrop_length isSpace is.rest
      cases hs : scan (is.rest.dropWhile isSpace) with
      | mk o t =>
        cases o with
        | none => exact .inl rfl
        | some v =>
          have := hscan _ _ _ hs
          exact .inr ⟨hf, by dsimp only; omega⟩

/-- So after a record. -/
theorem readRecord_shrinks (x : CacheVars ℝ) (is : IStream) :
    (readRecord x is).2.fail = true ∨ (readRecord x is).2.rest.length < is.rest.length := by
  have e1 := extract_shrinks (0:ℤ) scanInt (fun _ _ _ => scanInt_consumes) is
  have e2 := extract_shrinks (lit 0 : ℝ) scanF (fun _ _ _ => scanF_consumes) (is.extract (0:ℤ) scanInt).2
  have e3 := extract_shrinks (lit 0 : ℝ) scanF (fun _ _ _ => scanF_consumes) ((is.extract (0:ℤ) scanInt).2.extract (lit 0 : ℝ) scanF).2
  have e4 := extract_shrinks (lit 0 : ℝ) scanF (fun _ _ _ => scanF_consumes)
    (((is.extract (0:ℤ) scanInt).2.extract (lit 0 : ℝ) scanF).2.extract (lit 0 : ℝ) scanF).2
  have e5 := extract_shrinks (lit 0 : ℝ) scanF (fun _ _ _ => scanF_consumes)
    ((((is.extract (0:ℤ) scanInt).2.extract (lit 0 : ℝ) scanF).2.extract (lit 0 : ℝ) scanF).2.extract (lit 0 : ℝ) scanF).2
  show (((((is.extract (0:ℤ) scanInt).2.extract (lit 0 : ℝ) scanF).2.extract (lit 0 : ℝ) scanF).2.extract (lit 0 : ℝ) scanF).2.extract
      (lit 0 : ℝ) scanF).2.fail = true ∨ (((((is.extract (0:ℤ) scanInt).2.extract (lit 0 : ℝ) scanF).2.extract (lit 0 : ℝ) scanF).2.extract
      (lit 0 : ℝ) scanF).2.extract (lit 0 : ℝ) scanF).2.rest.length < is.rest.length
  rcases e5 with e5 | ⟨f5, e5⟩
  · exact .inl e5
  rcases e4 with e4 | ⟨f4, e4⟩
  · rw [f5] at e4; cases e4
  rcases e3 with e3 | ⟨f3, e3⟩
  · rw [f4] at e3; cases e3
  rcases e2 with e2 | ⟨f2, e2⟩
  · rw [f3] at e2; cases e2
  rcases e1 with e1 | ⟨f1, e1⟩
  · rw [f2] at e1; cases e1
  right; omega

theorem extract_fail (α : Type) (zero : α) (scan : List Char → Option α × List Char) (is : IStream) (h1 : is.eof = false)
    (h2 : is.fail = true) : is.extract zero scan = (none, is) := by
  unfold IStream.extract
  obtain ⟨rest, eof, fail⟩ := is
  simp only at h1 h2
  subst h1 h2
  rfl

/-- Reading from a failed stream does nothing. -/
theorem readRecord_fail (x : CacheVars ℝ) (is : IStream) (h1 : is.eof = false) (h2 : is.fail = true) : readRecord x is = (x, is) := by
  unfold readRecord
  simp only [extract_fail _ _ _ is h1 h2]
  simp

/-- Comparing a record is not a loop. -/
theorem matchRecord_ne_fuel (key : CacheKey ℝ) (x : CacheVars ℝ) : matchRecord key x ≠ .error .fuel := by
  have huse : ∀ {α : Type} (what : String) (o : Option α), useVar what o ≠ .error .fuel := by
    intro α what o h; cases o <;> cases h
  have hb : ∀ {α β : Type} (a : Res α) (f : α → Res β), a ≠ .error .fuel → (∀ x, f x ≠ .error .fuel) → (a >>= f) ≠ .error .fuel := by
    intro α β a f h1 h2 h
    cases a with
    | error e => exact h1 (by simpa [bind, Except.bind] using h)
    | ok x => exact h2 x h
  unfold matchRecord
  refine hb _ _ (huse _ _) fun w => ?_
  split
  · intro h; cases h
  refine hb _ _ (huse _ _) fun v => ?_
  split
  · intro h; cases h
  refine hb _ _ (huse _ _) fun s => ?_
  split
  · intro h; cases h
  refine hb _ _ (huse _ _) fun m => ?_
  split
  · intro h; cases h
  refine hb _ _ (huse _ _) fun sp => ?_
  intro h; cases h

/-- A failed stream that is not at its end: the loop never ends. -/
theorem searchCache_failed (key : CacheKey ℝ) (x : CacheVars ℝ) (is : IStream) (h1 : is.eof = false) (h2 : is.fail = true)
    (hm : matchRecord key x = .ok none) (fuel : ℕ) : searchCache key fuel x is = .error .fuel := by
  induction fuel with
  | zero => rw [searchCache]; simp [h1]
  | succ fuel ih =>
    rw [searchCache]
    simp only [h1, Bool.false_eq_true, if_false, readRecord_fail x is h1 h2, hm]
    exact ih

/-- The passes of the search loop (from the values `x` of the variables and the stream `is`) reach a pass in which no record is
found, although the input is unreadable before its end: the characters that follow do not form a number. -/
inductive Spec.ReachesGarbage (key : CacheKey ℝ) : CacheVars ℝ → IStream → Prop
  | here {x is x' is'} : is.eof = false → readRecord x is = (x', is') → matchRecord key x' = .ok none → is'.eof = false → is'.fail = true →
      ReachesGarbage key x is
  | later {x is x' is'} : is.eof = false → readRecord x is = (x', is') → matchRecord key x' = .ok none → ReachesGarbage key x' is' →
      ReachesGarbage key x is

/-- **C53: termination of the search, every file content.**  For every text of the cache file and every configuration: if the
search meets something that is not a number before it has found a record, it never ends (whatever number of passes is
allowed); otherwise it ends — with a value, without one, or by using an uninitialised variable — in at most one pass
per character plus one.  A file that consists of complete records (at least one) never is of the first kind, and the result is the
value of the first fitting record. -/
theorem C53_search_ends (key : CacheKey ℝ) (text : List Char) :
    (ReachesGarbage key {} { rest := text } ∧ ∀ fuel, searchCache key fuel {} { rest := text } = .error .fuel) ∨
    (¬ ReachesGarbage key {} { rest := text } ∧ ∃ res : Res (Option ℝ), res ≠ .error .fuel ∧
      ∀ fuel, text.length + 1 ≤ fuel → searchCache key fuel {} { rest := text } = res) := by
  have never : ∀ (x : CacheVars ℝ) (is : IStream), ReachesGarbage key x is → ∀ fuel, searchCache key fuel x is = .error .fuel := by
    intro x is h
    induction h with
    | here h0 h1 h2 h3 h4 =>
      intro fuel
      cases fuel with
      | zero => rw [searchCache]; simp [h0]
      | succ fuel =>
        rw [searchCache]
        simp only [h0, Bool.false_eq_true, if_false, h1, h2]
        exact searchCache_failed key _ _ h3 h4 h2 fuel
    | later h0 h1 h2 h3 ih =>
      intro fuel
      cases fuel with
      | zero => rw [searchCache]; simp [h0]
      | succ fuel =>
        rw [searchCache]
        simp only [h0, Bool.false_eq_true, if_false, h1, h2]
        exact ih fuel
  have ends : ∀ (n : ℕ) (x : CacheVars ℝ) (is : IStream), is.rest.length ≤ n → (is.fail = true → is.eof = true) →
      ¬ ReachesGarbage key x is → ∃ res : Res (Option ℝ), res ≠ .error .fuel ∧ ∀ fuel, n + 1 ≤ fuel → searchCache key fuel x is = res := by
    intro n
    induction n with
    | zero =>
      intro x is hn hf hng
      by_cases he : is.eof = true
      · refine ⟨.ok none, by simp, fun fuel hfu => ?_⟩
        obtain ⟨fuel, rfl⟩ : ∃ k, fuel = k + 1 := ⟨fuel - 1, by omega⟩
        rw [searchCache]; simp [he]
      · rw [Bool.not_eq_true] at he
        cases hr : readRecord x is with
        | mk x' is' =>
          have hs := readRecord_shrinks x is
          rw [hr] at hs
          have hfail : is'.fail = true := by
            rcases hs with h | h
            · exact h
            · dsimp only at h; omega
          cases hm : matchRecord key x' with
          | error e =>
            refine ⟨.error e, ?_, fun fuel hfu => ?_⟩
            · intro h; cases h; exact matchRecord_ne_fuel _ _ hm
            · obtain ⟨fuel, rfl⟩ : ∃ k, fuel = k + 1 := ⟨fuel - 1, by omega⟩
              rw [searchCache]; simp only [he, Bool.false_eq_true, if_false, hr, hm]
          | ok o =>
            cases o with
            | some sp =>
              refine ⟨.ok (some sp), by simp, fun fuel hfu => ?_⟩
              obtain ⟨fuel, rfl⟩ : ∃ k, fuel = k + 1 := ⟨fuel - 1, by omega⟩
              rw [searchCache]; simp only [he, Bool.false_eq_true, if_false, hr, hm]
            | none =>
              have he' : is'.eof = true := by
                by_contra h0
                rw [Bool.not_eq_true] at h0
                exact hng (.here he hr hm h0 hfail)
              refine ⟨.ok none, by simp, fun fuel hfu => ?_⟩
              obtain ⟨fuel, rfl⟩ : ∃ k, fuel = k + 1 := ⟨fuel - 1, by omega⟩
              rw [searchCache]
              simp only [he, Bool.false_eq_true, if_false, hr, hm]
              cases fuel <;> rw [searchCache] <;> simp [he']
    | succ n ih =>
      intro x is hn hf hng
      by_cases he : is.eof = true
      · refine ⟨.ok none, by simp, fun fuel hfu => ?_⟩
        obtain ⟨fuel, rfl⟩ : ∃ k, fuel = k + 1 := ⟨fuel - 1, by omega⟩
        rw [searchCache]; simp [he]
      · rw [Bool.not_eq_true] at he
        cases hr : readRecord x is with
        | mk x' is' =>
          have hs := readRecord_shrinks x is
          rw [hr] at hs
          cases hm : matchRecord key x' with
          | error e =>
            refine ⟨.error e, ?_, fun fuel hfu => ?_⟩
            · intro h; cases h; exact matchRecord_ne_fuel _ _ hm
            · obtain ⟨fuel, rfl⟩ : ∃ k, fuel = k + 1 := ⟨fuel - 1, by omega⟩
              rw [searchCache]; simp only [he, Bool.false_eq_true, if_false, hr, hm]
          | ok o =>
            cases o with
            | some sp =>
              refine ⟨.ok (some sp), by simp, fun fuel hfu => ?_⟩
              obtain ⟨fuel, rfl⟩ : ∃ k, fuel = k + 1 := ⟨fuel - 1, by omega⟩
              rw [searchCache]; simp only [he, Bool.false_eq_true, if_false, hr, hm]
            | none =>
              by_cases hfail : is'.fail = true
              · have he' : is'.eof = true := by
                  by_contra h0
                  rw [Bool.not_eq_true] at h0
                  exact hng (.here he hr hm h0 hfail)
                refine ⟨.ok none, by simp, fun fuel hfu => ?_⟩
                obtain ⟨fuel, rfl⟩ : ∃ k, fuel = k + 1 := ⟨fuel - 1, by omega⟩
                rw [searchCache]
                simp only [he, Bool.false_eq_true, if_false, hr, hm]
                cases fuel <;> rw [searchCache] <;> simp [he']
              · have hlt : is'.rest.length < is.rest.length := by
                  rcases hs with h | h
                  · exact absurd h hfail
                  · exact h
                obtain ⟨res, k1, k2⟩ := ih x' is' (by omega) (fun h => absurd h hfail) (fun h => hng (.later he hr hm h))
                refine ⟨res, k1, fun fuel hfu => ?_⟩
                obtain ⟨fuel, rfl⟩ : ∃ k, fuel = k + 1 := ⟨fuel - 1, by omega⟩
                rw [searchCache]
                simp only [he, Bool.false_eq_true, if_false, hr, hm]
                exact k2 fuel (by omega)
  by_cases h : ReachesGarbage key {} { rest := text }
  · exact .inl ⟨h, never _ _ h⟩
  · exact .inr ⟨h, ends text.length {} { rest := text } le_rfl (fun h => by cases h) h⟩

/-- **C53, well-formed files.**  A cache with at least one record and nothing else is searched in at most one pass per record plus
one; the result is the value of the first fitting record. -/
theorem C53_well_formed (key : CacheKey ℝ) {text : List Char} {recs : List CacheRecord} (hc : CacheContent text recs)
    (hne : recs ≠ []) :
    ¬ ReachesGarbage key {} { rest := text } ∧
    ∀ fuel, recs.length + 1 ≤ fuel → searchCache key fuel {} { rest := text } = .ok (lookup recs key) := by
  refine ⟨?_, fun fuel hf => search_lookup key hc hne fuel hf⟩
  intro h
  rcases C53_search_ends key text with ⟨-, h1⟩ | ⟨h1, -⟩
  · have h2 := search_lookup key hc hne (recs.length + 1) le_rfl
    rw [h1] at h2; cases h2
  · exact h1 h

/-- A cache file without a number (in particular an empty one) makes the program use uninitialised variables. -/
theorem C53_empty_file_ub (key : CacheKey ℝ) (text : List Char) (h : words text = []) (fuel : ℕ) :
    ∃ s, searchCache key (fuel + 1) {} { rest := text } = .error (.ub s) := by
  refine ⟨"uninitialised nucleon_width_", ?_⟩
  rw [searchCache]
  simp only [Bool.false_eq_true, if_false]
  rw [readRecord_blank _ h]
  rfl

/-- A stream in failed state that is not at its end is never left: nothing is read any more. -/
theorem searchCache_stuck (key : CacheKey ℝ) (r : CacheRecord) (hr : fitsB key r = false) (fuel : ℕ) (is : IStream)
    (h1 : is.eof = false) (h2 : is.fail = true) : searchCache key fuel (varsOf r) is = .error .fuel := by
  induction fuel generalizing is with
  | zero => rw [searchCache]; simp [h1]
  | succ fuel ih =>
    rw [searchCache]
    have hrd : readRecord (varsOf (F := ℝ) r) is = (varsOf r, is) := by
      obtain ⟨rest, eof, fail⟩ := is
      simp only at h1 h2
      subst h1 h2
      unfold readRecord
      simp [extract_bad]
    simp only [h1, Bool.false_eq_true, if_false, hrd, matchRecord_vars, hr]
    exact ih _ h1 h2

/-- A line that is not a record, after records that do not fit, makes the search run forever. -/
theorem C53_garbage_never_ends (key : CacheKey ℝ) {text : List Char} {r : CacheRecord} (hc : CacheContent text [r])
    (he : EndsBlank text) (hr : ¬ Fits key r) (hm0 : key.m ≠ 0) (fuel : ℕ) :
    searchCache key fuel {} { rest := text ++ "# comment\n".toList } = .error .fuel := by
  cases fuel with
  | zero => rw [searchCache]; simp
  | succ fuel =>
    obtain ⟨wss, hw, hrr⟩ := hc
    cases hrr with
    | cons h1 h2 =>
      cases h2
      rename_i ws
      have hw' : words (text ++ "# comment\n".toList) = [ws].flatten ++ ["#".toList, "comment".toList] := by
        rw [words_append_of_blank_end _ _ he, hw]
        have : words "# comment\n".toList = ["#".toList, "comment".toList] := by decide
        rw [this]
      rw [List.flatten_cons, List.flatten_nil, List.append_nil] at hw'
      obtain ⟨t, ht1, ht2⟩ := readRecord_record (F := ℝ) {} h1 hw'
      have hfit : fitsB key r = false := by
        rw [← Bool.not_eq_true, fitsB_real]; exact hr
      rw [searchCache]
      simp only [Bool.false_eq_true, if_false, ht1, matchRecord_vars, hfit]
      cases fuel with
      | zero =>
        rw [searchCache]
        cases t with
        | nil => simp [words, wordsFrom] at ht2
        | cons c t => simp
      | succ fuel =>
        rw [searchCache]
        have hne : t.isEmpty = false := by
          cases t with
          | nil => simp [words, wordsFrom] at ht2
          | cons c t => rfl
        obtain ⟨t', hd, hb, -, -⟩ := words_cons_split ht2
        have hex : IStream.extract (0:ℤ) scanInt { rest := t } = (some 0, { rest := '#' :: t', eof := false, fail := true }) := by
          unfold IStream.extract
          simp only [Bool.or_self, Bool.false_eq_true, if_false, hd]
          rfl
        have hrd : readRecord (varsOf (F := ℝ) r) { rest := t } =
            (varsOf { r with m := 0 }, { rest := '#' :: t', eof := false, fail := true }) := by
          unfold readRecord
          rw [hex]
          simp [extract_bad, varsOf]
        simp only [hne, Bool.false_eq_true, if_false, hrd, matchRecord_vars]
        have hm : fitsB key { r with m := 0 } = false := by simp [fitsB, hm0]
        simp only [hm, Bool.false_eq_true, if_false]
        exact searchCache_stuck key _ hm fuel _ rfl rfl

/-! ## Records as written -/

theorem intOf_intDigits (k : ℤ) : intOf (intDigits k) = some k := by
  unfold intOf
  have h := takeWhile_digits (s := natDigits k.natAbs) (t := []) (natDigits_isDig _) (by intro c hc; cases hc)
  rw [List.append_nil] at h
  have hsc : scanInt (intDigits k) = (some k, []) := by
    unfold scanInt
    have hs : scanSign (intDigits k) = (decide (k < 0), natDigits k.natAbs) := by
      have := scanSign_signed (decide (k < 0)) (s := natDigits k.natAbs) (by
        intro c hc; exact natDigits_isDig _ c (List.mem_of_mem_head? hc))
      rw [← this]
      unfold intDigits
      by_cases hk : k < 0 <;> simp [hk]
    have hne : (natDigits k.natAbs).isEmpty = false := by rw [List.isEmpty_eq_false_iff]; exact natDigits_ne_nil _
    rw [hs]
    simp only [h.1, h.2, hne, Bool.false_eq_true, if_false, digitsVal_natDigits]
    by_cases hk : k < 0
    · simp only [hk, decide_true, if_true]; congr 2; omega
    · simp only [hk, decide_false, Bool.false_eq_true, if_false]; congr 2; omega
  rw [hsc]

/-- Parameters whose columns stay apart in the cache file: non-negative and below 100 (to six decimals); the fitted value is
non-negative, with a decimal exponent of at most three digits. -/
structure Spec.Cacheable (key : CacheKey ℝ) (sp : ℝ) : Prop where
  w : 0 ≤ key.w ∧ key.w < 99.999999
  v : 0 ≤ key.v ∧ key.v < 99.999999
  s : 0 ≤ key.s ∧ key.s < 99.999999
  sp_nonneg : 0 ≤ sp
  sp_range : sp = 0 ∨ ((10:ℝ) ^ (-999 : ℤ) ≤ sp ∧ sp < 10 ^ (999 : ℤ))

/-- The text of a record. -/
noncomputable def recordText (key : CacheKey ℝ) (sp : ℝ) : List Char :=
  intDigits key.m ++ (List.replicate (4 - (intDigits key.m).length) ' ' ++ (padTo 10 (fmtFixed 6 key.w) ++ (padTo 10 (fmtFixed 6 key.v) ++
    (padTo 10 (fmtFixed 6 key.s) ++ (padTo 14 (fmtSci 6 sp) ++ ['\n'])))))

theorem writeRecord_eq (key : CacheKey ℝ) (sp : ℝ) : (writeRecord key sp {}).out = recordText key sp := by
  unfold writeRecord recordText
  simp [OStream.put, OStream.int, OStream.dbl, OStream.setw, OStream.setprecision, OStream.fixed, OStream.scientific,
    OStream.setLeft, OStream.setRight, padTo, NumFmt.fmt]

/-- What is written is read back as one record that fits the parameters, with the fitted value to seven digits. -/
theorem recordText_content {key : CacheKey ℝ} {sp : ℝ} (h : Cacheable key sp) :
    ∃ r, CacheContent (recordText key sp) [r] ∧ Fits key r ∧ |(r.sp : ℝ) - sp| ≤ 5e-7 * |sp| ∧ EndsBlank (recordText key sp) := by
  obtain ⟨qw, hw1, hw2⟩ := numberOf_fmtFixed 6 key.w
  obtain ⟨qv, hv1, hv2⟩ := numberOf_fmtFixed 6 key.v
  obtain ⟨qs, hs1, hs2⟩ := numberOf_fmtFixed 6 key.s
  obtain ⟨qp, hp1, hp2⟩ := numberOf_fmtSci 6 sp
  have hlen : ∀ x : ℝ, 0 ≤ x ∧ x < 99.999999 → (fmtFixed 6 x).length < 10 := by
    intro x hx
    have := fmtFixed_length_le (p := 6) (k := 2) (by norm_num) (by norm_num) hx.1 (by have := hx.2; norm_num at this ⊢; linarith)
    omega
  have hsp : (fmtSci 6 sp).length < 14 := by
    have := fmtSci_length_le (p := 6) (k := 3) (by norm_num) h.sp_nonneg (by norm_num) (by
      apply sciParts_exp_lt 6 (10 ^ 3) _ (by norm_num)
      rcases h.sp_range with h0 | ⟨h1, h2⟩
      · exact Or.inl h0
      · right; rw [abs_of_nonneg h.sp_nonneg]; norm_num at h1 h2 ⊢; exact ⟨h1, h2⟩)
    omega
  have hfits : Fits key ⟨key.m, qw, qv, qs, qp⟩ := by
    refine ⟨rfl, ?_, ?_, ?_⟩ <;> rw [abs_sub_comm]
    · refine lt_of_le_of_lt hw2 (by norm_num)
    · refine lt_of_le_of_lt hv2 (by norm_num)
    · refine lt_of_le_of_lt hs2 (by norm_num)
  refine ⟨⟨key.m, qw, qv, qs, qp⟩, ?_, hfits, ?_, ?_⟩
  · refine ⟨[[intDigits key.m, fmtFixed 6 key.w, fmtFixed 6 key.v, fmtFixed 6 key.s, fmtSci 6 sp]], ?_, ?_⟩
    · have wd : ∀ (k : ℕ) (ff : FloatField) (x : ℝ) (t : List Char), (∀ c ∈ t.head?, isSpace c = true) →
          words (padTo k (NumFmt.fmt ff 6 x) ++ t) = NumFmt.fmt ff 6 x :: words t :=
        fun k ff x t ht => words_padTo (fmt_ne_nil ff 6 x) (fmt_not_space ff 6 x) ht
      have wf : ∀ (k : ℕ) (x : ℝ) (t : List Char), (∀ c ∈ t.head?, isSpace c = true) →
          words (padTo k (fmtFixed 6 x) ++ t) = fmtFixed 6 x :: words t := fun k x => wd k .fixed x
      have ws : ∀ (k : ℕ) (x : ℝ) (t : List Char), (∀ c ∈ t.head?, isSpace c = true) →
          words (padTo k (fmtSci 6 x) ++ t) = fmtSci 6 x :: words t := fun k x => wd k .scientific x
      unfold recordText
      have hb : ∀ c ∈ List.replicate (4 - (intDigits key.m).length) ' ', isSpace c = true := by
        intro c hc; rw [List.eq_of_mem_replicate hc]; decide
      have hhead : ∀ t : List Char, ∀ c ∈ (List.replicate (4 - (intDigits key.m).length) ' ' ++ (padTo 10 (fmtFixed 6 key.w) ++ t)).head?,
          isSpace c = true := by
        intro t c hc
        cases hk : 4 - (intDigits key.m).length with
        | zero => rw [hk] at hc; exact padTo_head (hlen _ h.w) c hc
        | succ k => rw [hk, List.replicate_succ] at hc; simp at hc; rw [← hc]; decide
      rw [words_word (intDigits_ne_nil _) (intDigits_not_space _) (hhead _), words_blanks hb,
        wf _ _ _ (padTo_head (hlen _ h.v)), wf _ _ _ (padTo_head (hlen _ h.s)), wf _ _ _ (padTo_head hsp),
        ws _ _ _ (by intro c hc; simp at hc; rw [← hc]; decide)]
      rfl
    · exact .cons ⟨_, _, _, _, _, rfl, intOf_intDigits _, hw1, hv1, hs1, hp1⟩ .nil
  · refine hp2.trans ?_
    norm_num
  · right
    refine ⟨intDigits key.m ++ (List.replicate (4 - (intDigits key.m).length) ' ' ++ (padTo 10 (fmtFixed 6 key.w) ++
      (padTo 10 (fmtFixed 6 key.v) ++ (padTo 10 (fmtFixed 6 key.s) ++ padTo 14 (fmtSci 6 sp))))), '\n', ?_, by decide⟩
    unfold recordText
    simp

theorem Spec.CacheContent.append {t t' : List Char} {rs rs' : List CacheRecord} (h : CacheContent t rs) (hb : EndsBlank t)
    (h' : CacheContent t' rs') : CacheContent (t ++ t') (rs ++ rs') := by
  obtain ⟨ws, h1, h2⟩ := h
  obtain ⟨ws', h1', h2'⟩ := h'
  exact ⟨ws ++ ws', by rw [words_append_of_blank_end _ _ hb, h1, h1', List.flatten_append], List.rel_append h2 h2'⟩

theorem Spec.EndsBlank.append {t t' : List Char} (h : EndsBlank t') (h' : t' ≠ []) : EndsBlank (t ++ t') := by
  rcases h with rfl | ⟨s, c, rfl, hc⟩
  · exact absurd rfl h'
  · exact .inr ⟨t ++ s, c, by simp, hc⟩

/-! ## C50: one run -/

/-- The cache file exists, is accessible, and says `recs`. -/
structure Spec.CacheState (env : OsEnv) (ce : CacheEnv) (fs : FS ℝ) (recs : List CacheRecord) : Prop where
  dir : ∃ d, cacheDir ce = .ok d ∧ fs d = some .dir ∧ env.openOk (d ++ ["cross_section.cache"]) = true ∧
    ce.readOk (d ++ ["cross_section.cache"]) = true ∧
    ∃ t, fs (d ++ ["cross_section.cache"]) = some (.file (.text t)) ∧ CacheContent t recs ∧ EndsBlank t

/-- No cache file yet, but the directory exists or can be created. -/
structure Spec.NoCache (env : OsEnv) (ce : CacheEnv) (fs : FS ℝ) : Prop where
  dir : ∃ d, cacheDir ce = .ok d ∧ (fs d = some .dir ∨ (fs d = none ∧ fs.isDir d.dropLast = true ∧ env.mkdirOk d = true ∧ d ≠ [])) ∧
    env.openOk (d ++ ["cross_section.cache"]) = true ∧ ce.readOk (d ++ ["cross_section.cache"]) = true ∧
    fs (d ++ ["cross_section.cache"]) = none

section
variable {E D : Type}

theorem dropLast_concat_path (d : Path) (c : String) : (d ++ [c]).dropLast = d := by simp

/-- **C50.** With an existing cache (at least one record): if a record fits, the value of the first fitting one is returned and
nothing changes; otherwise the fit decides, and if it succeeds exactly one record is appended to the file (which fits the
parameters and holds the value to seven digits), nothing else changes. -/
theorem C50_lookup (env : OsEnv) (ce : CacheEnv) {fs : FS ℝ} {recs : List CacheRecord} (hs : CacheState env ce fs recs)
    (hne : recs ≠ []) (key : CacheKey ℝ) (fit : Rand E D → Res ℝ × Rand E D) (r : Rand E D) (fuel : ℕ) (hf : recs.length + 1 ≤ fuel) :
    (∀ c, lookup recs key = some c → partonicCrossSection env ce fuel key fit fs r = (.ok c, fs, r)) ∧
    (lookup recs key = none →
      (∀ e r', fit r = (.error e, r') → partonicCrossSection env ce fuel key fit fs r = (.error e, fs, r')) ∧
      (∀ sp r', fit r = (.ok sp, r') → Cacheable key sp → ∃ rec fs', partonicCrossSection env ce fuel key fit fs r = (.ok sp, fs', r') ∧
        CacheState env ce fs' (recs ++ [rec]) ∧ Fits key rec ∧ |(rec.sp : ℝ) - sp| ≤ 5e-7 * |sp| ∧
        ∃ d t, cacheDir ce = .ok d ∧ fs (d ++ ["cross_section.cache"]) = some (.file (.text t)) ∧
          fs' = fs.set (d ++ ["cross_section.cache"]) (.file (.text (t ++ recordText key sp))))) := by
  obtain ⟨d, hd, hdir, hopen, hread, t, ht, hc, hb⟩ := hs.dir
  have hcreate : FS.createDir env d fs = (.ok (), fs) := by unfold FS.createDir; rw [hdir]
  have hex : fs.exists (d ++ ["cross_section.cache"]) = true := by simp [FS.exists, ht]
  have hor : openRead ce fs (d ++ ["cross_section.cache"]) = { rest := t } := by unfold openRead; rw [ht]; simp [hread]
  have hsearch := search_lookup key hc hne fuel hf
  have hcan : fs.canOpen env (d ++ ["cross_section.cache"]) = true := by
    unfold FS.canOpen
    rw [hopen, dropLast_concat_path]
    simp [FS.isDir, hdir, ht]
  have happ : openAppend env (d ++ ["cross_section.cache"]) fs = fs := by
    unfold openAppend; rw [if_pos hcan, ht]
  refine ⟨?_, ?_⟩
  · intro c hl
    unfold partonicCrossSection
    simp only [hd, hcreate, hex, if_true, hor, hsearch, hl]
  · intro hl
    refine ⟨?_, ?_⟩
    · intro e r' hfit
      unfold partonicCrossSection
      simp only [hd, hcreate, hex, if_true, hor, hsearch, hl, happ, hfit]
    · intro sp r' hfit hcb
      obtain ⟨rec, hr1, hr2, hr3, hr4⟩ := recordText_content hcb
      refine ⟨rec, fs.set (d ++ ["cross_section.cache"]) (.file (.text (t ++ recordText key sp))), ?_, ?_, hr2, hr3, d, t, hd, ht, rfl⟩
      · unfold partonicCrossSection
        simp only [hd, hcreate, hex, if_true, hor, hsearch, hl, happ, hfit, writeRecord_eq]
        unfold appendText
        rw [if_pos hcan, ht]
      · have hnn : d ≠ d ++ ["cross_section.cache"] := by
          intro h; have := congrArg List.length h; simp at this
        exact ⟨d, hd, by unfold FS.set; rw [if_neg hnn]; exact hdir, hopen, hread, t ++ recordText key sp,
          by unfold FS.set; rw [if_pos rfl], hc.append hb hr1, hr4.append (by
            unfold recordText
            simp [intDigits_ne_nil])⟩

/-- **C50, first run.** Without a cache file a successful fit creates it with one record. -/
theorem C50_first_run (env : OsEnv) (ce : CacheEnv) {fs : FS ℝ} (hs : NoCache env ce fs)
    (key : CacheKey ℝ) (fit : Rand E D → Res ℝ × Rand E D) (r r' : Rand E D) (fuel : ℕ) (sp : ℝ) (hfit : fit r = (.ok sp, r'))
    (hcb : Cacheable key sp) :
    ∃ rec fs', partonicCrossSection env ce fuel key fit fs r = (.ok sp, fs', r') ∧ CacheState env ce fs' [rec] ∧ Fits key rec ∧
      |(rec.sp : ℝ) - sp| ≤ 5e-7 * |sp| := by
  obtain ⟨d, hd, hdir, hopen, hread, ht⟩ := hs.dir
  have hnn : d ≠ d ++ ["cross_section.cache"] := by
    intro h; have := congrArg List.length h; simp at this
  -- after create_directory
  obtain ⟨fs1, hcreate, hdir1, ht1⟩ : ∃ fs1, FS.createDir env d fs = (.ok (), fs1) ∧ fs1 d = some .dir ∧
      fs1 (d ++ ["cross_section.cache"]) = none := by
    rcases hdir with hdir | ⟨h1, h2, h3, h4⟩
    · exact ⟨fs, by unfold FS.createDir; rw [hdir], hdir, ht⟩
    · refine ⟨fs.set d .dir, ?_, ?_, ?_⟩
      · unfold FS.createDir
        rw [h1]
        simp [h2, h3, h4]
      · unfold FS.set; rw [if_pos rfl]
      · unfold FS.set; rw [if_neg (Ne.symm hnn)]; exact ht
  have hex : fs1.exists (d ++ ["cross_section.cache"]) = false := by simp [FS.exists, ht1]
  have hcan : fs1.canOpen env (d ++ ["cross_section.cache"]) = true := by
    unfold FS.canOpen
    rw [hopen, dropLast_concat_path]
    simp [FS.isDir, hdir1, ht1]
  obtain ⟨rec, hr1, hr2, hr3, hr4⟩ := recordText_content hcb
  let fs2 := fs1.set (d ++ ["cross_section.cache"]) (.file (.text []))
  have happ : openAppend env (d ++ ["cross_section.cache"]) fs1 = fs2 := by
    unfold openAppend; rw [if_pos hcan, ht1]
  have hdir2 : fs2 d = some .dir := by show FS.set _ _ _ _ = _; unfold FS.set; rw [if_neg hnn]; exact hdir1
  have ht2 : fs2 (d ++ ["cross_section.cache"]) = some (.file (.text [])) := by
    show FS.set _ _ _ _ = _; unfold FS.set; rw [if_pos rfl]
  have hcan2 : fs2.canOpen env (d ++ ["cross_section.cache"]) = true := by
    unfold FS.canOpen
    rw [hopen, dropLast_concat_path]
    simp [FS.isDir, hdir2, ht2]
  refine ⟨rec, fs2.set (d ++ ["cross_section.cache"]) (.file (.text (recordText key sp))), ?_, ?_, hr2, hr3⟩
  · unfold partonicCrossSection
    simp only [hd, hcreate, hex, Bool.false_eq_true, if_false, happ, hfit, writeRecord_eq]
    unfold appendText
    rw [if_pos hcan2, ht2]
    rfl
  · exact ⟨d, hd, by unfold FS.set; rw [if_neg hnn]; exact hdir2, hopen, hread, recordText key sp,
      by unfold FS.set; rw [if_pos rfl], hr1, hr4⟩

/-! ## C51: histories of runs -/

/-- One program run, as far as the cache is concerned: its parameters, its fit and its random state. -/
structure Spec.CacheRun (E D : Type) where
  key : CacheKey ℝ
  fit : Rand E D → Res ℝ × Rand E D
  rand : Rand E D

/-- The file system after a sequence of runs. -/
noncomputable def Spec.afterRuns (env : OsEnv) (ce : CacheEnv) (fuel : ℕ) : List (CacheRun E D) → FS ℝ → FS ℝ
  | [], fs => fs
  | q :: qs, fs => afterRuns env ce fuel qs (partonicCrossSection env ce fuel q.key q.fit fs q.rand).2.1

/-- The values a run may store are cacheable. -/
def Spec.CacheRun.Ok (q : CacheRun E D) : Prop := ∀ sp r', q.fit q.rand = (.ok sp, r') → Cacheable q.key sp

theorem lookup_append {recs : List CacheRecord} {key : CacheKey ℝ} {c : ℝ} (h : lookup recs key = some c) (rs : List CacheRecord) :
    lookup (recs ++ rs) key = some c := by
  unfold lookup at h ⊢
  rw [Option.map_eq_some_iff] at h ⊢
  obtain ⟨r, h1, h2⟩ := h
  exact ⟨r, by rw [List.find?_append, h1]; rfl, h2⟩

/-- A history of runs only appends records. -/
theorem afterRuns_state (env : OsEnv) (ce : CacheEnv) (fuel : ℕ) (runs : List (CacheRun E D)) (hok : ∀ q ∈ runs, q.Ok) {fs : FS ℝ}
    {recs : List CacheRecord} (hs : CacheState env ce fs recs) (hne : recs ≠ []) (hf : recs.length + runs.length + 1 ≤ fuel) :
    ∃ more, CacheState env ce (afterRuns env ce fuel runs fs) (recs ++ more) ∧ more.length ≤ runs.length := by
  induction runs generalizing fs recs with
  | nil => exact ⟨[], by rw [List.append_nil]; exact hs, le_refl _⟩
  | cons q qs ih =>
    rw [afterRuns]
    rw [List.length_cons] at hf
    obtain ⟨h1, h2⟩ := C50_lookup env ce hs hne q.key q.fit q.rand fuel (by omega)
    cases hl : lookup recs q.key with
    | some c =>
      rw [h1 c hl]
      obtain ⟨more, h3, h4⟩ := ih (fun q hq => hok q (by simp [hq])) hs hne (by omega)
      exact ⟨more, h3, by simp; omega⟩
    | none =>
      obtain ⟨h3, h4⟩ := h2 hl
      cases hfit : q.fit q.rand with
      | mk res r' =>
        cases res with
        | error e =>
          rw [h3 e r' hfit]
          obtain ⟨more, h5, h6⟩ := ih (fun q hq => hok q (by simp [hq])) hs hne (by omega)
          exact ⟨more, h5, by simp; omega⟩
        | ok sp =>
          obtain ⟨rec, fs', h5, h6, -⟩ := h4 sp r' hfit (hok q (by simp) sp r' hfit)
          rw [h5]
          obtain ⟨more, h7, h8⟩ := ih (fun q hq => hok q (by simp [hq])) h6 (by simp) (by simp; omega)
          exact ⟨rec :: more, by simpa using h7, by simp; omega⟩

/-- **C51.** Once a run with some parameters has succeeded — as the very first run or with an existing cache — then after any
history of further runs with any parameters every later run with the same parameters finds the cache and returns one and the
same value, which agrees with the value of the first run to seven significant digits. -/
theorem C51_stable (env : OsEnv) (ce : CacheEnv) (fs fs1 : FS ℝ) (q : CacheRun E D) (hq : q.Ok) (recs : List CacheRecord)
    (hs : (NoCache env ce fs ∧ recs = []) ∨ (CacheState env ce fs recs ∧ recs ≠ [])) (fuel : ℕ) (sp : ℝ) (r1 : Rand E D)
    (hrun : partonicCrossSection env ce fuel q.key q.fit fs q.rand = (.ok sp, fs1, r1)) (hf1 : recs.length + 1 ≤ fuel) :
    ∃ c : ℝ, |c - sp| ≤ 5e-7 * |sp| ∧
      ∀ (runs : List (CacheRun E D)), (∀ q' ∈ runs, q'.Ok) → ∀ fuel', recs.length + runs.length + 2 ≤ fuel' →
        ∀ (fit : Rand E D → Res ℝ × Rand E D) (r : Rand E D),
          partonicCrossSection env ce fuel' q.key fit (afterRuns env ce fuel' runs fs1) r =
            (.ok c, afterRuns env ce fuel' runs fs1, r) := by
  -- the state after the first run
  obtain ⟨c, recs1, hc, hs1, hl1, hne1, hlen⟩ : ∃ (c : ℝ) (recs1 : List CacheRecord), |c - sp| ≤ 5e-7 * |sp| ∧
      CacheState env ce fs1 recs1 ∧ lookup recs1 q.key = some c ∧ recs1 ≠ [] ∧ recs1.length ≤ recs.length + 1 := by
    have hfit : ∀ {rec : CacheRecord}, Fits q.key rec → lookup [rec] q.key = some (rec.sp : ℝ) := by
      intro rec h
      unfold lookup
      simp [h]
    rcases hs with ⟨hs, rfl⟩ | ⟨hs, hne⟩
    · -- no cache: the fit must have succeeded
      have hfit' : ∃ r', q.fit q.rand = (.ok sp, r') := by
        obtain ⟨d, hd, hdir, hopen, hread, ht⟩ := hs.dir
        have hnn : d ≠ d ++ ["cross_section.cache"] := by
          intro h; have := congrArg List.length h; simp at this
        obtain ⟨fs1', hcreate, ht1⟩ : ∃ fs1', FS.createDir env d fs = (.ok (), fs1') ∧
            fs1' (d ++ ["cross_section.cache"]) = none := by
          rcases hdir with hdir | ⟨h1, h2, h3, h4⟩
          · exact ⟨fs, by unfold FS.createDir; rw [hdir], ht⟩
          · refine ⟨fs.set d .dir, ?_, ?_⟩
            · unfold FS.createDir
              rw [h1]
              simp [h2, h3, h4]
            · unfold FS.set; rw [if_neg (Ne.symm hnn)]; exact ht
        have hex : fs1'.exists (d ++ ["cross_section.cache"]) = false := by simp [FS.exists, ht1]
        unfold partonicCrossSection at hrun
        simp only [hd, hcreate, hex, Bool.false_eq_true, if_false] at hrun
        cases hfit : q.fit q.rand with
        | mk res r' =>
          cases res with
          | error e => simp only [hfit, Prod.mk.injEq] at hrun; cases hrun.1
          | ok sp' =>
            simp only [hfit, Prod.mk.injEq, Except.ok.injEq] at hrun
            exact ⟨r', by rw [hrun.1]⟩
      obtain ⟨r', hfit'⟩ := hfit'
      obtain ⟨rec, fs', h1, h2, h3, h4⟩ := C50_first_run env ce hs q.key q.fit q.rand r' fuel sp hfit' (hq sp r' hfit')
      rw [h1] at hrun
      simp only [Prod.mk.injEq, true_and] at hrun
      obtain ⟨rfl, rfl⟩ := hrun
      exact ⟨rec.sp, [rec], h4, h2, hfit h3, by simp, by simp⟩
    · obtain ⟨h1, h2⟩ := C50_lookup env ce hs hne q.key q.fit q.rand fuel hf1
      cases hl : lookup recs q.key with
      | some c =>
        rw [h1 c hl] at hrun
        simp only [Prod.mk.injEq, Except.ok.injEq] at hrun
        obtain ⟨rfl, rfl, rfl⟩ := hrun
        exact ⟨c, recs, by rw [sub_self, abs_zero]; positivity, hs, hl, hne, by omega⟩
      | none =>
        obtain ⟨h3, h4⟩ := h2 hl
        cases hfit' : q.fit q.rand with
        | mk res r' =>
          cases res with
          | error e =>
            rw [h3 e r' hfit'] at hrun
            simp only [Prod.mk.injEq] at hrun; cases hrun.1
          | ok sp' =>
            obtain ⟨rec, fs', h5, h6, h7, h8, -⟩ := h4 sp' r' hfit' (hq sp' r' hfit')
            rw [h5] at hrun
            simp only [Prod.mk.injEq, Except.ok.injEq] at hrun
            obtain ⟨rfl, rfl, rfl⟩ := hrun
            refine ⟨rec.sp, recs ++ [rec], h8, h6, ?_, by simp, by simp⟩
            have hnone : recs.find? (fun r => @decide (Fits q.key r) (Classical.propDecidable _)) = none := by
              unfold lookup at hl
              rwa [Option.map_eq_none_iff] at hl
            have hone := hfit h7
            unfold lookup at hone ⊢
            rw [List.find?_append, hnone]
            simpa using hone
  refine ⟨c, hc, ?_⟩
  intro runs hok fuel' hf' fit r
  obtain ⟨more, h1, h2⟩ := afterRuns_state env ce fuel' runs hok hs1 hne1 (by omega)
  exact (C50_lookup env ce h1 (by simp [hne1]) q.key fit r fuel' (by simp; omega)).1 c (lookup_append hl1 more)

end

end Trento
