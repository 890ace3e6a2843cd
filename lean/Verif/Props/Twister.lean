import Verif.Model.LibRandom
import Mathlib.Tactic

/-!
# C96: the seed determines the random numbers, and different seeds give different random numbers
-/

namespace Trento

/-- The first `n` numbers `engine()` delivers. -/
def Spec.outputs : ℕ → MT → List (BitVec 64)
  | 0, _ => []
  | n+1, s => s.word.1 :: Spec.outputs n s.word.2
open Spec

/-! ### Each step is injective -/

/-- the tempering steps that shift right -/
theorem xorShiftRight_inj (k : ℕ) (hk : 0 < k) (m : BitVec 64) : Function.Injective fun x : BitVec 64 => x ^^^ ((x >>> k) &&& m) := by
  intro x y h
  have hb : ∀ i, (x ^^^ ((x >>> k) &&& m)).getLsbD i = (y ^^^ ((y >>> k) &&& m)).getLsbD i := fun i => by simp only [] at h; rw [h]
  have key : ∀ n i, 64 - i = n → x.getLsbD i = y.getLsbD i := by
    intro n
    induction n using Nat.strong_induction_on with
    | _ n ih =>
      intro i hi
      by_cases h64 : 64 ≤ i
      · rw [BitVec.getLsbD_of_ge _ _ h64, BitVec.getLsbD_of_ge _ _ h64]
      · have h1 := hb i
        have h2 := ih (64 - (k + i)) (by omega) (k + i) rfl
        simp only [BitVec.getLsbD_xor, BitVec.getLsbD_and, BitVec.getLsbD_ushiftRight, h2] at h1
        exact Bool.xor_left_inj.1 h1
  exact BitVec.eq_of_getLsbD_eq fun i _ => key _ i rfl

/-- the tempering steps that shift left -/
theorem xorShiftLeft_inj (k : ℕ) (hk : 0 < k) (m : BitVec 64) : Function.Injective fun x : BitVec 64 => x ^^^ ((x <<< k) &&& m) := by
  intro x y h
  have hb : ∀ i, (x ^^^ ((x <<< k) &&& m)).getLsbD i = (y ^^^ ((y <<< k) &&& m)).getLsbD i := fun i => by simp only [] at h; rw [h]
  have key : ∀ i, x.getLsbD i = y.getLsbD i := by
    intro i
    induction i using Nat.strong_induction_on with
    | _ i ih =>
      have h1 := hb i
      have h2 : (x <<< k).getLsbD i = (y <<< k).getLsbD i := by
        simp only [BitVec.getLsbD_shiftLeft]
        by_cases hik : i < k
        · simp [hik]
        · rw [ih (i - k) (by omega)]
      simp only [BitVec.getLsbD_xor, BitVec.getLsbD_and, h2] at h1
      exact Bool.xor_left_inj.1 h1
  exact BitVec.eq_of_getLsbD_eq fun i _ => key i

/-- **C96, tempering.** No two words of the sequence are tempered to the same number. -/
theorem C96_temper : Function.Injective mtTemper := by
  intro x y h
  unfold mtTemper at h
  simp only [] at h
  have h4 := xorShiftRight_inj 43 (by norm_num) (BitVec.allOnes 64)
  have h4' : Function.Injective fun x : BitVec 64 => x ^^^ (x >>> 43) := by
    intro x y hxy
    apply h4
    simp only [BitVec.and_allOnes] at hxy ⊢
    exact hxy
  have h := h4' h
  have h := xorShiftLeft_inj 37 (by norm_num) _ h
  have h := xorShiftLeft_inj 17 (by norm_num) _ h
  exact xorShiftRight_inj 29 (by norm_num) _ h

theorem mtTwist_inj : Function.Injective mtTwist := by
  intro x y h
  have top : ∀ z : BitVec 64, (mtTwist z).getLsbD 63 = z.getLsbD 0 := by
    intro z
    unfold mtTwist
    rw [BitVec.getLsbD_xor, BitVec.getLsbD_ushiftRight, BitVec.getLsbD_of_ge z (1 + 63) (by norm_num)]
    split
    · next h => rw [h]; decide
    · next h => simp only [Bool.not_eq_true] at h; rw [h]; decide
  have h0 : x.getLsbD 0 = y.getLsbD 0 := by rw [← top, ← top, h]
  have hs : x >>> 1 = y >>> 1 := by
    unfold mtTwist at h
    rw [h0] at h
    exact (BitVec.xor_left_inj _).1 h
  apply BitVec.eq_of_getLsbD_eq
  intro i hi
  cases i with
  | zero => exact h0
  | succ i =>
    have := congrArg (fun z : BitVec 64 => z.getLsbD i) hs
    simp only [BitVec.getLsbD_ushiftRight] at this
    rw [Nat.add_comm i 1]
    exact this

/-- each step of the seeding recurrence loses nothing -/
theorem mtSeedStep_inj (i : ℕ) : Function.Injective (mtSeedStep i) := by
  intro x y h
  unfold mtSeedStep at h
  have h1 : 6364136223846793005#64 * (x ^^^ (x >>> 62)) = 6364136223846793005#64 * (y ^^^ (y >>> 62)) := by
    simpa using h
  have inv : (13877824140714322085#64 : BitVec 64) * 6364136223846793005#64 = 1#64 := by decide
  have h2 := congrArg (fun z => (13877824140714322085#64 : BitVec 64) * z) h1
  simp only [← BitVec.mul_assoc, inv, BitVec.one_mul] at h2
  have h4 := xorShiftRight_inj 62 (by norm_num) (BitVec.allOnes 64)
  apply h4
  simp only [BitVec.and_allOnes]
  exact h2

theorem mtJoin_bits (x y : BitVec 64) (i : ℕ) (hi : i < 64) : (mtJoin x y).getLsbD i = if i < 31 then y.getLsbD i else x.getLsbD i := by
  have hm : ∀ j : Fin 64, (0xffffffff80000000#64).getLsbD j = !decide (j.1 < 31) ∧ (0x7fffffff#64).getLsbD j = decide (j.1 < 31) := by decide
  obtain ⟨h1, h2⟩ := hm ⟨i, hi⟩
  unfold mtJoin
  rw [BitVec.getLsbD_or, BitVec.getLsbD_and, BitVec.getLsbD_and, h1, h2]
  by_cases h : i < 31 <;> simp [h]

/-! ### The sequence -/

theorem getD_left (a b : List (BitVec 64)) (j : ℕ) (h : j < a.length) : (a ++ b).getD j 0 = a.getD j 0 := by
  simp only [List.getD_eq_getElem?_getD, List.getElem?_append_left h]

theorem getD_right (a b : List (BitVec 64)) (j : ℕ) (h : a.length ≤ j) : (a ++ b).getD j 0 = b.getD (j - a.length) 0 := by
  simp only [List.getD_eq_getElem?_getD, List.getElem?_append_right h]

/-- the first `n` words of the sequence after the state, before tempering -/
def rawWords : ℕ → MT → List (BitVec 64)
  | 0, _ => []
  | n+1, s => s.nextWord :: rawWords n s.word.2

theorem outputs_eq (n : ℕ) (s : MT) : outputs n s = (rawWords n s).map mtTemper := by
  induction n generalizing s with
  | zero => rfl
  | succ n ih => rw [outputs, rawWords, ih]; rfl

theorem rawWords_length (n : ℕ) (s : MT) : (rawWords n s).length = n := by
  induction n generalizing s with
  | zero => rfl
  | succ n ih => simp [rawWords, ih]

/-- the words of the state followed by the next `n` words -/
def allWords (n : ℕ) (s : MT) : List (BitVec 64) := s.win ++ rawWords n s

theorem allWords_succ (n : ℕ) (s : MT) (hs : s.win ≠ []) : allWords (n+1) s = s.win.head hs :: allWords n s.word.2 := by
  unfold allWords
  rw [rawWords]
  show s.win ++ s.nextWord :: rawWords n s.word.2 = s.win.head hs :: ((s.win.tail ++ [s.nextWord]) ++ rawWords n s.word.2)
  have h := List.cons_head_tail hs
  generalize s.win.head hs = a at h
  rw [← h]
  simp

/-- **C96, the recurrence.** The words obey `X_i = X_{i-156} xor twist(upper bits of X_{i-312}, lower bits of X_{i-311})`. -/
theorem allWords_rec (n : ℕ) (s : MT) (hs : s.win.length = 312) (k : ℕ) (hk : k < n) :
    (allWords n s).getD (k + 312) 0 =
      (allWords n s).getD (k + 156) 0 ^^^ mtTwist (mtJoin ((allWords n s).getD k 0) ((allWords n s).getD (k + 1) 0)) := by
  induction n generalizing s k with
  | zero => omega
  | succ n ih =>
    have hne : s.win ≠ [] := by intro h; rw [h] at hs; simp at hs
    cases k with
    | zero =>
      have hg : ∀ j < 312, (allWords (n+1) s).getD j 0 = s.win.getD j 0 := by
        intro j hj
        unfold allWords
        rw [getD_left _ _ _ (by omega)]
      rw [hg 0 (by norm_num), show (0 + 1 : ℕ) = 1 from rfl, hg 1 (by norm_num), show (0 + 156 : ℕ) = 156 from rfl, hg 156 (by norm_num)]
      unfold allWords
      rw [getD_right _ _ _ (by omega), hs]
      rfl
    | succ k =>
      rw [allWords_succ n s hne]
      have := ih s.word.2 (by show (s.win.tail ++ [s.nextWord]).length = 312; simp [hs]) k (by omega)
      rw [show k + 1 + 312 = (k + 312) + 1 by ring, show k + 1 + 156 = (k + 156) + 1 by ring, List.getD_cons_succ, List.getD_cons_succ,
        List.getD_cons_succ, List.getD_cons_succ]
      exact this

theorem seed_win (s : UInt64) : (MT.seed s).win.length = 312 := by simp [MT.seed]

theorem seed_word (s : UInt64) (n : ℕ) (j : ℕ) (hj : j < 312) : (allWords n (MT.seed s)).getD j 0 = mtSeedWord s.toBitVec j := by
  unfold allWords
  rw [getD_left _ _ _ (by rw [seed_win]; exact hj)]
  show ((List.range 312).map (mtSeedWord s.toBitVec)).getD j 0 = _
  simp [List.getD_eq_getElem?_getD, hj]

theorem mtSeedWord_inj (i : ℕ) (s t : BitVec 64) (h : mtSeedWord s i = mtSeedWord t i) : s = t := by
  induction i with
  | zero => exact h
  | succ i ih => exact ih (mtSeedStep_inj _ h)

/-- equal outputs mean equal words after the seed -/
theorem raw_of_outputs {s t : MT} {n : ℕ} (h : outputs n s = outputs n t) : rawWords n s = rawWords n t := by
  rw [outputs_eq, outputs_eq] at h
  exact List.map_injective_iff.2 C96_temper h

theorem late_words {s t : MT} (hs : s.win.length = 312) (ht : t.win.length = 312) (h : rawWords 312 s = rawWords 312 t) (k : ℕ) :
    (allWords 312 s).getD (k + 312) 0 = (allWords 312 t).getD (k + 312) 0 := by
  unfold allWords
  rw [getD_right _ _ _ (by omega), getD_right _ _ _ (by omega), h, hs, ht]

theorem join_of_late {s t : MT} (hs : s.win.length = 312) (ht : t.win.length = 312) (h : rawWords 312 s = rawWords 312 t) (k : ℕ) (h1 : 156 ≤ k)
    (h2 : k < 312) : mtJoin ((allWords 312 s).getD k 0) ((allWords 312 s).getD (k + 1) 0) =
      mtJoin ((allWords 312 t).getD k 0) ((allWords 312 t).getD (k + 1) 0) := by
  have e1 := allWords_rec 312 s hs k h2
  have e2 := allWords_rec 312 t ht k h2
  rw [late_words hs ht h k, e2] at e1
  obtain ⟨j, rfl⟩ : ∃ j, k = j + 156 := ⟨k - 156, by omega⟩
  rw [show j + 156 + 156 = j + 312 by ring, late_words hs ht h j] at e1
  exact (mtTwist_inj ((BitVec.xor_right_inj _).1 e1)).symm

/-- The first 312 outputs determine the 155 newest words of the state they started from. -/
theorem state_of_outputs {s t : MT} (hs : s.win.length = 312) (ht : t.win.length = 312) (h : outputs 312 s = outputs 312 t) (k : ℕ) (h1 : 157 ≤ k)
    (h2 : k < 312) : (allWords 312 s).getD k 0 = (allWords 312 t).getD k 0 := by
  have hr := raw_of_outputs h
  have j1 := join_of_late hs ht hr k (by omega) h2
  have j0 := join_of_late hs ht hr (k-1) (by omega) (by omega)
  rw [Nat.sub_add_cancel (by omega)] at j0
  apply BitVec.eq_of_getLsbD_eq
  intro i hi
  have b1 := congrArg (fun z : BitVec 64 => z.getLsbD i) j1
  have b0 := congrArg (fun z : BitVec 64 => z.getLsbD i) j0
  simp only [mtJoin_bits _ _ _ hi] at b0 b1
  by_cases h31 : i < 31
  · simpa only [h31, if_true] using b0
  · simpa only [h31, if_false] using b1

/-- **C96, different seeds.** Two different values of `random-seed` give different random numbers, and the difference shows within the
first 312 of them. -/
theorem C96_seeds (s t : UInt64) (hst : s ≠ t) : outputs 312 (MT.seed s) ≠ outputs 312 (MT.seed t) := by
  intro h
  apply hst
  have := state_of_outputs (seed_win s) (seed_win t) h 311 (by norm_num) (by norm_num)
  rw [seed_word s 312 311 (by norm_num), seed_word t 312 311 (by norm_num)] at this
  have := mtSeedWord_inj 311 _ _ this
  exact UInt64.toBitVec_inj.1 this

theorem temper_zero : mtTemper 0#64 = 0#64 := by decide

/-- the state that never leaves zero -/
def zeroState : MT := ⟨List.replicate 312 0#64⟩

theorem zeroState_word : zeroState.word = (0#64, zeroState) := by
  have h1 : zeroState.nextWord = 0#64 := by decide
  unfold MT.word
  rw [h1]
  simp only [temper_zero, Prod.mk.injEq, true_and]
  show (⟨(List.replicate 312 0#64).tail ++ [0#64]⟩ : MT) = ⟨List.replicate 312 0#64⟩
  rw [List.tail_replicate, ← List.replicate_succ']

theorem zeroState_outputs (n : ℕ) : outputs n zeroState = List.replicate n 0#64 := by
  induction n with
  | zero => rfl
  | succ n ih => rw [outputs, zeroState_word, ih]; rfl

/-- **C96, no dead seed.** The all-zero state, from which a Mersenne twister delivers only zeros for ever, is not reached by seeding:
with every seed, one of the first 312 numbers is not zero. -/
theorem C96_alive (s : UInt64) : ∃ g ∈ outputs 312 (MT.seed s), g ≠ 0#64 := by
  by_contra hc
  push Not at hc
  have hlen : (outputs 312 (MT.seed s)).length = 312 := by rw [outputs_eq, List.length_map, rawWords_length]
  have h : outputs 312 (MT.seed s) = outputs 312 zeroState := by
    rw [zeroState_outputs, List.eq_replicate_iff]
    exact ⟨hlen, hc⟩
  have hz : zeroState.win.length = 312 := List.length_replicate
  have z : ∀ k, 157 ≤ k → k < 312 → mtSeedWord s.toBitVec k = 0#64 := by
    intro k h1 h2
    rw [← seed_word s 312 k h2, state_of_outputs (seed_win s) hz h k h1 h2]
    unfold allWords
    rw [getD_left _ _ _ (by rw [hz]; exact h2)]
    show (List.replicate 312 0#64).getD k 0 = 0#64
    rw [List.getD_eq_getElem?_getD, List.getElem?_replicate, if_pos h2]
    rfl
  have h1 := z 158 (by norm_num) (by norm_num)
  rw [mtSeedWord, z 157 (by norm_num) (by norm_num)] at h1
  exact absurd h1 (by decide)

/-- A concrete check of the model against the published generator: its first number for the default seed.  (The 10000th, which the
C++ standard prescribes to be 9981545732273789042, was checked by evaluation; see DESIGN.md.) -/
example : (MT.seed 5489).word.1 = 14514284786278117030#64 := by decide +kernel

end Trento
