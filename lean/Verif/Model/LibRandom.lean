import Verif.Model.Random
import Mathlib.Data.Nat.Find

/-!
# The random library behind src/random.h

`Verif/Model/Random.lean` leaves the engine and the distributions abstract, and the theorems that use random numbers assume laws
about them.  This file models the concrete library trento is compiled against: the engine `std::mt19937_64` that src/random.h:22
names, as the C++ standard defines it ([rand.eng.mers], [rand.predef]), and the distributions trento uses, as libstdc++ implements
them (`bits/random.tcc`, `bits/uniform_int_dist.h`, `bits/stl_algo.h` of GCC 13; the standard leaves their algorithms open).

The algorithms are generic in the arithmetic `F` and in the engine `E`, so that the same text can be used with the Mersenne twister
and with an ideal source of independent uniform numbers.

Simplification: a parameter set that violates a precondition of the standard (a gamma distribution with a non-positive parameter, a
table that is no density) yields a fixed value instead of undefined behaviour; trento never passes one.
-/

namespace Trento

/-! ## Loops -/

/-- At most `n` passes of a `do … while` loop: `step` ends the loop (`.inl`), goes on (`.inr`), or itself never ends (`none`). -/
def loopN {S A : Type} (step : S → Option (A ⊕ S)) : Nat → S → Option A
  | 0, _ => none
  | n+1, s =>
    match step s with
    | none => none
    | some (.inl a) => some a
    | some (.inr s') => loopN step n s'

open scoped Classical in
/-- The loop without a bound; `none` if it never ends. -/
noncomputable def loop {S A : Type} (step : S → Option (A ⊕ S)) (s : S) : Option A :=
  if h : ∃ n, (loopN step n s).isSome then loopN step (Nat.find h) s else none

/-! ## The engine: `std::mt19937_64` (src/random.h:22) -/

/-- The state of a Mersenne twister: the last 312 words of its sequence, oldest first ([rand.eng.mers]: "a sequence X of n values").
libstdc++ keeps the same words in `_M_x` and regenerates them in blocks of 312; the sequence is the same. -/
structure MT where
  win : List (BitVec 64)

/-- One step of the seeding recurrence, `X_i = f (X_{i-1} ^ (X_{i-1} >> (w-2))) + i` ([rand.eng.mers]/6 with w = 64,
f = 6364136223846793005), run by `engine.seed(s)` at src/collider.cxx:75-76. -/
def mtSeedStep (i : Nat) (x : BitVec 64) : BitVec 64 :=
  6364136223846793005#64 * (x ^^^ (x >>> 62)) + BitVec.ofNat 64 i

/-- The word `X_i` after seeding with `s`. -/
def mtSeedWord (s : BitVec 64) : Nat → BitVec 64
  | 0 => s
  | i+1 => mtSeedStep (i+1) (mtSeedWord s i)

/-- `engine.seed(s)` (src/collider.cxx:75-76). -/
def MT.seed (s : UInt64) : MT := ⟨(List.range 312).map (mtSeedWord s.toBitVec)⟩

/-- The upper 33 bits of one word and the lower 31 of the next ([rand.eng.mers]/2.1, r = 31). -/
def mtJoin (x y : BitVec 64) : BitVec 64 :=
  (x &&& 0xffffffff80000000#64) ||| (y &&& 0x7fffffff#64)

/-- `α = a · (Y bitand 1)`, `Y rshift 1` xor `α` ([rand.eng.mers]/2.2-2.3, a = 0xb5026f5aa96619e9). -/
def mtTwist (y : BitVec 64) : BitVec 64 :=
  (y >>> 1) ^^^ (if y.getLsbD 0 then 0xb5026f5aa96619e9#64 else 0#64)

/-- The next word of the sequence, `X_i = X_{i+m-n} xor …` with n = 312, m = 156 ([rand.eng.mers]/2). -/
def MT.nextWord (s : MT) : BitVec 64 :=
  s.win.getD 156 0 ^^^ mtTwist (mtJoin (s.win.getD 0 0) (s.win.getD 1 0))

/-- The tempering `z_1, …, z_4` ([rand.eng.mers]/3, with u = 29, d = 0x5555555555555555, s = 17, b = 0x71d67fffeda60000, t = 37,
c = 0xfff7eee000000000, l = 43). -/
def mtTemper (x : BitVec 64) : BitVec 64 :=
  let z := x ^^^ ((x >>> 29) &&& 0x5555555555555555#64)
  let z := z ^^^ ((z <<< 17) &&& 0x71d67fffeda60000#64)
  let z := z ^^^ ((z <<< 37) &&& 0xfff7eee000000000#64)
  z ^^^ (z >>> 43)

/-- `engine()`: one 64-bit number and the new state. -/
def MT.word (s : MT) : BitVec 64 × MT :=
  let x := s.nextWord
  (mtTemper x, ⟨s.win.tail ++ [x]⟩)

/-- The conversion of a 64-bit number to `double`: the nearest integer with a 53-bit significand, ties to even
([conv.fpint] with round-to-nearest).  `unit` is the spacing of the doubles at `n`: with `2^e ≤ n < 2^(e+1)` it is `2^(e-52)`, and 1
below `2^53`. -/
def roundTo53 (n : Nat) : Nat :=
  let unit := 2 ^ (Nat.log2 n - 52)
  let q := n / unit
  let r := n % unit
  if 2 * r < unit then q * unit
  else if unit < 2 * r then (q + 1) * unit
  else if q % 2 = 0 then q * unit else (q + 1) * unit

/-- `std::generate_canonical<double, 53>(engine)` for a 64-bit engine (bits/random.tcc:3346-3379, called at src/random.h:28-31):
one number `g`, `double(g) / 2^64`, and `nextafter(1, 0)` if that is 1.  The result is exact, so it is given as a rational. -/
def canonicalQ (g : BitVec 64) : Rat :=
  let q : Rat := (roundTo53 g.toNat : Rat) / 18446744073709551616
  if 1 ≤ q then 1 - 1 / 9007199254740992 else q

/-- What the distributions need from an engine. -/
class Engine (F E : Type) where
  /-- `engine()` -/
  word : E → BitVec 64 × E
  /-- `std::generate_canonical<double, 53>(engine)` (src/random.h:28-31) -/
  canonical : E → F × E
  /-- `engine.seed(s)` (src/collider.cxx:75-76) -/
  seed : UInt64 → E

section
variable {F E : Type} [Arith F]

instance : Engine F MT where
  word := MT.word
  canonical s := (lit (canonicalQ s.word.1), s.word.2)
  seed := MT.seed

variable [Engine F E]

/-! ## The normal distribution -/

/-- `x == y` for numbers that are not NaN. -/
def eqv (x y : F) : Bool := !lt x y && !lt y x

/-- One pass of the polar method (bits/random.tcc:1828-1834): a point of the unit disc other than the centre, or try again. -/
def polarStep (e : E) : Option (((F × F × F) × E) ⊕ E) :=
  let (u, e) := Engine.canonical (F := F) e
  let (v, e) := Engine.canonical (F := F) e
  let x := lit 2 * u - lit 1
  let y := lit 2 * v - lit 1
  let r2 := x * x + y * y
  if lt (lit 1) r2 || eqv r2 (lit 0) then some (.inr e) else some (.inl ((x, y, r2), e))

/-- A standard normal number from a `std::normal_distribution` object whose saved value is `saved`
(bits/random.tcc:1811-1841; trento's objects: src/nucleon.h:140-143). -/
noncomputable def standardNormal (saved : Option F) (e : E) : Option (F × Option F × E) :=
  match saved with
  | some z => some (z, none, e)
  | none =>
    match loop (polarStep (F := F)) e with
    | none => none
    | some ((x, y, r2), e) =>
      let mult := sqrt (lit (-2) * log r2 / r2)
      some (y * mult, some (x * mult), e)

/-! ## The gamma distribution -/

/-- `_M_malpha` (bits/random.tcc:2341). -/
def gammaMalpha (alpha : F) : F := if lt alpha (lit 1) then alpha + lit 1 else alpha

/-- `__a1` (bits/random.tcc:2343, 2363-2364). -/
def gammaA1 (alpha : F) : F := gammaMalpha alpha - lit 1 / lit 3

/-- `_M_a2` (bits/random.tcc:2344). -/
def gammaA2 (alpha : F) : F := lit 1 / sqrt (lit 9 * gammaA1 alpha)

/-- One pass of the inner loop: a normal number `n` with `v = 1 + a2 n > 0` (bits/random.tcc:2368-2373). -/
noncomputable def gammaInnerStep (alpha : F) (s : Option F × E) : Option (((F × F) × (Option F × E)) ⊕ (Option F × E)) :=
  match standardNormal s.1 s.2 with
  | none => none
  | some (n, saved, e) =>
    let v := lit 1 + gammaA2 alpha * n
    if lt (lit 0) v then some (.inl ((n, v), (saved, e))) else some (.inr (saved, e))

/-- One pass of the outer loop (bits/random.tcc:2366-2380): the cube of `v`, accepted or not. -/
noncomputable def gammaOuterStep (alpha : F) (s : Option F × E) : Option ((F × (Option F × E)) ⊕ (Option F × E)) :=
  match loop (gammaInnerStep alpha) s with
  | none => none
  | some ((n, v), (saved, e)) =>
    let v := v * v * v
    let (u, e) := Engine.canonical (F := F) e
    if lt (lit 1 - lit 0.0331 * n * n * n * n) u
        && lt (lit 0.5 * n * n + gammaA1 alpha * (lit 1 - v + log v)) (log u) then
      some (.inr (saved, e))
    else some (.inl (v, (saved, e)))

/-- One pass of `do u = …; while (u == 0.0)` (bits/random.tcc:2386-2388). -/
def nonzeroStep (e : E) : Option ((F × E) ⊕ E) :=
  let (u, e) := Engine.canonical (F := F) e
  if eqv u (lit 0) then some (.inr e) else some (.inl (u, e))

/-- `std::gamma_distribution::operator()` (Marsaglia and Tsang, bits/random.tcc:2353-2393). -/
noncomputable def gammaDraw (alpha beta : F) (saved : Option F) (e : E) : Option (F × Option F × E) :=
  match loop (gammaOuterStep alpha) (saved, e) with
  | none => none
  | some (v, (saved, e)) =>
    if eqv alpha (gammaMalpha alpha) then some (gammaA1 alpha * v * beta, saved, e)
    else
      match loop (nonzeroStep (F := F)) e with
      | none => none
      | some (u, e) => some (pow u (lit 1 / alpha) * gammaA1 alpha * v * beta, saved, e)

/-! ## The piecewise linear distribution -/

/-- The areas under the segments (bits/random.tcc:3047-3049). -/
def segAreas : List (F × F) → List F
  | (b0, d0) :: (b1, d1) :: t => lit 0.5 * (d1 + d0) * (b1 - b0) :: segAreas ((b1, d1) :: t)
  | _ => []

/-- The slopes of the segments (bits/random.tcc:3050). -/
def segSlopes : List (F × F) → List F
  | (b0, d0) :: (b1, d1) :: t => (d1 - d0) / (b1 - b0) :: segSlopes ((b1, d1) :: t)
  | _ => []

/-- The running sums (bits/random.tcc:3042-3049). -/
def runningSums (acc : F) : List F → List F
  | [] => []
  | a :: t => (acc + a) :: runningSums (acc + a) t

/-- Are the breakpoints strictly increasing and the densities non-negative? ([rand.dist.samp.plinear]/3) -/
def goodTable : List (F × F) → Bool
  | (b0, d0) :: (b1, d1) :: t => lt b0 b1 && !lt d0 (lit 0) && goodTable ((b1, d1) :: t)
  | [(_, d)] => !lt d (lit 0)
  | [] => true

/-- `std::piecewise_linear_distribution`: `param_type::_M_initialize` (bits/random.tcc:3027-3067) and `operator()`
(bits/random.tcc:3125-3161), as a function of the uniform number `p`. -/
def pwlValue (table : List (F × F)) (p : F) : F :=
  let sums := runningSums (lit 0) (segAreas table)
  let sum := sums.getLastD (lit 0)
  let cp := (sums.map (· / sum)).dropLast ++ [lit 1]
  let i := cp.findIdx fun c => !lt c p
  let pref := if 0 < i then cp.getD (i-1) (lit 0) else lit 0
  let a := lit 0.5 * ((segSlopes table).getD i (lit 0) / sum)
  let b := (table.getD i (lit 0, lit 0)).2 / sum
  let cm := p - pref
  let x := (table.getD i (lit 0, lit 0)).1
  if eqv a (lit 0) then x + cm / b
  else x + lit 0.5 * (sqrt (b * b + lit 4 * a * cm) - b) / a

/-- A draw from `std::piecewise_linear_distribution` (src/nucleus.h:229).  A table that is not a density (fewer than two
breakpoints, breakpoints out of order, a negative density, no area) yields its first breakpoint; see the head of this file.
The special case of libstdc++ for the table [(0, d), (1, d)] (bits/random.tcc:3031-3039) is included. -/
def pwlDraw (table : List (F × F)) (e : E) : F × E :=
  let (p, e') := Engine.canonical (F := F) e
  if goodTable table && lt (lit 0) ((runningSums (lit 0) (segAreas table)).getLastD (lit 0)) then
    match table with
    | [(b0, d0), (b1, d1)] => if eqv b0 (lit 0) && eqv b1 (lit 1) && eqv d0 d1 then (p, e') else (pwlValue table p, e')
    | _ => (pwlValue table p, e')
  else ((table.headD (lit 0, lit 0)).1, e')

/-! ## Integers and shuffling -/

/-- One pass of Lemire's method (bits/uniform_int_dist.h:250-280, `_S_nd`): the high word of `g · range`, rejected if the low word is
below `(2^64 - range) mod range`.  (libstdc++ computes that threshold only if the low word is below `range`; the threshold is below
`range`, so the test is the same.) -/
def lemireStep (F : Type) {E : Type} [Engine F E] (range : Nat) (e : E) : Option ((Nat × E) ⊕ E) :=
  let (g, e) := Engine.word F e
  let product := g.toNat * range
  let low := product % 18446744073709551616
  if low < (18446744073709551616 - range) % range then some (.inr e)
  else some (.inl (product / 18446744073709551616, e))

/-- `std::uniform_int_distribution<std::size_t>(0, k)` with a 64-bit engine (bits/uniform_int_dist.h:283-360; used at
src/nucleus.cxx:481, 506). -/
noncomputable def uniformDraw (F : Type) {E : Type} [Engine F E] (k : Nat) (e : E) : Option (Nat × E) :=
  if k < 18446744073709551615 then loop (lemireStep F (k+1)) e
  else
    let (g, e) := Engine.word F e
    some (g.toNat, e)

/-- The rest of `std::shuffle` from position `i` on, two positions per random number (bits/stl_algo.h:3787-3796); `n` bounds the
number of passes. -/
noncomputable def shufflePairs (F : Type) {E : Type} [Engine F E] : Nat → Nat → Array F → E → Option (Array F × E)
  | 0, _, a, e => some (a, e)
  | n+1, i, a, e =>
    if i < a.size then
      match uniformDraw F ((i+1) * (i+2) - 1) e with
      | none => none
      | some (x, e) =>
        shufflePairs F n (i+2) ((a.swapIfInBounds i (x / (i+2))).swapIfInBounds (i+1) (x % (i+2))) e
    else some (a, e)

/-- The one-number-per-position variant for very long sequences (bits/stl_algo.h:3803-3804). -/
noncomputable def shuffleSingles (F : Type) {E : Type} [Engine F E] : Nat → Nat → Array F → E → Option (Array F × E)
  | 0, _, a, e => some (a, e)
  | n+1, i, a, e =>
    if i < a.size then
      match uniformDraw F i e with
      | none => none
      | some (x, e) => shuffleSingles F n (i+1) (a.swapIfInBounds i x) e
    else some (a, e)

/-- `std::shuffle` (bits/stl_algo.h:3739-3805; called at src/random.h:57, 95). -/
noncomputable def shuffleDraw (F : Type) {E : Type} [Engine F E] (l : List F) (e : E) : Option (List F × E) :=
  let a := l.toArray
  if a.size = 0 then some (l, e)
  else if a.size ≤ 18446744073709551615 / a.size then
    if a.size % 2 = 0 then
      match uniformDraw F 1 e with
      | none => none
      | some (x, e) => (shufflePairs F a.size 2 (a.swapIfInBounds 1 x) e).map fun r => (r.1.toList, r.2)
    else (shufflePairs F a.size 1 a e).map fun r => (r.1.toList, r.2)
  else (shuffleSingles F a.size 1 a e).map fun r => (r.1.toList, r.2)

/-! ## The library as a random source of the model -/

/-- The hidden state of trento's distribution objects: the saved value of `constituent_position_dist_` (src/nucleon.h:143) and that of
the normal distribution inside `participant_fluctuation_dist_` (src/nucleon.h:140; `_M_nd` in bits/random.h). -/
structure LibDist (F : Type) where
  position : Option F
  fluctuation : Option F

/-- A draw from `constituent_position_dist_` (src/nucleon.h:143), whose object has the state `d`.  A loop that never ends (impossible
for an engine whose numbers are not all rejected) yields a fixed value in place of no value, here and below. -/
noncomputable def libNormal (m s : F) (d : LibDist F) (e : E) : F × LibDist F × E :=
  match standardNormal d.position e with
  | none => (m, d, e)
  | some (z, saved, e) => (z * s + m, ⟨saved, d.fluctuation⟩, e)

/-- A draw from `participant_fluctuation_dist_` (src/nucleon.h:140). -/
noncomputable def libGamma (a b : F) (d : LibDist F) (e : E) : F × LibDist F × E :=
  if lt (lit 0) a && lt (lit 0) b then
    match gammaDraw a b d.fluctuation e with
    | none => (lit 0, d, e)
    | some (x, saved, e) => (x, ⟨d.position, saved⟩, e)
  else (lit 0, d, e)

/-- A draw from `uniform_int_distribution(0, k)` (src/nucleus.cxx:481, 506). -/
noncomputable def libUniform (k : Nat) (d : LibDist F) (e : E) : Nat × LibDist F × E :=
  match uniformDraw F k e with
  | none => (0, d, e)
  | some (i, e) => (i, d, e)

/-- libstdc++ with the engine `E`: the random source behind src/random.h, src/nucleon.h:138-143 and src/nucleus.h:229, 316. -/
noncomputable instance libRng : Rng F E (LibDist F) where
  canonical e := Engine.canonical e
  normal := libNormal
  gamma := libGamma
  piecewiseLinear t d e := ((pwlDraw t e).1, d, (pwlDraw t e).2)
  uniformInt := libUniform
  shuffle l e := (shuffleDraw F l e).getD (l, e)
  seed := Engine.seed F
  freshDist := ⟨none, none⟩

end

end Trento
