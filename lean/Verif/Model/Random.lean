import Verif.Model.Arith

/-!
# Random numbers (src/random.h, src/random.cxx)

`E` is the state of the global engine `random::engine` (std::mt19937_64, src/random.h:20-24,
src/random.cxx:11) and `D` the hidden state of the `std::*_distribution` objects a `Collider` owns
(src/nucleon.h:138-143, src/nucleus.h:229, 316).  The distributions themselves are standard library
code and stay abstract: `Rng` only fixes which state they read and write.
-/

namespace Trento

/-- Engine state and distribution-object state. -/
structure Rand (E D : Type) where
  eng : E
  dist : D

/-- The random sources of trento.  No laws here; see `LawfulRng` in `Verif/Model/RealArith.lean`. -/
class Rng (F E D : Type) where
  /-- `std::generate_canonical<double, 53>(engine)` (src/random.h:26-32) -/
  canonical : E → F × E
  /-- `std::normal_distribution<double>{mean, stddev}` (src/nucleon.h:143, src/nucleon.cxx:261); may keep a saved value -/
  normal : F → F → D → E → F × D × E
  /-- `std::gamma_distribution<double>{alpha, beta}` (src/nucleon.h:140, src/nucleon.cxx:260) -/
  gamma : F → F → D → E → F × D × E
  /-- `std::piecewise_linear_distribution<double>` with the given (breakpoint, density) pairs (src/nucleus.h:229) -/
  piecewiseLinear : List (F × F) → D → E → F × D × E
  /-- `std::uniform_int_distribution<std::size_t>(0, k)`, both ends included (src/nucleus.cxx:481, 506) -/
  uniformInt : Nat → D → E → Nat × D × E
  /-- `std::shuffle(first, last, engine)` (src/random.h:57, 95) -/
  shuffle : List F → E → List F × E
  /-- `engine.seed(s)` (src/collider.cxx:75-76): the new state depends on the seed only -/
  seed : UInt64 → E
  /-- state of freshly constructed distribution objects -/
  freshDist : D

variable {F E D : Type} [Arith F] [Rng F E D]

/-- `random::canonical<double>()` (src/random.h:26-32). -/
def canonical (w : Rand E D) : F × Rand E D :=
  let (u, e) := Rng.canonical (D := D) w.eng
  (u, { w with eng := e })

/-- `random::cos_theta<double>()` (src/random.h:34-38): `2 * canonical() - 1`. -/
def cosTheta (w : Rand E D) : F × Rand E D :=
  let (u, w) := canonical w
  (lit 2 * u - lit 1, w)

/-- `random::phi<double>()` (src/random.h:40-44): `two_pi * canonical()`. -/
def phi (w : Rand E D) : F × Rand E D :=
  let (u, w) := canonical w
  (twoPi * u, w)

/-- Draw from the constituent position distribution. -/
def drawNormal (mean sd : F) (w : Rand E D) : F × Rand E D :=
  let (x, d, e) := Rng.normal mean sd w.dist w.eng
  (x, ⟨e, d⟩)

/-- Draw from the participant fluctuation distribution. -/
def drawGamma (alpha beta : F) (w : Rand E D) : F × Rand E D :=
  let (x, d, e) := Rng.gamma alpha beta w.dist w.eng
  (x, ⟨e, d⟩)

/-- The constructor `std::piecewise_linear_distribution(nw, xmin, xmax, fw)` used at src/nucleus.cxx:187-188, as the C++
standard specifies it ([rand.dist.samp.plinear]): breakpoints `b_k = xmin + k δ` with `δ = (xmax - xmin) / nw` and densities
`fw(b_k)`, for `k = 0, …, nw`.  (libstdc++ evaluates `fw(b_k + δ)` instead, bits/random.tcc of GCC 13, line 3118.) -/
def linearTable (nw : Nat) (xmin xmax : F) (fw : F → F) : List (F × F) :=
  let delta := (xmax - xmin) / ofInt nw
  (List.range (nw+1)).map fun k : Nat => let b := xmin + ofInt (k : Int) * delta; (b, fw b)

/-- Draw from a piecewise linear distribution. -/
def drawPiecewiseLinear (table : List (F × F)) (w : Rand E D) : F × Rand E D :=
  let (x, d, e) := Rng.piecewiseLinear table w.dist w.eng
  (x, ⟨e, d⟩)

/-- Draw an index from `uniform_int_distribution(0, k)`. -/
def drawIndex (F : Type) [Rng F E D] (k : Nat) (w : Rand E D) : Nat × Rand E D :=
  let (i, d, e) := Rng.uniformInt F k w.dist w.eng
  (i, ⟨e, d⟩)

end Trento
