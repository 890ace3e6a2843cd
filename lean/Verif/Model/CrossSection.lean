import Verif.Model.Nucleon
import Verif.Model.Output

/-!
# The fitted cross section parameter (src/nucleon.cxx:51-337, src/random.h:46-96)

`partonic_cross_section`, its cache file, the semi-analytic and the Monte Carlo fit.
-/

namespace Trento
variable {F E D : Type} [Arith F]

/-! ## CyclicNormal (src/random.h:46-96) -/

/-- `random::CyclicNormal<double>` (src/random.h:48-78); `pos` is `iter_ - cache_.begin()`. -/
structure CyclicNormal (F : Type) where
  cache : List F
  nLoops : Nat
  loopCount : Nat
  pos : Nat

/-- The cached value number `i`, counted from 1 (src/random.h:89-93). -/
def CyclicNormal.quantile (mean sd : F) (size i : Nat) : F :=
  let z := lit (-1) + lit 2 * ofInt i / ofInt ((size : Int) + 1)
  let normal := rootTwo * erfInv z
  mean + sd * normal

/-- The cache before the first shuffle (src/random.h:89-93): `i = 1, …, size`. -/
def CyclicNormal.quantiles (mean sd : F) (size : Nat) : List F :=
  (List.range size).map fun i => CyclicNormal.quantile mean sd size (i+1)

section
variable [Rng F E D]

/-- The constructor (src/random.h:80-96). -/
def CyclicNormal.make (mean sd : F) (size nLoops : Nat) (w : Rand E D) : CyclicNormal F × Rand E D :=
  let (cache, e) := Rng.shuffle D (CyclicNormal.quantiles mean sd size) w.eng
  (⟨cache, nLoops, 0, 0⟩, { w with eng := e })

/-- `operator()` (src/random.h:55-66): reshuffle if the loop count exceeds its limit, wrap around at the end, return the
element and advance.  Dereferencing `begin()` of an empty cache is undefined. -/
def CyclicNormal.draw (c : CyclicNormal F) (w : Rand E D) : Res (F × CyclicNormal F × Rand E D) :=
  let (c, w) :=
    if c.nLoops < c.loopCount then
      let (cache, e) := Rng.shuffle D c.cache w.eng
      ({ c with cache := cache, loopCount := 0 }, { w with eng := e })
    else (c, w)
  let c := if c.pos = c.cache.length then { c with pos := 0, loopCount := c.loopCount + 1 } else c
  match c.cache[c.pos]? with
  | none => .error (.ub "dereference of the end iterator")
  | some x => .ok (x, { c with pos := c.pos + 1 }, w)

/-! ## Monte Carlo cross section (src/nucleon.cxx:264-337, src/nucleon.h:324-345) -/

/-- `MonteCarloCrossSection` (src/nucleon.h:324-345, src/nucleon.cxx:264-272).  The constants (src/nucleon.h:339-343) are
parameters of the loop below. -/
structure MonteCarlo (F : Type) where
  constituentNumber : Nat
  samplingWidth : F
  maxImpact : F
  constituentWidthSq : F
  prefactor : F

/-- The constructor (src/nucleon.cxx:264-272), for a non-negative constituent number. -/
def MonteCarlo.make (w v : F) (m : Nat) : MonteCarlo F :=
  { constituentNumber := m
    samplingWidth := calcSamplingWidth w v m
    maxImpact := maxImpactWidths * w
    constituentWidthSq := sqr v
    prefactor := oneDivTwoPi / sqr v / ofInt m }

/-- Fill the constituent positions of one nucleon (src/nucleon.cxx:296-299, 301-304): x, then y, for each. -/
def drawCyclicPositions : Nat → CyclicNormal F → Rand E D → Res (List (F × F) × CyclicNormal F × Rand E D)
  | 0, c, w => .ok ([], c, w)
  | k+1, c, w =>
    match c.draw w with
    | .error e => .error e
    | .ok (x, c, w) =>
      match c.draw w with
      | .error e => .error e
      | .ok (y, c, w) =>
        match drawCyclicPositions k c w with
        | .error e => .error e
        | .ok (qs, c, w) => .ok ((x, y) :: qs, c, w)

/-- The overlap double loop (src/nucleon.cxx:306-312). -/
def mcOverlap (widthSq b : F) (as bs : List (F × F)) : F :=
  as.foldl (init := lit 0) fun acc qA =>
    bs.foldl (init := acc) fun acc qB =>
      let distanceSq := sqr (qA.1 - qB.1 + b) + sqr (qA.2 - qB.2)
      acc + exp (-(lit 0.25) * distanceSq / widthSq)

/-- One sample of the miss probability (src/nucleon.cxx:294-315). -/
def mcSample (mc : MonteCarlo F) (sigma : F) (c : CyclicNormal F) (w : Rand E D) : Res (F × CyclicNormal F × Rand E D) :=
  let (u, w) := canonical w
  let b := mc.maxImpact * sqrt u
  match drawCyclicPositions mc.constituentNumber c w with
  | .error e => .error e
  | .ok (as, c, w) =>
    match drawCyclicPositions mc.constituentNumber c w with
    | .error e => .error e
    | .ok (bs, c, w) =>
      let overlap := mcOverlap mc.constituentWidthSq b as bs
      .ok (exp (-sigma * mc.prefactor / (lit 2 * ofInt mc.constituentNumber) * overlap), c, w)

/-- The value computed in pass `n` (src/nucleon.cxx:317-318): `M_PI*max_impact_sq_*(1. - prob_miss/n)`. -/
def mcEstimate (mc : MonteCarlo F) (probMiss : F) (n : Nat) : F :=
  pi * sqr mc.maxImpact * (lit 1 - probMiss / ofInt n)

/-- The test `update_difference < tolerance` (src/nucleon.cxx:320-322) of pass `n`.  In pass 0 the estimate divides by `n = 0` and is not finite
(`-inf`, or NaN if the miss probability underflowed), and then so is the reference in pass 1; the difference is `inf` or NaN and the test fails.  `none`
stands for a reference that is not finite. -/
def mcWithin (tol : F) (n : Nat) (cs : F) : Option F → Bool
  | some ref => decide (n ≠ 0) && lt (fabs (cs - ref)) tol
  | none => false

/-- `ref_cross_section = cross_section` (src/nucleon.cxx:326) in pass `n`. -/
def mcReference (n : Nat) (cs : F) : Option F := if n = 0 then none else some cs

/-- The sampling loop (src/nucleon.cxx:292-336) with `k` passes left, in pass `n`.  The result also lists the sampled miss
probabilities (not part of the code; used to state properties). -/
def mcLoop (mc : MonteCarlo F) (sigma : F) (nPass : Nat) (tol : F) :
    Nat → Nat → Option F → F → Nat → CyclicNormal F → Rand E D → Res (F × List F × Rand E D)
  | 0, _, _, _, _, _, _ => .error (.throw .outOfRange "Partonic cross section failed to converge")
  | k+1, n, ref, probMiss, pass, c, w =>
    match mcSample mc sigma c w with
    | .error e => .error e
    | .ok (p, c, w) =>
      let probMiss := probMiss + p
      let cs := mcEstimate mc probMiss n
      let within := mcWithin tol n cs ref
      let ref := if within then ref else mcReference n cs
      let pass := if within then pass + 1 else 0
      if nPass < pass then .ok (cs, [p], w)
      else
        match mcLoop mc sigma nPass tol k (n+1) ref probMiss pass c w with
        | .error e => .error e
        | .ok (v, ps, w) => .ok (v, p :: ps, w)

/-- The sizes used by `operator()` (src/nucleon.h:339-343). -/
structure MCConst where
  nMax : Nat
  cacheSize : Nat
  nLoops : Nat
  nPass : Nat

/-- The values in the source (src/nucleon.h:339-342); the tolerance is 0.001 (line 343). -/
def mcConst : MCConst := ⟨10000000, 1000000, 10, 10000⟩

/-- `MonteCarloCrossSection::operator()` (src/nucleon.cxx:274-337). -/
def MonteCarlo.run (k : MCConst) (mc : MonteCarlo F) (sigma : F) (w : Rand E D) : Res (F × List F × Rand E D) :=
  let (c, w) := CyclicNormal.make (lit 0) mc.samplingWidth k.cacheSize k.nLoops w
  mcLoop mc sigma k.nPass (lit 0.001) k.nMax 0 (some (lit 0)) (lit 0) 0 c w

end

/-! ## The two fits -/

/-- `boost::math::tools::toms748_solve(f, a, b, tol, max_iter)` with `eps_tolerance(bits)`: boost code, abstract.  `f` may
have a state (the Monte Carlo fit draws random numbers) and may throw.  No laws; see `LawfulToms`. -/
class Toms748 (F : Type) where
  solve : {S : Type} → (F → S → Res F × S) → F → F → Nat → Nat → S → Res (F × F) × S

/-- The function whose root is sought for one constituent (src/nucleon.cxx:119-123): `c - Ei(-eˣ) + Ei(-eˣ⁻ᶜ) - rhs`. -/
def analyticEq (c rhs x : F) : F := c - expint (-(exp x)) + expint (-(exp (x - c))) - rhs

/-- `rhs` (src/nucleon.cxx:112). -/
def analyticRhs (sigmaNN width : F) : F := sigmaNN / (lit 4 * pi * sqr width)

/-- `c` (src/nucleon.cxx:115): `sqr(max_impact_widths) / 4`. -/
def analyticC : F := sqr maxImpactWidths / lit 4

section
variable [Toms748 F]

/-- What both fits do with the outcome of the root finder: use the middle of the bracket, translate `std::domain_error`
(src/nucleon.cxx:126-133, 164-171). -/
def fitResult (scale : F → F) : Res (F × F) → Res F
  | .ok (l, r) => .ok (scale (exp (lit 0.5 * (l + r))))
  | .error (.throw .domainError _) => .error (.throw .domainError "unable to fit cross section")
  | .error e => .error e

/-- `analytic_partonic_cross_section` (src/nucleon.cxx:85-134). -/
def analyticCrossSection (sigmaNN width : F) : Res F :=
  fitResult (fun y => y * lit 4 * pi * sqr width)
    (Toms748.solve (fun x (s : Unit) => (.ok (analyticEq analyticC (analyticRhs sigmaNN width) x), s)) (lit (-10)) (lit 20) 39 1000 ()).1

variable [Rng F E D]

/-- `numeric_partonic_cross_section` (src/nucleon.cxx:138-172). -/
def numericCrossSection (k : MCConst) (sigmaNN w v : F) (m : Nat) (r : Rand E D) : Res F × Rand E D :=
  let mc := MonteCarlo.make w v m
  let c := lit 4 * pi * sqr v
  let f : F → Rand E D → Res F × Rand E D := fun x r =>
    match mc.run k (exp x * c) r with
    | .error e => (.error e, r)
    | .ok (cs, _, r) => (.ok (cs - sigmaNN), r)
  let (res, r) := Toms748.solve f (lit (-10)) (lit 20) 8 20 r
  (fitResult (fun y => y * c) res, r)

end

/-! ## The cache (src/nucleon.cxx:174-244) -/

/-- The variables a record is read into (src/nucleon.cxx:183-188), uninitialised at first. -/
structure CacheVars (F : Type) where
  m : Option Int := none
  w : Option F := none
  v : Option F := none
  s : Option F := none
  sp : Option F := none

/-- Reading a floating point number. -/
def scanF (s : List Char) : Option F × List Char :=
  match scanFloat s with
  | (some q, s) => (some (lit q), s)
  | (none, s) => (none, s)

/-- `cache_read >> constituent_number_ >> … >> sigma_partonic` (src/nucleon.cxx:203-204).  A variable that is not assigned
keeps its value. -/
def readRecord (x : CacheVars F) (is : IStream) : CacheVars F × IStream :=
  let (m, is) := is.extract 0 scanInt
  let (w, is) := is.extract (lit 0) scanF
  let (v, is) := is.extract (lit 0) scanF
  let (s, is) := is.extract (lit 0) scanF
  let (sp, is) := is.extract (lit 0) scanF
  ({ m := m <|> x.m, w := w <|> x.w, v := v <|> x.v, s := s <|> x.s, sp := sp <|> x.sp }, is)

/-- `almost_equal` (src/nucleon.cxx:61-63). -/
def almostEqual (a b : F) : Bool := lt (fabs (a - b)) (lit 1e-6)

/-- The configuration the cache is searched for. -/
structure CacheKey (F : Type) where
  m : Int
  w : F
  v : F
  s : F

/-- Using a possibly uninitialised variable. -/
def useVar {α : Type} (what : String) : Option α → Res α
  | some x => .ok x
  | none => .error (.ub ("uninitialised " ++ what))

/-- The test and the return of the loop (src/nucleon.cxx:205-210), with short-circuit evaluation. -/
def matchRecord (key : CacheKey F) (x : CacheVars F) : Res (Option F) := do
  let w ← useVar "nucleon_width_" x.w
  if !almostEqual key.w w then return none
  let v ← useVar "constituent_width_" x.v
  if !almostEqual key.v v then return none
  let s ← useVar "sigma_nn_" x.s
  if !almostEqual key.s s then return none
  let m ← useVar "constituent_number_" x.m
  if key.m ≠ m then return none
  let sp ← useVar "sigma_partonic" x.sp
  return some sp

/-- The search loop (src/nucleon.cxx:202-211), `while (!eof)`. -/
def searchCache (key : CacheKey F) : Nat → CacheVars F → IStream → Res (Option F)
  | 0, _, is => if is.eof then .ok none else .error .fuel
  | fuel+1, x, is =>
    if is.eof then .ok none
    else
      let (x, is) := readRecord x is
      match matchRecord key x with
      | .error e => .error e
      | .ok (some sp) => .ok (some sp)
      | .ok none => searchCache key fuel x is

/-- The record as written (src/nucleon.cxx:235-241), to the stream `os` opened for appending. -/
def writeRecord [NumFmt F] (key : CacheKey F) (sp : F) (os : OStream) : OStream :=
  let os := ((((os.setprecision 6).setLeft).setw 4).fixed).int key.m
  let os := (((os.setRight).setw 10).fixed).dbl key.w
  let os := (((os.setRight).setw 10).fixed).dbl key.v
  let os := (((os.setRight).setw 10).fixed).dbl key.s
  let os := (((os.setRight).setw 14).scientific).dbl sp
  os.put ['\n']

/-- The environment of the cache: `XDG_DATA_HOME` and `HOME` if set (as absolute paths), and which files may be read. -/
structure CacheEnv where
  xdg : Option Path
  home : Option Path
  readOk : Path → Bool

/-- `get_data_home() / "trento"` (src/nucleon.cxx:53-58, 191).  A null `HOME` makes `fs::path{nullptr}`. -/
def cacheDir (ce : CacheEnv) : Res Path :=
  match ce.xdg, ce.home with
  | some p, _ => .ok (p ++ ["trento"])
  | none, some h => .ok (h ++ [".local", "share", "trento"])
  | none, none => .error (.ub "path from a null pointer")

/-- `fs::create_directory` (src/nucleon.cxx:193): only the last component; an existing directory is fine. -/
def FS.createDir (env : OsEnv) (p : Path) (fs : FS F) : Res Unit × FS F :=
  match fs p with
  | some .dir => (.ok (), fs)
  | some (.file _) => (.error (.throw .filesystemError "create_directory"), fs)
  | none =>
    if fs.isDir p.dropLast && !p.isEmpty && env.mkdirOk p then (.ok (), fs.set p .dir)
    else (.error (.throw .filesystemError "create_directory"), fs)

/-- The characters of a file opened for reading: of an HDF5 file we only know that there are some. -/
def openRead (ce : CacheEnv) (fs : FS F) (p : Path) : IStream :=
  match fs p with
  | some (.file (.text s)) => if ce.readOk p then { rest := s } else { rest := [], fail := true }
  | _ => { rest := [], fail := true }

/-- Opening for appending (src/nucleon.cxx:218-219): creates an empty file if there is none. -/
def openAppend (env : OsEnv) (p : Path) (fs : FS F) : FS F :=
  if fs.canOpen env p then
    match fs p with
    | none => fs.set p (.file (.text []))
    | _ => fs
  else fs

/-- Flushing `s` to the file opened for appending. -/
def appendText (env : OsEnv) (p : Path) (s : List Char) (fs : FS F) : FS F :=
  if fs.canOpen env p then
    match fs p with
    | some (.file (.text old)) => fs.set p (.file (.text (old ++ s)))
    | _ => fs
  else fs

/-- `partonic_cross_section` (src/nucleon.cxx:176-244).  `fit` stands for lines 221-226 and gets the random state.
The file system is that of the world; `fuel` bounds the search loop. -/
def partonicCrossSection [NumFmt F] (env : OsEnv) (ce : CacheEnv) (fuel : Nat) (key : CacheKey F)
    (fit : Rand E D → Res F × Rand E D) (fs : FS F) (r : Rand E D) : Res F × FS F × Rand E D :=
  match cacheDir ce with
  | .error e => (.error e, fs, r)
  | .ok dir =>
    let path := dir ++ ["cross_section.cache"]
    match FS.createDir env dir fs with
    | (.error e, fs) => (.error e, fs, r)
    | (.ok (), fs) =>
      match (if fs.exists path then searchCache key fuel {} (openRead ce fs path) else .ok none) with
      | .error e => (.error e, fs, r)
      | .ok (some sp) => (.ok sp, fs, r)
      | .ok none =>
        let fs := openAppend env path fs
        match fit r with
        | (.error e, r) => (.error e, fs, r)
        | (.ok sp, r) => (.ok sp, appendText env path (writeRecord key sp {}).out fs, r)

/-- The fit chosen by `partonic_cross_section` (src/nucleon.cxx:221-226).  The Monte Carlo fit is only used for `m > 1`, so
the conversion of `m` to `std::size_t` is exact there. -/
def crossSectionFit [Toms748 F] [Rng F E D] (k : MCConst) (key : CacheKey F) (r : Rand E D) : Res F × Rand E D :=
  if 1 < key.m then numericCrossSection k key.s key.w key.v key.m.toNat r
  else (analyticCrossSection key.s key.w, r)

end Trento
