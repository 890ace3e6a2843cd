import Verif.Model.Nucleus

/-! # Events (src/event.h, src/event.cxx) -/

namespace Trento
variable {F : Type} [Arith F]

/-- `positive_pmean` (src/event.cxx:22-24). -/
def positivePmean (p a b : F) : F :=
  pow (lit 0.5 * (pow a p + pow b p)) (lit 1 / p)

/-- `negative_pmean` (src/event.cxx:28-32). -/
def negativePmean (p a b : F) : F :=
  if lt a TINY || lt b TINY then lit 0 else positivePmean p a b

/-- `geometric_mean` (src/event.cxx:35-37). -/
def geometricMean (a b : F) : F := sqrt (a * b)

/-- The choice of the generalized mean made in the constructor (src/event.cxx:59-75). -/
def genMean (p : F) : F → F → F :=
  if lt (fabs p) TINY then geometricMean
  else if lt (lit 0) p then positivePmean p
  else negativePmean p

/-- Constant data members of `Event` (src/event.h:106-116) and the parameter `p` captured by
`compute_reduced_thickness_`. -/
structure EventCfg (F : Type) where
  norm : F
  dxy : F
  nsteps : Int
  xymax : F
  p : F

/-- `Event::Event` (src/event.cxx:48-76).  `nsteps_` is converted from `double` to `int` (line 51).
A negative number of steps is passed to `boost::extents` (lines 53-55), where it becomes a huge
unsigned extent; modelled as undefined. -/
def EventCfg.make (norm dxy gridMax p : F) : Res (EventCfg F) :=
  match castInt (ceil (lit 2 * gridMax / dxy)) with
  | .error e => .error e
  | .ok nsteps =>
    if nsteps < 0 then .error (.ub "negative grid extent")
    else .ok { norm := norm, dxy := dxy, nsteps := nsteps,
               xymax := lit 0.5 * ofInt nsteps * dxy, p := p }

/-- `Event::Grid` (src/event.h:57): an `n × n` array, first index `iy`, second `ix`. -/
abbrev Grid (F : Type) (n : Nat) := Fin n → Fin n → F

/-- Eccentricities for n = 2, 3, 4, 5: the entries of `std::map<int, double> eccentricity_`
(src/event.h:131; filled at src/event.cxx:245-248). -/
structure Ecc (F : Type) where
  e2 : F
  e3 : F
  e4 : F
  e5 : F

/-- Mutable data members of `Event` (src/event.h:118-131). -/
structure Event (F : Type) (n : Nat) where
  TA : Grid F n
  TB : Grid F n
  TR : Grid F n
  ixcm : F
  iycm : F
  npart : Nat
  multiplicity : F
  ecc : Ecc F

/-- `clip` (src/event.cxx:92-99) at `int`. -/
def clip (value min max : Int) : Int :=
  if value < min then min else if max < value then max else value

/-- `lo, lo+1, …, hi` (empty if `hi < lo`): the index sequence of `for (i = lo; i <= hi; ++i)`. -/
def intRange (lo hi : Int) : List Int :=
  (List.range (hi - lo + 1).toNat).map fun (k : Nat) => lo + (k : Int)

/-- `TX[iy][ix] += v`; an index outside the array is undefined behaviour (bounds assertions are
only active in debug builds, src/event.h:11-13). -/
def Grid.addAt {n : Nat} (g : Grid F n) (iy ix : Int) (v : F) : Res (Grid F n) :=
  if h : (0 ≤ iy ∧ iy < n) ∧ (0 ≤ ix ∧ ix < n) then
    let jy : Fin n := ⟨iy.toNat, by omega⟩
    let jx : Fin n := ⟨ix.toNat, by omega⟩
    .ok fun ky kx => if ky = jy ∧ kx = jx then g ky kx + v else g ky kx
  else .error (.ub "grid index out of bounds")

/-- A `for` loop over a list whose body may fail. -/
def forRes {ι S : Type} (f : ι → S → Res S) : List ι → S → Res S
  | [], s => .ok s
  | i :: is, s =>
    match f i s with
    | .error e => .error e
    | .ok s => forRes f is s

/-- Cell centre coordinate `(i+.5)*dxy_ - xymax_` (src/event.cxx:135). -/
def EventCfg.center (c : EventCfg F) (i : Int) : F := (ofInt i + lit 0.5) * c.dxy - c.xymax

/-- Index conversion `static_cast<int>((v+xymax_)/dxy_)` (src/event.cxx:126-129). -/
def EventCfg.index (c : EventCfg F) (v : F) : Res Int := castInt ((v + c.xymax) / c.dxy)

/-- Body of the innermost loop (src/event.cxx:134-136). -/
def depositCell (c : EventCfg F) (nc : NucleonCommon F) (debug : Bool) {n : Nat} (nucl : NucleonData F)
    (iy ix : Int) (g : Grid F n) : Res (Grid F n) :=
  match nc.thickness debug nucl (c.center ix) (c.center iy) with
  | .error e => .error e
  | .ok t => g.addAt iy ix t

/-- Deposit one participant (src/event.cxx:122-138). -/
def depositNucleon (c : EventCfg F) (nc : NucleonCommon F) (debug : Bool) {n : Nat} (nucl : NucleonData F)
    (g : Grid F n) : Res (Grid F n) := do
  let b ← nc.boundary nucl
  let ixmin ← c.index b.xmin
  let ixmax ← c.index b.xmax
  let iymin ← c.index b.ymin
  let iymax ← c.index b.ymax
  let top := c.nsteps - 1
  forRes (fun iy g => forRes (fun ix g => depositCell c nc debug nucl iy ix g)
      (intRange (clip ixmin 0 top) (clip ixmax 0 top)) g)
    (intRange (clip iymin 0 top) (clip iymax 0 top)) g

/-- The participant loop (src/event.cxx:116-139); the state is the grid and `npart_`. -/
def depositAll (c : EventCfg F) (nc : NucleonCommon F) (debug : Bool) {n : Nat} :
    List (NucleonData F) → Grid F n × Nat → Res (Grid F n × Nat)
  | [], s => .ok s
  | nucl :: rest, (g, npart) =>
    if nucl.isParticipant then
      match depositNucleon c nc debug nucl g with
      | .error e => .error e
      | .ok g => depositAll c nc debug rest (g, npart + 1)
    else depositAll c nc debug rest (g, npart)

/-- `Event::compute_nuclear_thickness` (src/event.cxx:103-140): wipe the grid, then deposit.
`_old` is the previous content of the grid,
overwritten by `std::fill` (line 113). -/
def computeNuclearThickness (c : EventCfg F) (nc : NucleonCommon F) (debug : Bool) {n : Nat}
    (nucleons : List (NucleonData F)) (_old : Grid F n) (npart : Nat) : Res (Grid F n × Nat) :=
  let wiped : Grid F n := fun _ _ => lit 0
  depositAll c nc debug nucleons (wiped, npart)

/-- Row-major index list of the double loops (src/event.cxx:148-149, 177-178). -/
def cells (n : Nat) : List (Fin n × Fin n) :=
  (List.finRange n).flatMap fun iy => (List.finRange n).map fun ix => (iy, ix)

/-- Loop state of `compute_reduced_thickness`. -/
structure RTState (F : Type) (n : Nat) where
  TR : Grid F n
  sum : F
  ixcm : F
  iycm : F

/-- Loop body of `compute_reduced_thickness` (src/event.cxx:150-156). -/
def rtStep (c : EventCfg F) {n : Nat} (TA TB : Grid F n) (s : RTState F n) (i : Fin n × Fin n) :
    RTState F n :=
  let t := c.norm * genMean c.p (TA i.1 i.2) (TB i.1 i.2)
  { TR := fun ky kx => if ky = i.1 ∧ kx = i.2 then t else s.TR ky kx
    sum := s.sum + t
    ixcm := s.ixcm + t * ofInt i.2.val
    iycm := s.iycm + t * ofInt i.1.val }

/-- `Event::compute_reduced_thickness` (src/event.cxx:142-163). -/
def computeReducedThickness (c : EventCfg F) {n : Nat} (ev : Event F n) : Event F n :=
  let s := (cells n).foldl (rtStep c ev.TA ev.TB) ⟨ev.TR, lit 0, lit 0, lit 0⟩
  { ev with
    TR := s.TR
    multiplicity := c.dxy * c.dxy * s.sum
    ixcm := s.ixcm / s.sum
    iycm := s.iycm / s.sum }

/-- `EccentricityAccumulator` (src/event.cxx:169-175). -/
structure EccAcc (F : Type) where
  re : F
  im : F
  wt : F

/-- `EccentricityAccumulator::finish` (src/event.cxx:173-174). -/
def EccAcc.finish (a : EccAcc F) : F := sqrt (a.re * a.re + a.im * a.im) / fmax a.wt TINY

/-- The four accumulators. -/
structure EccAccs (F : Type) where
  e2 : EccAcc F
  e3 : EccAcc F
  e4 : EccAcc F
  e5 : EccAcc F

/-- Initial accumulators (src/event.cxx:170-172). -/
def EccAccs.zero : EccAccs F :=
  ⟨⟨lit 0, lit 0, lit 0⟩, ⟨lit 0, lit 0, lit 0⟩, ⟨lit 0, lit 0, lit 0⟩, ⟨lit 0, lit 0, lit 0⟩⟩

/-- Loop body of `compute_observables` (src/event.cxx:179-241). -/
def obsStep {n : Nat} (TR : Grid F n) (ixcm iycm : F) (s : EccAccs F) (i : Fin n × Fin n) : EccAccs F :=
  let t := TR i.1 i.2
  if lt t TINY then s
  else
    let x := ofInt i.2.val - ixcm
    let x2 := x*x
    let x3 := x2*x
    let x4 := x2*x2
    let y := ofInt i.1.val - iycm
    let y2 := y*y
    let y3 := y2*y
    let y4 := y2*y2
    let r2 := x2 + y2
    let r := sqrt r2
    let r4 := r2*r2
    let xy := x*y
    let x2y2 := x2*y2
    { e2 := { re := s.e2.re + t * (y2 - x2)
              im := s.e2.im + t * lit 2 * xy
              wt := s.e2.wt + t * r2 }
      e3 := { re := s.e3.re + t * (y3 - lit 3 * y * x2)
              im := s.e3.im + t * (lit 3 * x * y2 - x3)
              wt := s.e3.wt + t * r2 * r }
      e4 := { re := s.e4.re + t * (x4 + y4 - lit 6 * x2y2)
              im := s.e4.im + t * lit 4 * xy * (y2 - x2)
              wt := s.e4.wt + t * r4 }
      e5 := { re := s.e5.re + t * y * (lit 5 * x4 - lit 10 * x2y2 + y4)
              im := s.e5.im + t * x * (x4 - lit 10 * x2y2 + lit 5 * y4)
              wt := s.e5.wt + t * r4 * r } }

/-- `Event::compute_observables` (src/event.cxx:165-249). -/
def computeObservables {n : Nat} (ev : Event F n) : Event F n :=
  let s := (cells n).foldl (obsStep ev.TR ev.ixcm ev.iycm) EccAccs.zero
  { ev with ecc := ⟨s.e2.finish, s.e3.finish, s.e4.finish, s.e5.finish⟩ }

/-- `Event::compute` (src/event.cxx:78-86) on the nucleons of the two nuclei. -/
def Event.compute (c : EventCfg F) (nc : NucleonCommon F) (debug : Bool) {n : Nat} (ev : Event F n)
    (A B : List (NucleonData F)) : Res (Event F n) :=
  match computeNuclearThickness c nc debug A ev.TA 0 with
  | .error e => .error e
  | .ok (TA, npart) =>
    match computeNuclearThickness c nc debug B ev.TB npart with
    | .error e => .error e
    | .ok (TB, npart) =>
      .ok (computeObservables (computeReducedThickness c { ev with TA := TA, TB := TB, npart := npart }))

end Trento
