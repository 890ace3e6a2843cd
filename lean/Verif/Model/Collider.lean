import Verif.Model.Event

/-! # The collider (src/collider.h, src/collider.cxx) -/

namespace Trento
variable {F E D : Type} [Arith F]

/-- `determine_bmax` (src/collider.cxx:36-42). -/
def determineBmax (bmaxOpt : F) (A B : Nucleus F) (nc : NucleonCommon F) : F :=
  if lt bmaxOpt (lit 0) then A.radius + B.radius + nc.maxImpact else bmaxOpt

/-- `determine_asym` (src/collider.cxx:47-55). -/
def determineAsym (A B : Nucleus F) : F :=
  let rA := A.radius
  let rB := B.radius
  let sum := rA + rB
  if lt sum (lit 0.1) then lit 0.5 else rA / sum

/-- Data members of `Collider` used by `run_events` (src/collider.h:52-86). -/
structure Collider (F : Type) where
  nucleusA : Nucleus F
  nucleusB : Nucleus F
  nc : NucleonCommon F
  nevents : Int
  calcNcoll : Bool
  bmin : F
  bmax : F
  asymmetry : F

section
variable [Rng F E D]

/-- The inner pair loop for one nucleon `A` of the first nucleus (src/collider.cxx:119-123).
`ncoll` and `collision` are the local variables of `sample_collision`. -/
def pairRow (nc : NucleonCommon F) (calcNcoll : Bool) :
    NucleonData F → List (NucleonData F) → Nat → Bool → Rand E D →
      (NucleonData F × List (NucleonData F) × Nat × Bool) × Rand E D
  | A, [], ncoll, collision, w => ((A, [], ncoll, collision), w)
  | A, B :: Bs, ncoll, collision, w =>
    let ((newCollision, A, B), w) := nc.participate A B w
    let ncoll := if newCollision && calcNcoll then ncoll + 1 else ncoll
    let collision := newCollision || collision
    let ((A, Bs, ncoll, collision), w) := pairRow nc calcNcoll A Bs ncoll collision w
    ((A, B :: Bs, ncoll, collision), w)

/-- The double loop over nucleon pairs (src/collider.cxx:118-124). -/
def pairLoop (nc : NucleonCommon F) (calcNcoll : Bool) :
    List (NucleonData F) → List (NucleonData F) → Nat → Bool → Rand E D →
      (List (NucleonData F) × List (NucleonData F) × Nat × Bool) × Rand E D
  | [], Bs, ncoll, collision, w => (([], Bs, ncoll, collision), w)
  | A :: As, Bs, ncoll, collision, w =>
    let ((A, Bs, ncoll, collision), w) := pairRow nc calcNcoll A Bs ncoll collision w
    let ((As, Bs, ncoll, collision), w) := pairLoop nc calcNcoll As Bs ncoll collision w
    ((A :: As, Bs, ncoll, collision), w)

/-- The impact parameter formula (src/collider.cxx:111). -/
def impactFormula (bmin bmax u : F) : F :=
  sqrt (bmin * bmin + (bmax * bmax - bmin * bmin) * u)

/-- The `do … while (!collision)` loop of `sample_collision` (src/collider.cxx:109-125).
`fuel` bounds the number of attempts; `rfuel` bounds the rejection loops inside the nuclei. -/
def collisionLoop (rfuel : Nat) (c : Collider F) :
    Nat → Nucleus F → Nucleus F → Nat → Bool → Rand E D →
      Res ((F × Nat × Nucleus F × Nucleus F) × Rand E D)
  | 0, _, _, _, _, _ => .error .fuel
  | fuel+1, A, B, ncoll, collision, w =>
    let (u, w) := canonical w
    let b := impactFormula c.bmin c.bmax u
    match A.sampleNucleons rfuel (c.asymmetry * b) w with
    | .error e => .error e
    | .ok (A, w) =>
      match B.sampleNucleons rfuel ((c.asymmetry - lit 1) * b) w with
      | .error e => .error e
      | .ok (B, w) =>
        let ((As, Bs, ncoll, collision), w) := pairLoop c.nc c.calcNcoll A.nucleons B.nucleons ncoll collision w
        let A := { A with nucleons := As }
        let B := { B with nucleons := Bs }
        if collision then .ok ((b, ncoll, A, B), w)
        else collisionLoop rfuel c fuel A B ncoll collision w

/-- `Collider::sample_collision` (src/collider.cxx:100-128): returns `b`, `ncoll` and the prepared nuclei. -/
def Collider.sampleCollision (rfuel fuel : Nat) (c : Collider F) (A B : Nucleus F) (w : Rand E D) :
    Res ((F × Nat × Nucleus F × Nucleus F) × Rand E D) :=
  collisionLoop rfuel c fuel A B 0 false w

/-- What `Output::operator()` receives for one event (src/collider.cxx:96). -/
structure EventRecord (F : Type) (n : Nat) where
  num : Nat
  b : F
  ncoll : Nat
  event : Event F n

/-- Loop state of `run_events`: the nuclei and the `Event` object are reused between events. -/
structure RunState (F E D : Type) (n : Nat) where
  A : Nucleus F
  B : Nucleus F
  event : Event F n
  rand : Rand E D

/-- The main event loop (src/collider.cxx:84-97), for `k` remaining events starting with number `num`;
returns the records passed to the output functor, in order. -/
def runLoop (rfuel fuel : Nat) (c : Collider F) (ec : EventCfg F) (debug : Bool) {n : Nat} :
    Nat → Nat → RunState F E D n → Res (List (EventRecord F n) × RunState F E D n)
  | 0, _, s => .ok ([], s)
  | k+1, num, s =>
    match c.sampleCollision rfuel fuel s.A s.B s.rand with
    | .error e => .error e
    | .ok ((b, ncoll, A, B), w) =>
      match s.event.compute ec c.nc debug A.nucleons B.nucleons with
      | .error e => .error e
      | .ok ev =>
        match runLoop rfuel fuel c ec debug k (num+1) ⟨A, B, ev, w⟩ with
        | .error e => .error e
        | .ok (rs, s) => .ok (⟨num, b, ncoll, ev⟩ :: rs, s)

/-- `Collider::run_events` (src/collider.cxx:82-98). -/
def Collider.runEvents (rfuel fuel : Nat) (c : Collider F) (ec : EventCfg F) (debug : Bool) {n : Nat}
    (ev : Event F n) (w : Rand E D) : Res (List (EventRecord F n)) :=
  match runLoop rfuel fuel c ec debug c.nevents.toNat 0 ⟨c.nucleusA, c.nucleusB, ev, w⟩ with
  | .error e => .error e
  | .ok (rs, _) => .ok rs

end

/-- The options read by the constructors (var_map of src/trento.cxx:69-152), after validation. -/
structure Options (F : Type) where
  projectileA : Nucleus F
  projectileB : Nucleus F
  numberEvents : Int
  ncoll : Bool
  reducedThickness : F
  fluctuation : F
  nucleonWidth : F
  constitWidth : F
  constitNumber : Nat
  crossSection : F
  normalization : F
  bMin : F
  bMax : F
  randomSeed : Int
  gridMax : F
  gridStep : F

/-- `Collider::Collider` (src/collider.cxx:61-77), nuclei already created (`create_nucleus`, lines
25-31, is modelled by `createNucleus`), output not included, cross section parameter `sigma` given. -/
def Collider.make (o : Options F) (sigma : F) : Collider F :=
  let nc := NucleonCommon.make o.nucleonWidth o.constitWidth o.constitNumber sigma o.ncoll o.fluctuation
  { nucleusA := o.projectileA
    nucleusB := o.projectileB
    nc := nc
    nevents := o.numberEvents
    calcNcoll := o.ncoll
    bmin := o.bMin
    bmax := determineBmax o.bMax o.projectileA o.projectileB nc
    asymmetry := determineAsym o.projectileA o.projectileB }

/-- The random state when `run_events` starts: distribution objects are freshly constructed members
(src/collider.cxx:61-71), and the global engine is reseeded if `random-seed > 0`
(src/collider.cxx:74-76; `int64_t` to `uint64_t`). -/
def seedRand (F : Type) [Rng F E D] (seed : Int) (w : Rand E D) : Rand E D :=
  { eng := if 0 < seed then Rng.seed F D (UInt64.ofNat seed.toNat) else w.eng
    dist := Rng.freshDist F E }

/-- A whole run: construct event and collider, seed, run.  `ev0` is the (uninitialised) state of the
`Event` object before the first event. -/
def runAll [Rng F E D] (rfuel fuel : Nat) (o : Options F) (sigma : F) (debug : Bool)
    (ev0 : (n : Nat) → Event F n) (w : Rand E D) :
    Res ((n : Nat) × List (EventRecord F n)) :=
  match EventCfg.make o.normalization o.gridStep o.gridMax o.reducedThickness with
  | .error e => .error e
  | .ok ec =>
    match (Collider.make o sigma).runEvents rfuel fuel ec debug (ev0 ec.nsteps.toNat) (seedRand F o.randomSeed w) with
    | .error e => .error e
    | .ok rs => .ok ⟨ec.nsteps.toNat, rs⟩

end Trento
