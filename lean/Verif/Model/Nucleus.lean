import Verif.Model.Nucleon

/-! # Nuclei (src/nucleus.h, src/nucleus.cxx) -/

namespace Trento
variable {F E D : Type} [Arith F]

/-- The nucleus classes with their constant parameters (src/nucleus.h:137-317). -/
inductive Kind (F : Type) where
  /-- `class Proton` (src/nucleus.h:137-148) -/
  | proton
  /-- `class Deuteron`: internal `a_`, `b_` (src/nucleus.h:160-175) -/
  | deuteron (a b : F)
  /-- `class WoodsSaxonNucleus`: `R_`, `a_`, `dminsq_` (src/nucleus.h:207-230) -/
  | woodsSaxon (R a dminsq : F)
  /-- `class DeformedWoodsSaxonNucleus` (src/nucleus.h:243-271) -/
  | deformed (R a beta2 beta4 rmax dminsq : F)
  /-- `class ManualNucleus`: the dataset as a list of configurations of positions (already converted
  from `float`), and `rmax_` (src/nucleus.h:276-317) -/
  | manual (configs : List (List (F × F × F))) (rmax : F)

/-- `class Nucleus` (src/nucleus.h:34-127): `nucleons_`, `offset_` and the dynamic type. -/
structure Nucleus (F : Type) where
  kind : Kind F
  nucleons : List (NucleonData F)
  offset : F

/-- `Nucleus::Nucleus(A)` (src/nucleus.cxx:87). -/
def Nucleus.ofKind (kind : Kind F) (A : Nat) : Nucleus F :=
  ⟨kind, List.replicate A NucleonData.init, lit 0⟩

/-- `Proton::Proton` (src/nucleus.cxx:99). -/
def mkProton : Nucleus F := Nucleus.ofKind .proton 1

/-- `Deuteron::Deuteron` (src/nucleus.cxx:113-117). -/
def mkDeuteron (a b : F) : Nucleus F := Nucleus.ofKind (.deuteron (fmin a b) (fmax a b)) 2

/-- `WoodsSaxonNucleus::WoodsSaxonNucleus` and its base (src/nucleus.cxx:162-165, 182-189). -/
def mkWoodsSaxon (A : Nat) (R a dmin : F) : Nucleus F :=
  Nucleus.ofKind (.woodsSaxon R a (dmin * dmin)) A

/-- `DeformedWoodsSaxonNucleus::DeformedWoodsSaxonNucleus` and its base
(src/nucleus.cxx:162-165, 251-259). -/
def mkDeformed (A : Nat) (R a beta2 beta4 dmin : F) : Nucleus F :=
  Nucleus.ofKind
    (.deformed R a beta2 beta4
      (R * (lit 1 + lit 0.63 * fabs beta2 + lit 0.85 * fabs beta4) + lit 10 * a) (dmin * dmin)) A

/-- `radius()` of the five classes (src/nucleus.cxx:102-104, 119-123, 195-197, 265-267, 486-488). -/
def Kind.radius : Kind F → F
  | .proton => lit 0
  | .deuteron a _ => -(log (lit 0.01)) / (lit 2 * a)
  | .woodsSaxon R a _ => R + lit 3 * a
  | .deformed _ a _ _ rmax _ => rmax - lit 7 * a
  | .manual _ rmax => rmax

/-- `Nucleus::radius` (virtual call). -/
def Nucleus.radius (n : Nucleus F) : F := n.kind.radius

/-- `Nucleus::set_nucleon_position` (src/nucleus.cxx:94-97). -/
def setNucleonPosition (offset : F) (n : NucleonData F) (x y z : F) : NucleonData F :=
  n.setPosition (x + offset) y z

/-- `MinDistNucleus::is_too_close` (src/nucleus.cxx:167-178); `placed` are the nucleons from
`begin()` up to (excluding) `nucleon`. -/
def isTooClose (dminsq : F) (placed : List (NucleonData F)) (n : NucleonData F) : Bool :=
  if lt dminsq (lit 1e-10) then false
  else placed.any fun n2 =>
    let dx := n.x - n2.x
    let dy := n.y - n2.y
    let dz := n.z - n2.z
    lt (dx*dx + dy*dy + dz*dz) dminsq

/-- `std::sort` on keys by `<` (src/nucleus.cxx:212, 330-335): modelled as insertion sort; for a strict
weak order (finite radii) every sorting algorithm yields the same sequence of keys (for equal keys the
standard leaves the order of the elements open; the model fixes one). -/
def insertBy {α : Type} (key : α → F) (a : α) : List α → List α
  | [] => [a]
  | b :: bs => if lt (key b) (key a) then b :: insertBy key a bs else a :: b :: bs

/-- see `insertBy` -/
def sortBy {α : Type} (key : α → F) : List α → List α
  | [] => []
  | a :: as => insertBy key a (sortBy key as)

/-- `x*x` style spherical conversion used by the samplers (src/nucleus.cxx:151-154, 228-231):
`r_sin_theta = r*sqrt(1 - cos_theta^2)`, `(x, y, z) = (r_sin_theta cos phi, r_sin_theta sin phi, r cos_theta)`. -/
def spherical (r cosT ph : F) : F × F × F :=
  let rSin := r * sqrt (lit 1 - cosT * cosT)
  (rSin * cos ph, rSin * sin ph, r * cosT)

section
variable [Rng F E D]

/-- `Proton::sample_nucleons_impl` (src/nucleus.cxx:107-109): only the first nucleon is set. -/
def sampleProton (offset : F) : List (NucleonData F) → List (NucleonData F)
  | [] => []
  | n :: ns => setNucleonPosition offset n (lit 0) (lit 0) (lit 0) :: ns

/-- The acceptance probability of the deuteron rejection loop (src/nucleus.cxx:143). -/
def deuteronProb (a b u r : F) : F :=
  pow (exp (-a * r) - exp (-b * r)) (lit 2) / u

/-- The proposal radius (src/nucleus.cxx:138). -/
def deuteronRadius (a u : F) : F := -(log u) / (lit 2 * a)

/-- The `do … while` rejection loop of the deuteron (src/nucleus.cxx:133-144), returning `r`. -/
def deuteronLoop (a b : F) : Nat → Rand E D → Res (F × Rand E D)
  | 0, _ => .error .fuel
  | fuel+1, w =>
    let (u, w) := canonical w
    let r := deuteronRadius a u
    let prob := deuteronProb a b u r
    let (u2, w) := canonical w
    if lt prob u2 then deuteronLoop a b fuel w else .ok (r, w)

/-- `Deuteron::sample_nucleons_impl` (src/nucleus.cxx:125-160). -/
def sampleDeuteron (fuel : Nat) (a b offset : F) (ns : List (NucleonData F)) (w : Rand E D) :
    Res (List (NucleonData F) × Rand E D) :=
  match deuteronLoop a b fuel w with
  | .error e => .error e
  | .ok (r, w) =>
    let (cosT, w) := cosTheta w
    let (ph, w) := phi w
    let (x, y, z) := spherical r cosT ph
    match ns with
    | n1 :: n2 :: rest =>
      .ok (setNucleonPosition offset n1 x y z :: setNucleonPosition offset n2 (-x) (-y) (-z) :: rest, w)
    | _ => .error (.ub "deuteron without two nucleons")

/-- The parameters of `woods_saxon_dist_` (src/nucleus.cxx:187-188): 1000 subintervals of `[0, R + 10 a]`, density
`r² / (1 + exp((r - R)/a))`. -/
def woodsSaxonTable (R a : F) : List (F × F) :=
  linearTable 1000 (lit 0) (R + lit 10 * a) fun r => r * r / (lit 1 + exp ((r - R) / a))

/-- Draw `k` Woods–Saxon radii (src/nucleus.cxx:209-211). -/
def drawRadii (R a : F) : Nat → Rand E D → List F × Rand E D
  | 0, w => ([], w)
  | k+1, w =>
    let (r, w) := drawPiecewiseLinear (woodsSaxonTable R a) w
    let (rs, w) := drawRadii R a k w
    (r :: rs, w)

/-- The placement `do … while (++ntries < 1000 && is_too_close(nucleon))` loop of the spherical case
(src/nucleus.cxx:221-243).  `left` is `1000 - ntries` before the attempt, so it starts at 1000. -/
def placeWS (offset dminsq r : F) (placed : List (NucleonData F)) :
    Nat → NucleonData F → Rand E D → NucleonData F × Rand E D
  | 0, n, w => (n, w)
  | left+1, n, w =>
    let (cosT, w) := cosTheta w
    let (ph, w) := phi w
    let (x, y, z) := spherical r cosT ph
    let n := setNucleonPosition offset n x y z
    if decide (0 < left) && isTooClose dminsq placed n then placeWS offset dminsq r placed left n w
    else (n, w)

/-- The loop over nucleons (src/nucleus.cxx:215-244).  `placed` holds the nucleons already placed, in
order.  Reading past the radii (impossible, both have `size()` elements) leaves the nucleon unchanged. -/
def placeAllWS (offset dminsq : F) :
    List (NucleonData F) → List F → List (NucleonData F) → Rand E D → List (NucleonData F) × Rand E D
  | placed, r :: rs, n :: ns, w =>
    let (n, w) := placeWS offset dminsq r placed 1000 n w
    placeAllWS offset dminsq (placed ++ [n]) rs ns w
  | placed, _, ns, w => (placed ++ ns, w)

/-- `WoodsSaxonNucleus::sample_nucleons_impl` (src/nucleus.cxx:200-246). -/
def sampleWS (R a dminsq offset : F) (ns : List (NucleonData F)) (w : Rand E D) :
    List (NucleonData F) × Rand E D :=
  let (radii, w) := drawRadii R a ns.length w
  placeAllWS offset dminsq [] (sortBy id radii) ns w

/-- `DeformedWoodsSaxonNucleus::deformed_woods_saxon_dist` (src/nucleus.cxx:269-283). -/
def deformedDist (R a beta2 beta4 r cosT : F) : F :=
  let c2 := cosT * cosT
  let Y20 := sqrt (lit 5) / lit 4 * oneDivRootPi * (lit 3 * c2 - lit 1)
  let Y40 := lit 3 / lit 16 * oneDivRootPi * (lit 35 * c2 * c2 - lit 30 * c2 + lit 3)
  let Reff := R * (lit 1 + beta2 * Y20 + beta4 * Y40)
  lit 1 / (lit 1 + exp ((r - Reff) / a))

/-- The rejection loop for one `(r, cos_theta)` sample (src/nucleus.cxx:318-324). -/
def deformedReject (R a beta2 beta4 rmax : F) : Nat → Rand E D → Res ((F × F) × Rand E D)
  | 0, _ => .error .fuel
  | fuel+1, w =>
    let (u, w) := canonical w
    let r := rmax * cbrt u
    let (cosT, w) := cosTheta w
    let (u2, w) := canonical w
    if lt (deformedDist R a beta2 beta4 r cosT) u2 then deformedReject R a beta2 beta4 rmax fuel w
    else .ok ((r, cosT), w)

/-- The loop over samples (src/nucleus.cxx:313-325). -/
def drawDeformed (fuel : Nat) (R a beta2 beta4 rmax : F) : Nat → Rand E D → Res (List (F × F) × Rand E D)
  | 0, w => .ok ([], w)
  | k+1, w =>
    match deformedReject R a beta2 beta4 rmax fuel w with
    | .error e => .error e
    | .ok (s, w) =>
      match drawDeformed fuel R a beta2 beta4 rmax k w with
      | .error e => .error e
      | .ok (ss, w) => .ok (s :: ss, w)

/-- Cosines and sines of the tilt (`a`) and spin (`b`) angles (src/nucleus.cxx:299-305). -/
structure TiltSpin (F : Type) where
  cosA : F
  sinA : F
  cosB : F
  sinB : F

/-- The rotation formula of the deformed nucleus (src/nucleus.cxx:359-361). -/
def rotateTS (t : TiltSpin F) (x y z : F) : F × F × F :=
  (x * t.cosB - y * t.cosA * t.sinB + z * t.sinA * t.sinB,
   x * t.sinB + y * t.cosA * t.cosB - z * t.sinA * t.cosB,
   y * t.sinA + z * t.cosA)

/-- The placement loop of the deformed case (src/nucleus.cxx:347-378); `z` is flipped after every
attempt (line 368). -/
def placeDef (offset dminsq : F) (t : TiltSpin F) (rSin : F) (placed : List (NucleonData F)) :
    Nat → F → NucleonData F → Rand E D → NucleonData F × Rand E D
  | 0, _, n, w => (n, w)
  | left+1, z, n, w =>
    let (ph, w) := phi w
    let x := rSin * cos ph
    let y := rSin * sin ph
    let (xr, yr, zr) := rotateTS t x y z
    let n := setNucleonPosition offset n xr yr zr
    let z := z * lit (-1)
    if decide (0 < left) && isTooClose dminsq placed n then placeDef offset dminsq t rSin placed left z n w
    else (n, w)

/-- The loop over nucleons and samples (src/nucleus.cxx:338-379). -/
def placeAllDef (offset dminsq : F) (t : TiltSpin F) :
    List (NucleonData F) → List (F × F) → List (NucleonData F) → Rand E D → List (NucleonData F) × Rand E D
  | placed, s :: ss, n :: ns, w =>
    let r := s.1
    let cosT := s.2
    let rSin := r * sqrt (lit 1 - cosT * cosT)
    let z := r * cosT
    let (n, w) := placeDef offset dminsq t rSin placed 1000 z n w
    placeAllDef offset dminsq t (placed ++ [n]) ss ns w
  | placed, _, ns, w => (placed ++ ns, w)

/-- Sampling of the tilt and spin angles (src/nucleus.cxx:299-305). -/
def drawTiltSpin (w : Rand E D) : TiltSpin F × Rand E D :=
  let (cosA, w) := cosTheta w
  let sinA := sqrt (lit 1 - cosA * cosA)
  let (b, w) := phi w
  (⟨cosA, sinA, cos b, sin b⟩, w)

/-- `DeformedWoodsSaxonNucleus::sample_nucleons_impl` (src/nucleus.cxx:286-380). -/
def sampleDeformed (fuel : Nat) (R a beta2 beta4 rmax dminsq offset : F) (ns : List (NucleonData F))
    (w : Rand E D) : Res (List (NucleonData F) × Rand E D) :=
  let (t, w) := drawTiltSpin w
  match drawDeformed fuel R a beta2 beta4 rmax ns.length w with
  | .error e => .error e
  | .ok (samples, w) => .ok (placeAllDef offset dminsq t [] (sortBy Prod.fst samples) ns w)

/-- Cosines and sines of the three Euler angles (src/nucleus.cxx:493-502). -/
structure Euler (F : Type) where
  c1 : F
  s1 : F
  c2 : F
  s2 : F
  c3 : F
  s3 : F

/-- The rotation formula of the manual nucleus (src/nucleus.cxx:520-522). -/
def rotateEuler (e : Euler F) (x y z : F) : F × F × F :=
  (x * (e.c1 * e.c3 - e.c2 * e.s1 * e.s3) - y * (e.c3 * e.s1 + e.c1 * e.c2 * e.s3) + z * e.s2 * e.s3,
   x * (e.c1 * e.s3 + e.c2 * e.c3 * e.s1) - y * (e.s1 * e.s3 - e.c1 * e.c2 * e.c3) - z * e.c3 * e.s2,
   x * e.s1 * e.s2 + y * e.c1 * e.s2 + z * e.c2)

/-- Sampling of the Euler angles (src/nucleus.cxx:493-502). -/
def drawEuler (w : Rand E D) : Euler F × Rand E D :=
  let (a1, w) := phi w
  let (c2, w) := cosTheta w
  let (a3, w) := phi w
  (⟨cos a1, sin a1, c2, sqrt (lit 1 - c2 * c2), cos a3, sin a3⟩, w)

/-- The loop over positions and nucleons (src/nucleus.cxx:511-525).  The positions read have exactly
`size()` rows (the selection of lines 505-508); a shorter configuration cannot occur in a dataset. -/
def placeManual (offset : F) (e : Euler F) :
    List (F × F × F) → List (NucleonData F) → Res (List (NucleonData F))
  | _, [] => .ok []
  | [], _ :: _ => .error (.ub "manual nucleus: configuration shorter than the nucleus")
  | (x, y, z) :: ps, n :: ns =>
    match placeManual offset e ps ns with
    | .error er => .error er
    | .ok ns =>
      let (xr, yr, zr) := rotateEuler e x y z
      .ok (setNucleonPosition offset n xr yr zr :: ns)

/-- `ManualNucleus::sample_nucleons_impl` (src/nucleus.cxx:490-526).
`index_dist_(0, nconfigs - 1)`: with `nconfigs = 0` the unsigned bound wraps to 2^64-1
(src/nucleus.cxx:481).  Selecting a configuration outside the dataset is an HDF5 library error, which is not
derived from `std::exception`. -/
def sampleManual (configs : List (List (F × F × F))) (offset : F) (ns : List (NucleonData F))
    (w : Rand E D) : Res (List (NucleonData F) × Rand E D) :=
  let (e, w) := drawEuler w
  let bound := if configs.length = 0 then 18446744073709551615 else configs.length - 1
  let (i, w) := drawIndex F bound w
  match configs[i]? with
  | none => .error (.throw .h5Exception "selection outside the dataset")
  | some ps =>
    match placeManual offset e ps ns with
    | .error er => .error er
    | .ok ns => .ok (ns, w)

/-- `Nucleus::sample_nucleons` (src/nucleus.cxx:89-92) with the virtual `sample_nucleons_impl`. -/
def Nucleus.sampleNucleons (fuel : Nat) (nuc : Nucleus F) (offset : F) (w : Rand E D) :
    Res (Nucleus F × Rand E D) :=
  let r : Res (List (NucleonData F) × Rand E D) :=
    match nuc.kind with
    | .proton => .ok (sampleProton offset nuc.nucleons, w)
    | .deuteron a b => sampleDeuteron fuel a b offset nuc.nucleons w
    | .woodsSaxon R a dminsq => .ok (sampleWS R a dminsq offset nuc.nucleons w)
    | .deformed R a b2 b4 rmax dminsq => sampleDeformed fuel R a b2 b4 rmax dminsq offset nuc.nucleons w
    | .manual configs _ => sampleManual configs offset nuc.nucleons w
  match r with
  | .error e => .error e
  | .ok (ns, w) => .ok ({ nuc with nucleons := ns, offset := offset }, w)

end
end Trento
