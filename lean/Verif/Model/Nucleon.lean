import Verif.Model.FastExp
import Verif.Model.Random

/-! # Nucleons (src/nucleon.h, src/nucleon.cxx) -/

namespace Trento
variable {F E D : Type} [Arith F]

/-- `NucleonData::Constituent` (src/nucleon.h:67-70). -/
structure Constituent (F : Type) where
  x : F
  y : F
  fluctuation : F

/-- `class NucleonData` (src/nucleon.h:26-74). -/
structure NucleonData (F : Type) where
  x : F
  y : F
  z : F
  isParticipant : Bool
  constituentsExist : Bool
  constituents : List (Constituent F)

/-- State of a value-initialised `NucleonData` (`nucleons_(A)`, src/nucleus.cxx:87; default member
initialisers src/nucleon.h:61, 64; the doubles are zero-initialised by value-initialisation). -/
def NucleonData.init : NucleonData F :=
  ⟨lit 0, lit 0, lit 0, false, false, []⟩

/-- `NucleonData::set_position` (src/nucleon.h:170-176).  The constituent vector itself is kept. -/
def NucleonData.setPosition (n : NucleonData F) (x y z : F) : NucleonData F :=
  { n with x := x, y := y, z := z, isParticipant := false, constituentsExist := false }

/-- `class NucleonCommon` data members (src/nucleon.h:105-145).
`gammaAlpha`, `gammaBeta` are the parameters of `participant_fluctuation_dist_`. -/
structure NucleonCommon (F : Type) where
  fastExp : FastExp F
  nucleonWidth : F
  constituentWidth : F
  constituentNumber : Nat
  samplingWidth : F
  maxImpactSq : F
  constituentWidthSq : F
  constituentRadiusSq : F
  sigmaPartonic : F
  prefactor : F
  calcNcoll : Bool
  gammaAlpha : F
  gammaBeta : F

/-- `max_radius_widths = 5.` (src/nucleon.cxx:35). -/
def maxRadiusWidths : F := lit 5
/-- `max_impact_widths = 6.` (src/nucleon.cxx:38). -/
def maxImpactWidths : F := lit 6

/-- `calc_sampling_width` (src/nucleon.cxx:66-81); `m` is the `int` option constit-number. -/
def calcSamplingWidth (nucleonWidth constituentWidth : F) (m : Int) : F :=
  let oneConstituent := decide (m = 1)
  let sameSize := lt (nucleonWidth - constituentWidth) (lit 1e-6)
  if oneConstituent || sameSize then lit 0
  else
    let num := sqr nucleonWidth - sqr constituentWidth
    let denom := lit 1 - lit 1 / ofInt m
    sqrt (num / denom)

/-- `NucleonCommon::NucleonCommon` (src/nucleon.cxx:248-262) with `gamma_param_unit_mean`
(src/nucleon.cxx:46-49).  `sigma` is the value of `partonic_cross_section(var_map)`, modelled in
`Verif/Model/CrossSection.lean`.  `std::size_t(constit-number)` is modelled for non-negative values
(a negative value wraps to a huge `std::size_t`). -/
def NucleonCommon.make (w v : F) (m : Nat) (sigma : F) (calcNcoll : Bool) (k : F) : NucleonCommon F :=
  { fastExp := FastExp.make (-(lit 0.5) * sqr maxRadiusWidths) (lit 0) 1000
    nucleonWidth := w
    constituentWidth := v
    constituentNumber := m
    samplingWidth := calcSamplingWidth w v m
    maxImpactSq := sqr (maxImpactWidths * w)
    constituentWidthSq := sqr v
    constituentRadiusSq := sqr (maxRadiusWidths * v)
    sigmaPartonic := sigma
    prefactor := oneDivTwoPi / sqr v / ofInt m
    calcNcoll := calcNcoll
    gammaAlpha := k
    gammaBeta := lit 1 / k }

/-- `NucleonCommon::max_impact` (src/nucleon.h:188-190). -/
def NucleonCommon.maxImpact (nc : NucleonCommon F) : F := sqrt nc.maxImpactSq

/-- `{xmin, xmax, ymin, ymax}` as returned by `boundary`. -/
structure Box (F : Type) where
  xmin : F
  xmax : F
  ymin : F
  ymax : F

/-- The loop of `NucleonCommon::boundary` over the remaining constituents (src/nucleon.h:203-215). -/
def boundaryLoop : List (Constituent F) → Box F → Box F
  | [], b => b
  | c :: cs, b =>
    let b := if lt c.x b.xmin then { b with xmin := c.x }
             else if lt b.xmax c.x then { b with xmax := c.x } else b
    let b := if lt c.y b.ymin then { b with ymin := c.y }
             else if lt b.ymax c.y then { b with ymax := c.y } else b
    boundaryLoop cs b

/-- `NucleonCommon::boundary` (src/nucleon.h:192-221).  Dereferencing `begin()` of an empty
constituent vector (lines 194-198) is undefined behaviour. -/
def NucleonCommon.boundary (nc : NucleonCommon F) (n : NucleonData F) : Res (Box F) :=
  match n.constituents with
  | [] => .error (.ub "boundary of a nucleon without constituents")
  | c :: cs =>
    let b := boundaryLoop cs ⟨c.x, c.x, c.y, c.y⟩
    let r := sqrt nc.constituentRadiusSq
    .ok ⟨b.xmin - r, b.xmax + r, b.ymin - r, b.ymax + r⟩

/-- The loop of `NucleonCommon::thickness` (src/nucleon.h:227-232), accumulating `t`. -/
def NucleonCommon.thicknessLoop (nc : NucleonCommon F) (debug : Bool) (x y : F) :
    List (Constituent F) → F → Res F
  | [], t => .ok t
  | c :: cs, t =>
    let distanceSq := sqr (x - c.x) + sqr (y - c.y)
    if lt distanceSq nc.constituentRadiusSq then
      match nc.fastExp.eval debug (-(lit 0.5) * distanceSq / nc.constituentWidthSq) with
      | .error e => .error e
      | .ok ex => nc.thicknessLoop debug x y cs (t + c.fluctuation * ex)
    else nc.thicknessLoop debug x y cs t

/-- `NucleonCommon::thickness` (src/nucleon.h:223-235). -/
def NucleonCommon.thickness (nc : NucleonCommon F) (debug : Bool) (n : NucleonData F) (x y : F) : Res F :=
  match nc.thicknessLoop debug x y n.constituents (lit 0) with
  | .error e => .error e
  | .ok t => .ok (nc.prefactor * t)

section
variable [Rng F E D]

/-- First loop of `sample_constituent_positions` (src/nucleon.h:293-303): draw `k` constituents in
order, x then y then fluctuation, accumulating the centre-of-mass sums. -/
def drawConstituents (nc : NucleonCommon F) :
    Nat → F → F → Rand E D → (List (Constituent F) × F × F) × Rand E D
  | 0, xcom, ycom, w => (([], xcom, ycom), w)
  | k+1, xcom, ycom, w =>
    let (xloc, w) := drawNormal (lit 0) nc.samplingWidth w
    let (yloc, w) := drawNormal (lit 0) nc.samplingWidth w
    let (fl, w) := drawGamma nc.gammaAlpha nc.gammaBeta w
    let ((cs, xcom, ycom), w) := drawConstituents nc k (xcom + xloc) (ycom + yloc) w
    ((⟨xloc, yloc, fl⟩ :: cs, xcom, ycom), w)

/-- `NucleonCommon::sample_constituent_positions` (src/nucleon.h:283-315). -/
def NucleonCommon.sampleConstituents (nc : NucleonCommon F) (n : NucleonData F) (w : Rand E D) :
    NucleonData F × Rand E D :=
  if n.constituentsExist then (n, w)
  else
    let ((cs, xcom, ycom), w) := drawConstituents nc nc.constituentNumber (lit 0) (lit 0) w
    let xcom := xcom / ofInt nc.constituentNumber
    let ycom := ycom / ofInt nc.constituentNumber
    let cs := cs.map fun c => { c with x := c.x + (n.x - xcom), y := c.y + (n.y - ycom) }
    ({ n with constituents := cs, constituentsExist := true }, w)

/-- `NucleonCommon::set_participant` (src/nucleon.h:317-322). -/
def NucleonData.setParticipant (n : NucleonData F) : NucleonData F :=
  if n.isParticipant then n else { n with isParticipant := true }

/-- The overlap double loop of `participate` (src/nucleon.h:251-257). -/
def overlapSum (widthSq : F) (as bs : List (Constituent F)) : F :=
  as.foldl (init := lit 0) fun acc qA =>
    bs.foldl (init := acc) fun acc qB =>
      let distanceSq := sqr (qA.x - qB.x) + sqr (qA.y - qB.y)
      acc + exp (-(lit 0.25) * distanceSq / widthSq)

/-- `one_minus_prob` of `participate` (src/nucleon.h:269-271). -/
def NucleonCommon.oneMinusProb (nc : NucleonCommon F) (overlap : F) : F :=
  exp (-nc.sigmaPartonic * nc.prefactor / (lit 2 * ofInt nc.constituentNumber) * overlap)

/-- `NucleonCommon::participate` (src/nucleon.h:237-281) for two distinct nucleon objects:
returns the result and the two updated nucleons. -/
def NucleonCommon.participate (nc : NucleonCommon F) (A B : NucleonData F) (w : Rand E D) :
    (Bool × NucleonData F × NucleonData F) × Rand E D :=
  if A.isParticipant && B.isParticipant && !nc.calcNcoll then ((true, A, B), w)
  else
    let distanceSq := sqr (A.x - B.x) + sqr (A.y - B.y)
    if lt nc.maxImpactSq distanceSq then ((false, A, B), w)
    else
      let (A, w) := nc.sampleConstituents A w
      let (B, w) := nc.sampleConstituents B w
      let overlap := overlapSum nc.constituentWidthSq A.constituents B.constituents
      let oneMinusProb := nc.oneMinusProb overlap
      let (u, w) := canonical w
      if lt oneMinusProb u then ((true, A.setParticipant, B.setParticipant), w)
      else ((false, A, B), w)

end
end Trento
