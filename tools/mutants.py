# (id, file under Verif/Model, definition, old, new, claim broken)
M = []
def m(f, d, old, new, claim): M.append((f, d, old, new, claim))

# ---- FastExp
f="FastExp.lean"
m(f,"FastExp.make","else nsteps - 1\n","else nsteps\n","C01: table step no longer spans [xmin,xmax]")
m(f,"FastExp.make","exp (xmin + ofInt i * dx)","exp (xmin + (ofInt i + lit 0.5) * dx)","C01: table holds half-step values")
m(f,"FastExp.eval","/ fe.dx + lit 0.5)","/ fe.dx)","C01: index truncated instead of rounded")
m(f,"FastExp.eval","(lit 1 + x - fe.xmin - ofInt index * fe.dx)","(lit 1 + x - fe.xmin + ofInt index * fe.dx)","C01: wrong sign in the linear correction")
m(f,"FastExp.eval",".ok (t * (lit 1 + x - fe.xmin - ofInt index * fe.dx))",".ok t","C01: linear correction dropped")
m(f,"FastExp.eval","(lt x fe.xmin || lt fe.xmax x)","(lt x fe.xmin)","C02: upper bound not checked in debug builds")
m(f,"FastExp.eval","if debug && (lt","if (lt","C02: release build throws")
# ---- Nucleon
f="Nucleon.lean"
m(f,"NucleonData.setPosition","isParticipant := false, constituentsExist := false }","isParticipant := false }","C12: constituents survive resampling")
m(f,"NucleonData.setPosition","isParticipant := false, constituentsExist","constituentsExist","C12: participant flag survives resampling")
m(f,"maxRadiusWidths","maxRadiusWidths : F := lit 5","maxRadiusWidths : F := lit 4","C03/C04: thickness cut at 4 widths")
m(f,"maxImpactWidths","maxImpactWidths : F := lit 6","maxImpactWidths : F := lit 5","C06/C35: range cut at 5 widths")
m(f,"calcSamplingWidth","sqr nucleonWidth - sqr constituentWidth","sqr nucleonWidth + sqr constituentWidth","C09: variance of the sampled nucleon")
m(f,"calcSamplingWidth","lit 1 - lit 1 / ofInt m","lit 1","C09: recentring correction dropped")
m(f,"calcSamplingWidth","if oneConstituent || sameSize","if oneConstituent","C09: same-size case missing")
m(f,"NucleonCommon.make","(-(lit 0.5) * sqr maxRadiusWidths) (lit 0) 1000","(-(lit 0.5) * sqr maxRadiusWidths) (lit 0) 100","C01/C03: table of 100 entries")
m(f,"NucleonCommon.make","maxImpactSq := sqr (maxImpactWidths * w)","maxImpactSq := sqr (maxImpactWidths * v)","C06: range from the constituent width")
m(f,"NucleonCommon.make","constituentRadiusSq := sqr (maxRadiusWidths * v)","constituentRadiusSq := sqr (maxRadiusWidths * w)","C03/C04: radius from the nucleon width")
m(f,"NucleonCommon.make","prefactor := oneDivTwoPi / sqr v / ofInt m\n    calcNcoll","prefactor := oneDivTwoPi / sqr v\n    calcNcoll","C03: normalisation by the number of constituents dropped")
m(f,"NucleonCommon.make","gammaBeta := lit 1 / k","gammaBeta := k","C03/C07: fluctuation mean not one")
m(f,"boundaryLoop","else if lt b.xmax c.x then { b with xmax := c.x }","else if lt b.xmax c.x then { b with xmax := c.y }","C04: box from the wrong coordinate")
m(f,"boundaryLoop","if lt c.y b.ymin then","if lt b.ymin c.y then","C04: box comparison reversed")
m(f,"NucleonCommon.boundary","⟨b.xmin - r, b.xmax + r, b.ymin - r, b.ymax + r⟩","⟨b.xmin - r, b.xmax, b.ymin - r, b.ymax + r⟩","C04: box too small")
m(f,"NucleonCommon.thicknessLoop","nc.thicknessLoop debug x y cs (t + c.fluctuation * ex)","nc.thicknessLoop debug x y cs (t + ex)","C03: fluctuation dropped")
m(f,"NucleonCommon.thicknessLoop","sqr (x - c.x) + sqr (y - c.y)","sqr (x - c.x) + sqr (x - c.y)","C03: wrong distance")
m(f,"NucleonCommon.thicknessLoop","else nc.thicknessLoop debug x y cs t","else .ok t","C03: stops at the first far constituent")
m(f,"NucleonCommon.thickness",".ok (nc.prefactor * t)",".ok t","C03: prefactor dropped")
m(f,"drawConstituents","drawConstituents nc k (xcom + xloc) (ycom + yloc) w","drawConstituents nc k (xcom + xloc) (ycom + xloc) w","C08: centre of mass wrong")
m(f,"NucleonCommon.sampleConstituents","x := c.x + (n.x - xcom), y := c.y + (n.y - ycom)","x := c.x + n.x, y := c.y + n.y","C08: not recentred")
m(f,"NucleonCommon.sampleConstituents","if n.constituentsExist then (n, w)\n  else","if n.isParticipant then (n, w)\n  else","C08: constituents resampled for every pair")
m(f,"NucleonData.setParticipant","else { n with isParticipant := true }","else n","C05: flag never set")
m(f,"overlapSum","exp (-(lit 0.25) * distanceSq / widthSq)","exp (-(lit 0.5) * distanceSq / widthSq)","C07: overlap of two Gaussians")
m(f,"NucleonCommon.oneMinusProb","/ (lit 2 * ofInt nc.constituentNumber) * overlap","/ lit 2 * overlap","C07: overlap normalisation")
m(f,"NucleonCommon.participate","if lt oneMinusProb u then","if lt u oneMinusProb then","C07: comparison reversed")
m(f,"NucleonCommon.participate","((true, A.setParticipant, B.setParticipant), w)\n      else","((true, A.setParticipant, B), w)\n      else","C05: only one nucleon flagged")
m(f,"NucleonCommon.participate","if lt nc.maxImpactSq distanceSq then ((false, A, B), w)","if lt nc.maxImpactSq distanceSq then ((true, A, B), w)","C06: far pairs collide")
m(f,"NucleonCommon.participate","A.isParticipant && B.isParticipant && !nc.calcNcoll","A.isParticipant && B.isParticipant","C37: ncoll counts pairs that were never tested")
m(f,"NucleonCommon.participate","A.isParticipant && B.isParticipant && !nc.calcNcoll","(A.isParticipant || B.isParticipant) && !nc.calcNcoll","C05/C60: one participant is enough")
m(f,"NucleonCommon.participate","sqr (A.x - B.x) + sqr (A.y - B.y)\n    if lt nc","sqr (A.x - B.x) + sqr (A.y - B.y) + sqr (A.z - B.z)\n    if lt nc","C06: longitudinal distance counted")
# ---- Nucleus
f="Nucleus.lean"
m(f,"mkDeuteron",".deuteron (fmin a b) (fmax a b)",".deuteron (fmax a b) (fmin a b)","C17: proposal no longer dominates")
m(f,"mkWoodsSaxon",".woodsSaxon R a (dmin * dmin)",".woodsSaxon R a dmin","C15: minimum distance not squared")
m(f,"mkDeformed","+ lit 10 * a) (dmin * dmin)","+ lit 3 * a) (dmin * dmin)","C14: cutoff radius too small")
m(f,"mkDeformed","lit 0.63 * fabs beta2","lit 0.63 * beta2","C14: cutoff with negative beta2 (Au2)")
m(f,"Kind.radius","| .woodsSaxon R a _ => R + lit 3 * a","| .woodsSaxon R a _ => R + a","C35: radius")
m(f,"Kind.radius","=> rmax - lit 7 * a","=> rmax","C35: radius of the deformed nucleus")
m(f,"Kind.radius","-(log (lit 0.01)) / (lit 2 * a)","-(log (lit 0.01)) / a","C17/C35: deuteron radius is the 99% quantile")
m(f,"setNucleonPosition","n.setPosition (x + offset) y z","n.setPosition (x - offset) y z","C13: offset sign")
m(f,"setNucleonPosition","n.setPosition (x + offset) y z","n.setPosition (x + offset) (y + offset) z","C13: offset applied to y too")
m(f,"isTooClose","lt (dx*dx + dy*dy + dz*dz) dminsq","lt (dx*dx + dy*dy) dminsq","C15: transverse distance only")
m(f,"isTooClose","else placed.any fun","else placed.all fun","C15: only rejects if too close to all")
m(f,"isTooClose","if lt dminsq (lit 1e-10) then false","if lt dminsq (lit 1) then false","C15: distances below 1 fm ignored")
m(f,"insertBy","if lt (key b) (key a) then","if lt (key a) (key b) then","C14/C15: descending order")
m(f,"spherical","r * sqrt (lit 1 - cosT * cosT)\n  (rSin * cos ph","r * (lit 1 - cosT * cosT)\n  (rSin * cos ph","C14: radius not kept")
m(f,"spherical","(rSin * cos ph, rSin * sin ph, r * cosT)","(rSin * cos ph, rSin * cos ph, r * cosT)","C14: radius not kept")
m(f,"deuteronProb","(lit 2) / u","(lit 2)","C17: acceptance does not divide by the proposal density")
m(f,"deuteronRadius","-(log u) / (lit 2 * a)","-(log u) / a","C17: proposal slope")
m(f,"deuteronLoop","if lt prob u2 then","if lt u2 prob then","C17: acceptance reversed")
m(f,"sampleDeuteron","offset n2 (-x) (-y) (-z)","offset n2 (-x) (-y) z","C17: nucleons not antipodal")
m(f,"placeWS","if decide (0 < left) && isTooClose","if decide (1 < left) && isTooClose","C15: 999 attempts only")
m(f,"placeAllWS","placeWS offset dminsq r placed 1000 n w","placeWS offset dminsq r placed 100 n w","C15: 100 attempts only")
m(f,"placeAllWS","placeAllWS offset dminsq (placed ++ [n]) rs ns w","placeAllWS offset dminsq [n] rs ns w","C15/C12: placed nucleons lost")
m(f,"sampleWS","drawRadii R a ns.length w","drawRadii R a (ns.length - 1) w","C14: one radius missing")
m(f,"deformedDist","lit 3 * c2 - lit 1)\n","lit 3 * c2 + lit 1)\n","C14: Y20")
m(f,"deformedDist","exp ((r - Reff) / a)","exp ((Reff - r) / a)","C14: density inverted")
m(f,"deformedReject","rmax * cbrt u","rmax * u","C14: volume element")
m(f,"deformedReject","if lt (deformedDist R a beta2 beta4 r cosT) u2 then","if lt u2 (deformedDist R a beta2 beta4 r cosT) then","C14: acceptance reversed")
m(f,"rotateTS","x * t.cosB - y * t.cosA * t.sinB + z","x * t.cosB + y * t.cosA * t.sinB + z","C16: not a rotation")
m(f,"rotateTS","y * t.sinA + z * t.cosA)","y * t.sinA - z * t.cosA)","C16: not a rotation")
m(f,"placeDef","let z := z * lit (-1)\n","","C15: z not flipped between attempts")
m(f,"drawTiltSpin","let sinA := sqrt (lit 1 - cosA * cosA)","let sinA := lit 1 - cosA","C16: sine of the tilt")
m(f,"sampleDeformed","(sortBy Prod.fst samples)","samples","C15: unsorted samples")
m(f,"rotateEuler","- z * e.c3 * e.s2","+ z * e.c3 * e.s2","C16: not a rotation")
m(f,"placeManual","| _, [] => .ok []","| _, [] => .ok [NucleonData.init]","C12: size changes")
m(f,"sampleManual","else configs.length - 1\n","else configs.length\n","C16: index past the last configuration")
m(f,"sampleManual","match configs[i]? with","match configs[0]? with","C16: always the first configuration")
m(f,"Nucleus.sampleNucleons",".ok ({ nuc with nucleons := ns, offset := offset }, w)",".ok ({ nuc with offset := offset }, w)","C12: positions not updated")
# ---- Species
f="Species.lean"
m(f,"createNucleus","mkWoodsSaxon 208","mkWoodsSaxon 207","C11: Pb mass number")
m(f,"createNucleus","(lit 6.38) (lit 0.535) (lit (-0.131)) (lit (-0.031))","(lit 6.38) (lit 0.535) (lit (-0.031)) (lit (-0.131))","C11: Au2 deformation swapped")
m(f,"createNucleus","species = \"Xe2\"","species = \"Xe3\"","C11: Xe2 unknown")
m(f,"createNucleus","(lit 4.20) (lit 0.596) dmin)\n  else if species = \"Cu2\"","(lit 4.20) (lit 0.596) (lit 0))\n  else if species = \"Cu2\"","C11: Cu ignores the minimum distance")
m(f,"filenameIsHdf5","[\".hdf5\", \".hdf\", \".hd5\", \".h5\"]","[\".hdf5\", \".hdf\", \".h5\"]","C59: .hd5 not recognised")
m(f,"pathExtension","takeWhile (· != '.')","dropWhile (· != '.')","C59: wrong extension")
m(f,"maxRadiusSq","if lt m rSq then rSq else m","if lt rSq m then rSq else m","C19: minimum instead of maximum")
m(f,"manualCreate","else if dims.getD 2 0 ≠ 3","else if dims.getD 2 0 < 3","C19: four columns accepted")
m(f,"manualCreate","| [(_, .other)] => .error (.throw .invalidArgument \"object is not a dataset\")","| [(_, .other)] => .ok mkProton","C19: group accepted")
m(f,"manualCreate","(sqrt rmaxSq)","rmaxSq","C19: radius not rooted")
m(f,"manualCreate","min (500 / A + 1) nconfigs","min (500 / A) nconfigs","C19: radius scan of large nuclei empty")
# ---- Event
f="Event.lean"
m(f,"negativePmean","lt a TINY || lt b TINY","lt a TINY && lt b TINY","C25: mean for p<0 must vanish when one thickness does")
m(f,"geometricMean","sqrt (a * b)","a * b","C25: geometric mean")
m(f,"genMean","else if lt (lit 0) p then positivePmean p\n  else negativePmean p","else positivePmean p","C25: p<0 with vanishing thickness")
m(f,"genMean","if lt (fabs p) TINY","if lt p TINY","C25: negative p treated as zero")
m(f,"positivePmean","(lit 1 / p)","p","C25: outer power")
m(f,"EventCfg.make","castInt (ceil (lit 2 * gridMax / dxy))","castInt (lit 2 * gridMax / dxy)","C20: grid does not cover")
m(f,"EventCfg.make","xymax := lit 0.5 * ofInt nsteps * dxy","xymax := lit 0.5 * gridMax","C20: half width")
m(f,"clip","if value < min then min else if max < value then max else value","if max < value then max else value","C22: negative indices")
m(f,"EventCfg.center","(ofInt i + lit 0.5) * c.dxy","ofInt i * c.dxy","C20/C21: cell corner instead of centre")
m(f,"depositCell","(c.center ix) (c.center iy)","(c.center iy) (c.center ix)","C21: transposed")
m(f,"depositNucleon","let top := c.nsteps - 1","let top := c.nsteps","C22: off by one")
m(f,"depositNucleon","(clip ixmin 0 top) (clip ixmax 0 top)","(clip ixmin 0 top) (clip ixmax 0 top - 1)","C21: last column missing")
m(f,"depositNucleon","let ixmax ← c.index b.xmax","let ixmax ← c.index b.ymax","C21: wrong box")
m(f,"depositAll","if nucl.isParticipant then","if !nucl.isParticipant then","C21/C23: spectators deposited")
m(f,"depositAll","depositAll c nc debug rest (g, npart + 1)\n    else","depositAll c nc debug rest (g, npart)\n    else","C23: npart not counted")
m(f,"computeNuclearThickness","depositAll c nc debug nucleons (wiped, npart)","depositAll c nc debug nucleons (_old, npart)","C24: grid not wiped")
m(f,"rtStep","let t := c.norm * genMean c.p","let t := genMean c.p","C25/C27: norm dropped")
m(f,"rtStep","ixcm := s.ixcm + t * ofInt i.2.val","ixcm := s.ixcm + t * ofInt i.1.val","C28: centre of mass")
m(f,"computeReducedThickness","c.dxy * c.dxy * s.sum","c.dxy * s.sum","C27: cell area")
m(f,"computeReducedThickness","⟨ev.TR, lit 0, lit 0, lit 0⟩","⟨ev.TR, ev.multiplicity, lit 0, lit 0⟩","C24/C27: sum not reset")
m(f,"EccAcc.finish","fmax a.wt TINY","a.wt","C28/C29: no guard (changes only the degenerate case)")
m(f,"obsStep","if lt t TINY then s\n","if lt TINY t then s\n","C28: cells skipped")
m(f,"obsStep","t * (y2 - x2)\n              im := s.e2.im","t * (y2 + x2)\n              im := s.e2.im","C28: e2")
m(f,"obsStep","lit 3 * x * y2 - x3","lit 3 * x * y2 + x3","C28: e3")
m(f,"obsStep","x4 + y4 - lit 6 * x2y2","x4 + y4 - lit 4 * x2y2","C28: e4")
m(f,"obsStep","lit 5 * x4 - lit 10 * x2y2 + y4","lit 5 * x4 + lit 10 * x2y2 + y4","C28: e5")
m(f,"obsStep","wt := s.e3.wt + t * r2 * r }","wt := s.e3.wt + t * r2 }","C28: e3 weight")
m(f,"obsStep","let x := ofInt i.2.val - ixcm","let x := ofInt i.2.val - iycm","C28: centre")
m(f,"Event.compute","computeNuclearThickness c nc debug B ev.TB npart","computeNuclearThickness c nc debug B ev.TB 0","C23: npart of A lost")
m(f,"Event.compute","{ ev with TA := TA, TB := TB, npart := npart }","{ ev with TA := TA, TB := TA, npart := npart }","C21/C25: B ignored")
m(f,"Event.compute","computeNuclearThickness c nc debug A ev.TA 0","computeNuclearThickness c nc debug A ev.TA ev.npart","C23/C24: npart accumulates over events")
# ---- Collider
f="Collider.lean"
m(f,"determineBmax","if lt bmaxOpt (lit 0) then","if lt (lit 0) bmaxOpt then","C35: option ignored")
m(f,"determineBmax","A.radius + B.radius + nc.maxImpact else","A.radius + B.radius else","C35: range missing")
m(f,"determineAsym","lit 0.5 else rA / sum","lit 0.5 else rB / sum","C34: offsets swapped")
m(f,"determineAsym","if lt sum (lit 0.1) then lit 0.5 else rA / sum","rA / sum","C34: proton-proton division by zero")
m(f,"pairRow","if newCollision && calcNcoll then ncoll + 1","if newCollision then ncoll + 1","C46/C37: ncoll without the option")
m(f,"pairRow","let collision := newCollision || collision","let collision := newCollision","C36: collision flag of the last pair only")
m(f,"pairRow","let ((A, Bs, ncoll, collision), w) := pairRow nc calcNcoll A Bs","let ((_, Bs, ncoll, collision), w) := pairRow nc calcNcoll A Bs","C23/C60: flags of A lost")
m(f,"impactFormula","(bmax * bmax - bmin * bmin) * u","(bmax - bmin) * u","C33: range of b")
m(f,"impactFormula","sqrt (bmin * bmin + (bmax * bmax - bmin * bmin) * u)","bmin + (bmax - bmin) * u","C33: distribution of b uniform")
m(f,"collisionLoop","((c.asymmetry - lit 1) * b)","((lit 1 - c.asymmetry) * b)","C34: separation")
m(f,"collisionLoop","if collision then .ok ((b, ncoll, A, B), w)","if !collision then .ok ((b, ncoll, A, B), w)","C36: events without collision")
m(f,"Collider.sampleCollision","collisionLoop rfuel c fuel A B 0 false w","collisionLoop rfuel c fuel A B 1 false w","C37: ncoll starts at one")
m(f,"runLoop","runLoop rfuel fuel c ec debug k (num+1) ⟨A, B, ev, w⟩","runLoop rfuel fuel c ec debug k num ⟨A, B, ev, w⟩","C40: event numbers repeat")
m(f,"runLoop","runLoop rfuel fuel c ec debug k (num+1) ⟨A, B, ev, w⟩","runLoop rfuel fuel c ec debug k (num+1) ⟨A, B, ev, s.rand⟩","C38/C40: random state not advanced")
m(f,"Collider.runEvents","c.nevents.toNat 0 ⟨","c.nevents.toNat 1 ⟨","C40: numbering starts at one")
m(f,"Collider.runEvents","c.nevents.toNat 0 ⟨","(c.nevents.toNat - 1) 0 ⟨","C40: one event missing")
m(f,"Collider.make","bmin := o.bMin","bmin := lit 0","C33: b-min ignored")
m(f,"Collider.make","o.constitNumber sigma o.ncoll o.fluctuation","o.constitNumber sigma false o.fluctuation","C37: ncoll option not passed to the nucleons")
m(f,"seedRand","if 0 < seed then","if seed < 0 then","C38: positive seed ignored")
m(f,"seedRand","dist := Rng.freshDist F E","dist := w.dist","C38: distribution state survives")
m(f,"runAll","o.normalization o.gridStep o.gridMax","o.normalization o.gridMax o.gridStep","C20: grid options swapped")
# ---- Text
f="Text.lean"
m(f,"natDigits","if n < 10 then","if n < 11 then","C41/C42: digits")
m(f,"intDigits","if k < 0 then '-' ::","if k < 0 then","C42: sign lost")
m(f,"OStream.put","width := 0, out","out","C42: field width persists")
m(f,"OStream.put","if os.left then s ++ pad else pad ++ s","s ++ pad","C42: left adjusted")
m(f,"scanExp","if c = 'e' ∨ c = 'E' then","if c = 'E' then","C43/C50: exponent not read")
m(f,"scanFloat","/ 10 ^ frac.length)","/ 10)","C43/C50: fraction")
# ---- Output
f="Output.lean"
m(f,"eccList","[(2, e.e2), (3, e.e3), (4, e.e4), (5, e.e5)]","[(2, e.e2), (3, e.e3), (4, e.e4)]","C42/C49: e5 missing")
m(f,"writeStream","os.setprecision 10).setw width","os.setprecision 6).setw width","C43: precision")
m(f,"writeStream","(os.setw 5).int ev.npart","(os.setw 3).int ev.npart","C42: npart column merges")
m(f,"writeStream","((os.setw 15).fixed).dbl b","(os.setw 15).dbl b","C42: format of b depends on the stream state")
m(f,"writeStream","let os := if 0 < ncoll then (os.setw 6).int ncoll else os\n  let os := (((os.setw 18)","let os := (((os.setw 18)","C46: ncoll column missing")
m(f,"writeStream","os.put ['\\n']\n\n/-- The row loop","os\n\n/-- The row loop","C42: line not ended")
m(f,"gridRowLoop","(i : Int) + 1 = (n : Int) - 1","(i : Int) + 1 = (n : Int)","C47/C61: read past the row")
m(f,"gridRowLoop","((os.dbl y).put ['\\n'])","((os.dbl x).put ['\\n'])","C47: last column repeated")
m(f,"gridLists","List.ofFn fun ix => g iy ix","List.ofFn fun ix => g ix iy","C47/C49: transposed")
m(f,"writeHeader","if 0 < ncoll then ((os.str \"# ncoll = \")","if 0 ≤ ncoll then ((os.str \"# ncoll = \")","C46: header line without the option")
m(f,"writeHeader","(os.str \"# b     = \").dbl b","(os.str \"# b     = \").dbl ev.multiplicity","C47/C48: header value of b")
m(f,"textFileBody","if header then writeHeader num b ncoll ev os else os","writeHeader num b ncoll ev os","C48: no-header ignored")
m(f,"textFileName","setw width).setfill '0')","setw width).setfill ' ')","C41: padding")
m(f,"textFileName","|>.str \".dat\"","|>.str \".txt\"","C41: suffix")
m(f,"writeTextFile","fs.set p (.file (.text os.out)))\n  else","fs.set dir (.file (.text os.out)))\n  else","C45: wrong path")
m(f,"h5Event","[(\"b\".toList, .dbl b), (\"npart\".toList, .int ev.npart)]","[(\"b\".toList, .dbl b), (\"npart\".toList, .int ncoll)]","C49: npart attribute")
m(f,"h5Event","data := (gridLists ev.TR).flatten","data := (gridLists ev.TA).flatten","C49: wrong grid")
m(f,"h5Write","fs.set p (.file (.h5 (ds ++ [d])))","fs.set p (.file (.h5 [d]))","C49: earlier events lost")
m(f,"outputEvent","| (.ok (), W) => outputEvent env r wrs W","| (.ok (), W) => (.ok (), W)","C45: only the first writer is called")
m(f,"outputMake","if o.quiet then [] else","if o.quiet then [Writer.stdout width] else","C40/C45: quiet ignored")
m(f,"outputMake","if W.fs.exists p && !W.fs.isEmpty p then\n          (.error (.throw .runtimeError s!\"file","if false then\n          (.error (.throw .runtimeError s!\"file","C44: HDF5 file overwritten")
m(f,"outputMake","if !W.fs.isEmpty p then\n            (.error","if W.fs.isEmpty p then\n            (.error","C44: non-empty directory accepted")
m(f,"outputMake",".text p width (!o.noHeader)]), W)",".text p width o.noHeader]), W)","C48: header flag inverted")
m(f,"outputMake","castInt (ceil (log10 (ofInt nevents : F)))","castInt (log10 (ofInt nevents : F))","C41: width too small")
m(f,"runLoopOut","wrs k (num+1) ⟨A, B, ev, w⟩ W","wrs k num ⟨A, B, ev, w⟩ W","C40: numbers repeat")
m(f,"runLoopOut","outputEvent env ⟨num, b, ncoll, ev⟩ wrs W","outputEvent env ⟨num, b, ncoll, s.event⟩ wrs W","C40: previous event written")
# ---- CrossSection
f="CrossSection.lean"
m(f,"CyclicNormal.quantile","ofInt ((size : Int) + 1)","ofInt (size : Int)","C55: quantiles")
m(f,"CyclicNormal.quantiles","CyclicNormal.quantile mean sd size (i+1)","CyclicNormal.quantile mean sd size i","C55: quantile zero")
m(f,"CyclicNormal.draw","{ c with pos := c.pos + 1 }, w)","{ c with pos := c.pos }, w)","C55: same value for ever")
m(f,"CyclicNormal.draw","{ c with pos := 0, loopCount := c.loopCount + 1 }","{ c with pos := 0 }","C55: never reshuffles")
m(f,"mcOverlap","qA.1 - qB.1 + b","qA.1 - qB.1","C54: impact parameter ignored")
m(f,"mcEstimate","pi * sqr mc.maxImpact *","pi * mc.maxImpact *","C54: area")
m(f,"mcLoop","let pass := if within then pass + 1 else 0","let pass := if within then pass + 1 else pass","C54: convergence counter not reset")
m(f,"mcLoop","let ref := if within then ref else cs","let ref := cs","C54: reference follows")
m(f,"analyticEq","c - expint (-(exp x)) + expint","c + expint (-(exp x)) + expint","C10: equation")
m(f,"analyticRhs","lit 4 * pi * sqr width","lit 2 * pi * sqr width","C10: normalisation")
m(f,"analyticC","sqr maxImpactWidths / lit 4","sqr maxImpactWidths / lit 2","C10: cutoff")
m(f,"fitResult","exp (lit 0.5 * (l + r))","lit 0.5 * (l + r)","C10: logarithm of the parameter")
m(f,"almostEqual","lit 1e-6","lit 1","C50: tolerance")
m(f,"matchRecord","let v ← useVar \"constituent_width_\" x.v\n  if !almostEqual key.v v then return none\n","","C50: constituent width not compared")
m(f,"matchRecord","if key.m ≠ m then return none","if key.m < m then return none","C50: constituent number")
m(f,"searchCache","| .ok (some sp) => .ok (some sp)","| .ok (some sp) => .ok (some (sp + lit 1))","C50: value")
m(f,"writeRecord","((os.setprecision 6).setLeft)","((os.setprecision 4).setLeft)","C50/C51: written precision loses the key")
m(f,"writeRecord","(((os.setRight).setw 10).fixed).dbl key.v","(((os.setRight).setw 10).fixed).dbl key.w","C50: wrong column")
m(f,"openAppend","fs.set p (.file (.text []))\n    | _ => fs","fs.set p (.file (.text []))\n    | _ => fs.set p (.file (.text []))","C51/C52: truncates the cache")
m(f,"appendText",".text (old ++ s)",".text s","C51: truncates the cache")
m(f,"cacheDir","[\".local\", \"share\", \"trento\"]","[\".local\", \"trento\"]","C50: cache location")
m(f,"partonicCrossSection","| .ok (some sp) => (.ok sp, fs, r)","| .ok (some sp) => (.ok sp, fs, (fit r).2)","C51: a hit runs the fit and changes the random state")
m(f,"crossSectionFit","if 1 < key.m then","if 2 < key.m then","C10/C54: two constituents use the analytic fit")
# ---- Random
f="Random.lean"
m(f,"cosTheta","lit 2 * u - lit 1","u","C14: only one hemisphere")
m(f,"phi","twoPi * u","u","C14: azimuth not covering the circle")
# ---- Program
f="Program.lean"
m(f,"boolToken","| [] => .ok true","| [] => .ok false","C56: a switch given on the command line is off")
m(f,"parseVal","| some (.strs l) => .ok (.strs (l ++ new))","| some (.strs l) => .ok (.strs new)","C56: later vector values replace earlier ones")
m(f,"parseVal","| some _ => .error (.throw .poError \"option cannot be specified more than once\")","| some _ => scalarVal L ty toks","C56: repeated option accepted")
m(f,"storeParsed","if k ∈ vm.final then storeParsed L desc rest newFinal vm\n    else","","C56: config file overrides the command line")
m(f,"storeParsed","| some e => if e.defaulted then none else some e.val","| some e => some e.val","C56: defaults block explicit values")
m(f,"storeParsed","(vm.set k ⟨v, false⟩)","(vm.set k ⟨v, true⟩)","C56: explicit values marked as defaulted")
m(f,"storeDefaults","| none, some v => storeDefaults ds (vm.set d.name ⟨v, true⟩)","| none, some v => storeDefaults ds (vm.set d.name ⟨v, false⟩)","C56: defaults marked as explicit")
m(f,"storeDefaults","match vm.vals d.name, d.default with\n    | none, some v","match vm.vals d.name, d.default with\n    | _, some v","C56: defaults overwrite given values")
m(f,"store","{ vm with final := newFinal ++ vm.final }","{ vm with final := newFinal }","C56: finality of the command line is lost after the first config file")
m(f,"mainOpts","some (.int 1)","some (.int 0)","C56: default number of events")
m(f,"physOpts","⟨\"fluctuation\", .double, some (.dbl (lit 1))⟩","⟨\"fluctuation\", .double, some (.dbl (lit 0))⟩","C56: default fluctuation")
m(f,"physOpts","⟨\"b-max\", .double, some (.dbl (lit (-1)))⟩","⟨\"b-max\", .double, some (.dbl (lit 1))⟩","C56: default b-max")
m(f,"physOpts","⟨\"random-seed\", .int64, some (.int (-1))⟩","⟨\"random-seed\", .int64, some (.int 1)⟩","C56: default seed")
m(f,"physOpts","⟨\"cross-section\", .double, some (.dbl (lit 6.4))⟩","⟨\"cross-section\", .double, some (.dbl (lit 64))⟩","C56: default cross section")
m(f,"gridOpts","⟨\"grid-step\", .double, some (.dbl (lit 0.2))⟩","⟨\"grid-step\", .double, some (.dbl (lit 0.5))⟩","C56: default grid step")
m(f,"outputOpts","⟨\"no-header\", .switch, some (.bool false)⟩","⟨\"no-header\", .switch, some (.bool true)⟩","C56: default header")
m(f,"configOpts","mainOpts ++ outputOpts ++ physOpts ++ gridOpts","mainOpts ++ outputOpts ++ physOpts","C56: grid options rejected in config files")
m(f,"configOpts","mainOpts ++ outputOpts ++ physOpts ++ gridOpts","generalOpts ++ mainOpts ++ outputOpts ++ physOpts ++ gridOpts","C56: config files accept --help")
m(f,"mergeConfigs","if !fs.exists (env.resolve path) then .error (.throw .poError s!\"configuration file '{path}' not found\")\n    else","","C56: missing config file ignored")
m(f,"mergeConfigs","| .ok vm => mergeConfigs L env ce fs rest vm","| .ok vm => .ok vm","C56: only the first config file is read")
m(f,"checkWidths","if lt w (lit 0) || lt v (lit 0)","if lt w (lit 0)","C57: negative constituent width accepted")
m(f,"checkWidths","else if lt w v then","else if lt v w then","C57: comparison swapped")
m(f,"checkWidths","lt v w && decide (m = 1)","lt v w && decide (m = 2)","C57: constituent number")
m(f,"notify","if l.length ≠ 2 then","if l.length < 2 then","C57: three projectiles accepted")
m(f,"defaultConstitWidth","if e.defaulted then","if !e.defaulted then","C57: explicit constituent width overwritten")
m(f,"defaultConstitWidth","vm.dbl \"nucleon-width\"","vm.dbl \"constit-width\"","C57: default constituent width not the nucleon width")
m(f,"configure","if vm.count \"help\" then .ok .help\n      else if vm.count \"version\" then .ok .version","if vm.count \"version\" then .ok .version\n      else if vm.count \"help\" then .ok .help","C58: version before help")
m(f,"configure","match finalize vm with\n          | .error e => .error e\n          | .ok vm => .ok (.run vm)",".ok (.run vm)","C57: no validation")
m(f,"finalize","checkWidths w v m\n","checkWidths v w m\n","C57: swapped arguments")
m(f,"finalize","  notify vm\n","","C57: projectiles not required")
m(f,"createFrom","ps[index]?","ps[0]?","C64: both nuclei from the first projectile")
m(f,"readOptions","bMin := bmin, bMax := bmax","bMin := bmax, bMax := bmin","C64: swapped impact parameters")
m(f,"readOptions","gridMax := gmax, gridStep := step","gridMax := step, gridStep := gmax","C64: swapped grid parameters")
m(f,"readOptions","nucleonWidth := w, constitWidth := v","nucleonWidth := v, constitWidth := w","C64: swapped widths")
m(f,"readOptions","let x ← vm.dbl \"cross-section\"","let x ← vm.dbl \"normalization\"","C64: cross section option")
m(f,"readOptions","let norm ← vm.dbl \"normalization\"","let norm ← vm.dbl \"fluctuation\"","C64: normalisation option")
m(f,"readOptions","reducedThickness := p, fluctuation := k","reducedThickness := k, fluctuation := p","C64: swapped parameters")
m(f,"readOptions","let ncoll ← vm.bool \"ncoll\"","let ncoll ← vm.bool \"quiet\"","C64: ncoll option")
m(f,"readOutOptions","return ⟨quiet, some (← vm.str \"output\"), noHeader⟩","return ⟨noHeader, some (← vm.str \"output\"), quiet⟩","C64: swapped output options")
m(f,"readKey","⟨← vm.int \"constit-number\", ← vm.dbl \"nucleon-width\", ← vm.dbl \"constit-width\", ← vm.dbl \"cross-section\"⟩","⟨← vm.int \"constit-number\", ← vm.dbl \"constit-width\", ← vm.dbl \"nucleon-width\", ← vm.dbl \"cross-section\"⟩","C64/C50: swapped widths in the key")
m(f,"constructCollider","match createFrom L (h5view W.fs) vm 1 with","match createFrom L (h5view W.fs) vm 0 with","C64: second projectile")
m(f,"constructCollider","(.ok (Collider.make o sigma, ec, wrs), W, seedRand F o.randomSeed r)","(.ok (Collider.make o sigma, ec, wrs), W, r)","C38/C66: engine not seeded")
m(f,"constructCollider","(.ok (Collider.make o sigma, ec, wrs), W, seedRand F o.randomSeed r)","(.ok (Collider.make o o.crossSection, ec, wrs), W, seedRand F o.randomSeed r)","C64: requested cross section used as parameter")
m(f,"runCommand","c.nevents.toNat 0\n","(c.nevents.toNat + 1) 0\n","C40/C64: one event too many")
m(f,"runCommand","| (.error e, W) => (.error e, W)\n        | (.ok _, W) => (.ok (), W)","| (.error _, W) => (.ok (), W)\n        | (.ok _, W) => (.ok (), W)","C58: failures in the run are swallowed")
m(f,"handle","| .throw _ msg => (.status 1, msg.toList ++ ['\\n'])","| .throw _ msg => (.status 0, msg.toList ++ ['\\n'])","C58: exit status 0 after an error")
m(f,"handle","| .throw .h5Exception _ => (.terminated, [])","| .throw .h5Exception _ => (.status 1, [])","C58: HDF5 exception handled")
m(f,"mainProg","| .ok .help => (.status 0,","| .ok .help => (.status 1,","C58: help exits with an error")
m(f,"mainProg","| .ok .bibtex => (.status 0, { W with cout := W.cout.put bibtexText }, [])","| .ok .bibtex => (.status 0, { W with cout := W.cout.put (versionText L) }, [])","C58: bibtex prints the version")
# ---- Concurrent
f="Concurrent.lean"
m(f,"CacheProc.step","| .opening dir => ({ p with pc := .fitting dir }, openAppend env (dir ++ [\"cross_section.cache\"]) fs)","| .opening dir => ({ p with pc := .fitting dir }, fs)","C73: file not opened before the fit (no empty file race)")
m(f,"CacheProc.step","| (.ok sp, r) => ({ p with rand := r, pc := .writing dir sp }, fs)","| (.ok sp, r) => ({ p with rand := r, pc := .done (.ok sp) }, fs)","C73: fitted value not stored")
m(f,"CacheProc.step","({ p with pc := .done (.ok sp) }, appendText env (dir ++ [\"cross_section.cache\"]) (writeRecord p.key sp {}).out fs)","({ p with pc := .done (.ok sp) }, fs.set (dir ++ [\"cross_section.cache\"]) (.file (.text (writeRecord p.key sp {}).out)))","C73: record overwrites the file")
m(f,"CacheProc.step","| .ok (some sp) => ({ p with pc := .done (.ok sp) }, fs)","| .ok (some sp) => ({ p with pc := .opening dir }, fs)","C73: hit ignored, fit repeated")
m(f,"cacheSchedule","(fun j => if j = i then p else ps j) fs","(fun j => if j = i then ps j else ps j) fs","C73: process never advances")
m(f,"OutProc.step","| (.ok (), W) => ({ p with cout := W.cout, pc := .running todo }, W.fs)","| (.ok (), W) => ({ p with cout := W.cout, pc := .running [] }, W.fs)","C74: stops after the first writer call")
m(f,"OutProc.step","p.records.flatMap fun r => wrs.map fun wr => (r, wr)","wrs.flatMap fun wr => p.records.map fun r => (r, wr)","C74: order of writers and events")
m(f,"OutProc.step","| (.error e, W) => ({ p with cout := W.cout, pc := .failed e }, W.fs)\n    | (.ok (), W)","| (.error _, W) => ({ p with cout := W.cout, pc := .running todo }, W.fs)\n    | (.ok (), W)","C74: writer errors ignored")
# ---- more species and constants
f="Species.lean"
m(f,"createNucleus","(lit 6.62) (lit 0.546) dmin","(lit 6.62) (lit 0.456) dmin","C70: lead diffuseness")
m(f,"createNucleus","mkDeformed 238 (lit 6.86) (lit 0.420) (lit 0.265) (lit 0.000) dmin","mkDeformed 238 (lit 6.86) (lit 0.420) (lit 0.000) (lit 0.265) dmin","C70: U2 deformation parameters swapped")
m(f,"createNucleus","mkDeuteron (lit 0.457) (lit 2.35)","mkDeuteron (lit 2.35) (lit 0.457)","C17: Hulthen parameters swapped")
m(f,"manualCreate","min (500 / A + 1) nconfigs","min (500 / A) nconfigs","C19: configurations searched for the radius")
m(f,"maxRadiusSq","if lt m rSq then rSq else m","if lt rSq m then rSq else m","C19: minimum instead of maximum")
f="CrossSection.lean"
m(f,"numericCrossSection","lit 4 * pi * sqr v","lit 4 * pi * sqr w","C75: unit of the parameter")
m(f,"numericCrossSection","cs - sigmaNN","sigmaNN + cs","C75: sign of the target")
m(f,"numericCrossSection","(lit (-10)) (lit 20)","(lit 0) (lit 20)","C75: search range")
m(f,"mcSample","mc.maxImpact * sqrt u","mc.maxImpact * u","C75: impact parameter distribution")
m(f,"mcSample","(lit 2 * ofInt mc.constituentNumber)","(ofInt mc.constituentNumber)","C75: differs from the simulated probability")

# C85-C94 and tightened C53/C75
f="Nucleus.lean"
m(f,"rotateEuler","- y * (e.c3 * e.s1 + e.c1 * e.c2 * e.s3)","- y * (e.c3 * e.s1 - e.c1 * e.c2 * e.s3)","C85: sign in the Euler rotation, not a rotation")
m(f,"rotateTS","y * t.sinA + z * t.cosA","y * t.cosA + z * t.sinA","C85: tilt sine and cosine swapped")
m(f,"drawEuler","let (c2, w) := cosTheta w","let (c2, w) := phi w\n  let c2 := cos c2","C85: polar Euler angle uniform instead of its cosine")
m(f,"drawTiltSpin","let (b, w) := phi w","let b := cosA","C85: spin angle not drawn")
m(f,"spherical","sqrt (lit 1 - cosT * cosT)","(lit 1 - cosT * cosT)","C85: sine of the polar angle without root")
m(f,"placeDef","let y := rSin * sin ph","let y := rSin * cos ph","C85: azimuth of a deformed nucleus")
m(f,"deuteronRadius","-(log u) / (lit 2 * a)","-(log u) / a","C87: proposal density of the deuteron")
m(f,"deuteronProb","(lit 2) / u","(lit 1) / u","C87: Hulthen density not squared")
m(f,"deuteronLoop","if lt prob u2 then","if lt u2 prob then","C87: acceptance inverted")
m(f,"deformedReject","rmax * cbrt u","rmax * sqrt u","C87: radial proposal not uniform in volume")
m(f,"deformedReject","if lt (deformedDist R a beta2 beta4 r cosT) u2","if lt u2 (deformedDist R a beta2 beta4 r cosT)","C87: acceptance inverted")
m(f,"deformedDist","(lit 3 * c2 - lit 1)","(lit 3 * c2 + lit 1)","C87: wrong spherical harmonic")
m(f,"deformedDist","(r - Reff) / a","(r - R) / a","C87: deformation ignored")
m(f,"sampleDeuteron","setNucleonPosition offset n2 (-x) (-y) (-z)","setNucleonPosition offset n2 (-x) (-y) z","C87: nucleons not opposite")
f="Nucleon.lean"
m(f,"NucleonData.setPosition","isParticipant := false, constituentsExist := false","isParticipant := false","C88: constituents of the previous event reused")
m(f,"NucleonData.setPosition","isParticipant := false, constituentsExist := false","constituentsExist := false","C88: participants of the previous event kept")
m(f,"NucleonCommon.sampleConstituents","if n.constituentsExist then (n, w)","if n.constituentsExist || !n.constituents.isEmpty then (n, w)","C88: stale constituent vectors read")
m(f,"NucleonCommon.participate","if lt oneMinusProb u then","if lt u oneMinusProb then","C91: interaction probability inverted")
m(f,"NucleonCommon.oneMinusProb","(lit 2 * ofInt nc.constituentNumber)","(ofInt nc.constituentNumber)","C91: factor 2 in the overlap")
m(f,"NucleonCommon.make","prefactor := oneDivTwoPi / sqr v / ofInt m","prefactor := oneDivTwoPi / sqr w / ofInt m","C91: normalisation with the nucleon width")
f="Collider.lean"
m(f,"impactFormula","(bmax * bmax - bmin * bmin) * u","(bmax - bmin) * (bmax - bmin) * u","C90: impact parameter density")
m(f,"impactFormula","sqrt (bmin * bmin + (bmax * bmax - bmin * bmin) * u)","bmin + (bmax - bmin) * u","C90: impact parameter uniform in b")
m(f,"collisionLoop","if collision then .ok ((b, ncoll, A, B), w)","if collision || decide (fuel = 0) then .ok ((b, ncoll, A, B), w)","C89: last attempt accepted without a collision")
m(f,"collisionLoop","    let (u, w) := canonical w\n    let b := impactFormula c.bmin c.bmax u\n","    let (u, w) := if ncoll = 0 then canonical w else ((lit 0), w)\n    let b := impactFormula c.bmin c.bmax u\n","C89: impact parameter not redrawn")
m(f,"collisionLoop","    match A.sampleNucleons rfuel (c.asymmetry * b) w with\n    | .error e => .error e\n    | .ok (A, w) =>","    match (if fuel % 2 = 0 then A.sampleNucleons rfuel (c.asymmetry * b) w else .ok (A, w)) with\n    | .error e => .error e\n    | .ok (A, w) =>","C89/C92: projectile not resampled in every attempt")
m(f,"pairLoop","let ((As, Bs, ncoll, collision), w) := pairLoop nc calcNcoll As Bs ncoll collision w","let ((As, Bs, ncoll, _), w) := pairLoop nc calcNcoll As Bs ncoll collision w","C94/C37: collisions of later nucleons ignored")
m(f,"determineBmax","A.radius + B.radius + nc.maxImpact","A.radius + B.radius","C91: default bmax cuts the cross section")
m(f,"runLoop","match s.event.compute ec c.nc debug A.nucleons B.nucleons with","match s.event.compute ec c.nc debug s.A.nucleons B.nucleons with","C92: event computed from the previous projectile")
m(f,"runLoop","match c.sampleCollision rfuel fuel s.A s.B s.rand with","match c.sampleCollision rfuel fuel s.B s.A s.rand with","C92: nuclei swapped between events")
m(f,"runLoop","(num+1) ⟨A, B, ev, w⟩","(num+1) ⟨A, B, ev, s.rand⟩","C92: random state not advanced between events")
f="Event.lean"
m(f,"computeNuclearThickness","let wiped : Grid F n := fun _ _ => lit 0","let wiped : Grid F n := _old","C92: thickness grid not wiped")
m(f,"Event.compute","computeNuclearThickness c nc debug A ev.TA 0","computeNuclearThickness c nc debug A ev.TA ev.npart","C92: participants accumulate over events")
m(f,"computeReducedThickness","⟨ev.TR, lit 0, lit 0, lit 0⟩","⟨ev.TR, lit 0, ev.ixcm, lit 0⟩","C92: centre of mass starts from the previous event")
m(f,"rtStep","c.norm * genMean c.p (TA i.1 i.2) (TB i.1 i.2)","s.TR i.1 i.2 + c.norm * genMean c.p (TA i.1 i.2) (TB i.1 i.2)","C92: reduced thickness accumulates over events")
f="Text.lean"
m(f,"isDig","c.toNat ≤ 57","c.toNat ≤ 58","C53: colon taken as a digit")
m(f,"isSpace","c = Char.ofNat 11 || ","","C53: vertical tab not a separator")
m(f,"isSpace"," || c = Char.ofNat 12","","C53: form feed not a separator")
f="CrossSection.lean"
m(f,"mcConst","⟨10000000, 1000000, 10, 10000⟩","⟨10000000, 100000, 10, 10000⟩","C75: size of the cache of normal numbers")
m(f,"mcConst","⟨10000000, 1000000, 10, 10000⟩","⟨10000000, 1000000, 1, 10000⟩","C75: number of uses of the cache")
# ---- the random library (C95-C99)
f="LibRandom.lean"
m(f,"mtSeedStep","x >>> 62","x >>> 63","C95/C96: seeding shift")
m(f,"mtSeedStep","6364136223846793005#64","6364136223846793004#64","C96: even multiplier, seeds collide")
m(f,"mtSeedStep"," + BitVec.ofNat 64 i","","C95: seeding without the index")
m(f,"MT.seed","List.range 312","List.range 311","C95: one word too few")
m(f,"mtJoin","0x7fffffff#64","0xffffffff#64","C95: mask one bit too wide")
m(f,"mtTwist","y >>> 1","y >>> 2","C95: twist shift")
m(f,"MT.nextWord","s.win.getD 156 0","s.win.getD 155 0","C95: wrong middle word")
m(f,"mtTemper","z <<< 17","z <<< 15","C95: tempering shift")
m(f,"mtTemper","z >>> 43","z >>> 44","C95: last tempering shift")
m(f,"MT.word","s.win.tail ++ [x]","s.win ++ [x]","C95: window not advanced")
m(f,"roundTo53","if q % 2 = 0 then q * unit else (q + 1) * unit","(q + 1) * unit","C95: ties away from even")
m(f,"canonicalQ","if 1 ≤ q then 1 - 1 / 9007199254740992 else q","q","C95: canonical can be 1")
m(f,"polarStep","lt (lit 1) r2 || eqv r2 (lit 0)","lt (lit 1) r2","C95/C97: centre accepted, division by zero")
m(f,"polarStep","lt (lit 1) r2 || eqv r2 (lit 0)","eqv r2 (lit 0)","C97: whole square accepted, not normal")
m(f,"polarStep","let y := lit 2 * v - lit 1","let y := v","C97: half disc")
m(f,"standardNormal","some (y * mult, some (x * mult), e)","some (y * mult, some (y * mult), e)","C97: saved number repeats the delivered one")
m(f,"standardNormal","some (z, none, e)","some (z, some z, e)","C97: saved number not cleared")
m(f,"standardNormal","lit (-2) * log r2 / r2","lit (-1) * log r2 / r2","C97: variance 1/2")
m(f,"gammaMalpha","alpha + lit 1 else","alpha + lit 2 else","C97: boost of the wrong shape")
m(f,"gammaA1","lit 1 / lit 3","lit 1 / lit 4","C97: Marsaglia-Tsang constant")
m(f,"gammaA2","lit 9 *","lit 8 *","C97: Marsaglia-Tsang constant")
m(f,"gammaInnerStep","if lt (lit 0) v then","if lt (lit 0) n then","C97: positive normal numbers only")
m(f,"gammaOuterStep","lit 0.0331","lit 0.331","C97: squeeze constant (a smaller squeeze region changes nothing)")
m(f,"gammaOuterStep","lit 0.0331","lit 0.02","C97: squeeze accepts values outside the region")
m(f,"gammaOuterStep","lit 1 - v + log v","v - lit 1 - log v","C97: sign of the acceptance test")
m(f,"gammaOuterStep","let v := v * v * v\n","let v := v * v\n","C97: square instead of cube")
m(f,"gammaDraw","pow u (lit 1 / alpha) * gammaA1","pow u alpha * gammaA1","C97: exponent of the boost")
m(f,"gammaDraw","some (gammaA1 alpha * v * beta, saved, e)","some (gammaA1 alpha * v / beta, saved, e)","C97/C98: rate for scale")
m(f,"segAreas","lit 0.5 * (d1 + d0)","(d1 + d0)","C97: areas doubled (normalised away)")
m(f,"segSlopes","(d1 - d0)","(d0 - d1)","C97: sign of the slope")
m(f,"pwlValue","fun c => !lt c p","fun c => lt c p","C97: wrong segment")
m(f,"pwlValue","cp.getD (i-1) (lit 0) else","cp.getD i (lit 0) else","C97: wrong partial sum")
m(f,"pwlValue","lit 4 * a * cm","lit 2 * a * cm","C97: wrong root")
m(f,"pwlValue","x + cm / b","x + cm * b","C97: flat segment")
m(f,"lemireStep","(18446744073709551616 - range) % range","0","C97/C99: no rejection, biased integers")
m(f,"lemireStep","product / 18446744073709551616","product % range","C97: low bits instead of high bits")
m(f,"uniformDraw","lemireStep F (k+1)","lemireStep F k","C97: largest index never drawn")
m(f,"shufflePairs","(i+1) * (i+2) - 1","(i+1) * (i+1) - 1","C99: range of the pair")
m(f,"shufflePairs","(x / (i+2))","(x / (i+1))","C99: first index of the pair")
m(f,"shufflePairs","swapIfInBounds (i+1) (x % (i+2))","swapIfInBounds (i+1) (x % (i+1))","C99: position i+1 never stays")
m(f,"shufflePairs","shufflePairs F n (i+2)","shufflePairs F n (i+3)","C99: a position is skipped")
m(f,"shuffleSingles","uniformDraw F i e","uniformDraw F (i-1) e","C99: Sattolo instead of Fisher-Yates")
m(f,"shuffleDraw","match uniformDraw F 1 e with","match uniformDraw F 0 e with","C99: even lengths: the first two never exchanged")
m(f,"shuffleDraw","shufflePairs F a.size 1 a e","shufflePairs F a.size 2 a e","C99: odd lengths: start one too late")
m(f,"libNormal","z * s + m","z + m","C97: standard deviation ignored")
m(f,"libNormal","⟨saved, d.fluctuation⟩","⟨d.position, saved⟩","C97: saved number stored in the other object")
m(f,"libGamma","⟨d.position, saved⟩","⟨saved, d.fluctuation⟩","C97: saved number stored in the other object")
f="Nucleon.lean"
m(f,"calcSamplingWidth","lit 1 - lit 1 / ofInt m","lit 1 + lit 1 / ofInt m","C98: nucleon width")
m(f,"NucleonCommon.make","gammaBeta := lit 1 / k","gammaBeta := k","C98: unit mean")
f="CrossSection.lean"
m(f,"CyclicNormal.make","Rng.shuffle D (CyclicNormal.quantiles mean sd size) w.eng","(CyclicNormal.quantiles mean sd size, w.eng)","C99: no first shuffle")
# ---- Boost's root finder (C103)
f="Toms748.lean"
m(f,"updateBracket","if opposite q.fa fc then","if sameSign q.fa fc then","C103: the bracket keeps the wrong side")
m(f,"updateBracket","{ q with d := q.a, fd := q.fa, a := c, fa := fc }","{ q with d := q.a, fd := q.fa, a := c }","C103: value at the new end not stored")
m(f,"adjustPoint","then a + fabs a * tol\n","then a - fabs a * tol\n","C103: new point outside the bracket")
m(f,"tomsChoose","lit 0.5 * (b0 - a0)","lit 2 * (b0 - a0)","C103: no bisection step, no guaranteed convergence")
m(f,"tomsChoose","q.a + (q.b - q.a) / lit 2, .top)","q.a + (q.b - q.a) * lit 2, .top)","C103: bisection leaves the bracket")
m(f,"tolMet","fmin (fabs a) (fabs b)","fmax (fabs a) (fabs b)","C103: tolerance relative to the larger end")
m(f,"tolMet","tle (fabs (a - b))","tle (a - b)","C103: tolerance met at once")
m(f,"tolEps","2 / 2^bits","1 / 2^bits","C103: one bit too many")
m(f,"tomsResult","if tzero q.fa then (q.a, q.a)","if tzero q.fa then (q.a, q.b)","C103: exact root not reported")
m(f,"tomsSolve","else if sameSign fa fb then (.error (.throw .domainError \"Parameters a and b do not bracket the root\"), s)\n","","C103: missing sign change accepted")
m(f,"tomsSolve","if tzero fa then (a, a) else if tzero fb then (b, b) else (a, b)","if tzero fa then (a, a) else if tzero fb then (a, a) else (a, b)","C103: wrong end reported as root")
m(f,"boostSolve","tomsSolve f bits a b fa fb (maxIter - 2) s","tomsSolve f bits a b fb fa (maxIter - 2) s","C103: values at the ends exchanged")
m(f,"boostSolve","tomsSolve f bits a b fa fb (maxIter - 2) s","tomsSolve f bits a b fa fb maxIter s","C103: two evaluations not counted")
# ---- weights, participants, exchange (C100-C105)
f="Nucleon.lean"
m(f,"overlapSum","acc + exp","acc + qA.fluctuation * exp","C105: weights bias the collisions")
m(f,"drawConstituents","((⟨xloc, yloc, fl⟩ :: cs","((⟨xloc * fl, yloc, fl⟩ :: cs","C105: positions depend on the weights")
m(f,"drawConstituents","((⟨xloc, yloc, fl⟩ :: cs","((⟨xloc, xloc, fl⟩ :: cs","C100: no rotation invariance")
m(f,"drawConstituents","drawConstituents nc k (xcom + xloc) (ycom + yloc) w","drawConstituents nc k (xcom + fl * xloc) (ycom + fl * yloc) w","C105: weighted centre of mass")
m(f,"NucleonCommon.thicknessLoop","(t + c.fluctuation * ex)","(t + c.fluctuation * c.fluctuation * ex)","C105: thickness not linear in the weights")
m(f,"NucleonCommon.participate","((true, A.setParticipant, B.setParticipant), w)","((true, A.setParticipant, B), w)","C104/C101: only the projectile is wounded")
m(f,"NucleonCommon.participate","A.isParticipant && B.isParticipant && !nc.calcNcoll","A.isParticipant && !nc.calcNcoll","C104: a wounded nucleon shields the others")
m(f,"NucleonCommon.sampleConstituents","if n.constituentsExist then (n, w)","if n.isParticipant then (n, w)","C104/C105: constituents drawn again for every pair")
f="Collider.lean"
m(f,"pairRow","ncoll + 1","ncoll + 2","C102: binary collisions counted twice")
m(f,"collisionLoop","((c.asymmetry - lit 1) * b)","((lit 1 - c.asymmetry) * b)","C100/C101: target on the same side")
# ---- command line, config files, integers (C107-C109)
f="CmdLine.lean"
m(f,"optLetters","(\"output\", 'o')","(\"output\", 'f')","C107: wrong letter")
m(f,"optLetters","(\"constit-width\", 'v'),","","C107: letter missing")
m(f,"takesArg","| .switch => false","| .switch => true","C107: flags take a value")
m(f,"positionalNames","[\"projectile\", \"projectile\", \"number-events\"]","[\"number-events\", \"projectile\", \"projectile\"]","C107: order of the arguments")
m(f,"positionalNames","[\"projectile\", \"projectile\", \"number-events\"]","[\"projectile\", \"projectile\"]","C107: number of events not positional")
m(f,"findOpt","| [o] => .ok (some o)\n    | _ => .error (.throw .poError \"option is ambiguous\")","| o :: _ => .ok (some o)","C107: ambiguous beginnings accepted")
m(f,"CliOpt.startsWith","name.isPrefixOf o.long.toList","false","C107: no abbreviations")
m(f,"parseLong","if adjacent = [] then .error (.throw .poError \"the argument for option should follow immediately after the equal sign\")\n      else ","","C107: empty value accepted")
m(f,"parseLong",".drop 1",".drop 0","C107: value begins with the equal sign")
m(f,"shortGroup","if isSwitch opts c then","if !isSwitch opts c then","C107: letter groups split at the wrong place")
m(f,"parseShort","if c = '-' then none else some","some","C107: the terminator read as a letter")
m(f,"styleParse","rest.map fun t => ⟨[], [t]⟩, []","[], rest","C107: -- does not end the options")
m(f,"grabValues","| .ok (some _) => .error (.throw .poError \"the required argument for option is missing\")","| .ok (some _) => grabValues opts n (vals ++ [t]) others","C107: an option taken as value")
m(f,"grabValues","| .ok false => grabValues opts n (vals ++ [t]) others","| .ok false => grabValues opts n vals others","C107: value dropped")
m(f,"finishOption","else if r.vals ≠ [] ∧ tokens = 0 then .error (.throw .poError \"option does not take any arguments\")\n","","C107: --quiet=1 accepted")
m(f,"finishOption","⟨d.long.toList, vals⟩","⟨r.key, vals⟩","C107: abbreviations not expanded")
m(f,"finishOption","| .ok none => .error (.throw .poError \"unrecognised option\")","| .ok none => .ok (r, others)","C107: unknown options accepted")
m(f,"finishAll","finishOption opts r []","finishOption opts r others","C107: an earlier letter of a group takes the next word")
m(f,"cliLoop",".ok (⟨[], [tok]⟩ :: rs)",".ok (rs ++ [⟨[], [tok]⟩])","C107: arguments in the reverse order")
m(f,"namePositional","| [] => .error (.throw .poError \"too many positional options have been specified on the command line\")","| [] => namePositional [] rs","C107: further arguments ignored")
m(f,"isTrim"," || c == '\\t'","","C108: tabs kept")
m(f,"trimWs","((s.dropWhile isTrim).reverse.dropWhile isTrim).reverse","s.dropWhile isTrim","C108: blanks at the end kept")
m(f,"cfgLoop","trimWs (line.takeWhile (· ≠ '#'))","trimWs line","C108: comments not stripped")
m(f,"cfgLoop","else .error (.throw .poError \"the options configuration file contains an invalid line\")","else cfgLoop pre rest","C108: broken lines ignored")
m(f,"cfgLoop","((s.dropWhile (· ≠ '=')).drop 1)","(s.dropWhile (· ≠ '='))","C108: value begins with the equal sign")
m(f,"cfgLines","if c = '\\n' then [] :: cfgLines cs","if c = ';' then [] :: cfgLines cs","C108: line ends")
m(f,"lexNat","s ≠ [] ∧ ","","C109: the empty text is 0")
m(f,"lexNat","10 * n","16 * n","C109: base")
m(f,"lexInt","if n ≤ lim then some (-(n : Int))","if n < lim then some (-(n : Int))","C109: smallest number rejected")
m(f,"lexInt","if n < lim then some (n : Int) else none\n  | ds","if n ≤ lim then some (n : Int) else none\n  | ds","C109: +2^31 accepted")
m(f,"lexInt","| '+' :: ds => (lexNat ds).bind fun n => if n < lim then some (n : Int) else none\n","","C109: plus sign rejected")
m(f,"boostLib","toInt64 := lexInt (2^63)","toInt64 := lexInt (2^31)","C109: 64 bit seeds rejected")
f="NumberText.lean"
m(f,"matchWord","if c = l ∨ c = u then","if c = l then","C110: upper case words refused")
m(f,"lexSpecial","if t.getLast? = some ')' then some .nan else none","some .nan","C110: nan( accepted")
m(f,"lexSpecial","some (.inf neg)","some (.inf false)","C110: sign of infinity lost")
m(f,"lexSpecial"," ∨ matchWord infinityWord s = some []","","C110: infinity refused")
m(f,"lexSpecial","| some _ => none","| some _ => some .nan","C110: words beginning with nan accepted")
m(f,"lexNumber","| (some q, []) =>","| (some q, _) =>","C110: trailing characters ignored")
m(f,"lexNumber","if overflowBound ≤ |q| then none\n      else ","","C110: overflow accepted")
m(f,"overflowBound","2 ^ 1024 - 2 ^ 970","2 ^ 1024","C110: overflow bound")
m(f,"lexNumber","some 'e', some 'E', ","some '0', some 'e', some 'E', ","C110: numbers that end in 0 refused")
f="Text.lean"
m(f,"scanExp","c = 'e' ∨ c = 'E'","c = 'e'","C110: capital E refused")
m(f,"scanFloat","10 ^ frac.length","10 ^ (frac.length + 1)","C110: decimal places")
m(f,"scanFloat","if eneg then mant / 10 ^ digitsVal ds else mant * 10 ^ digitsVal ds","mant * 10 ^ digitsVal ds","C110: sign of the exponent lost")
f="Collider.lean"
m(f,"determineBmax","if lt bmaxOpt (lit 0) then A.radius + B.radius + nc.maxImpact else bmaxOpt","if lt (lit 0) bmaxOpt then bmaxOpt else A.radius + B.radius + nc.maxImpact","C110: nan read as the default range")
f="Program.lean"
m(f,"checkWidths","else if lt w v then","else if !lt v w && !(!lt w v) then","C110/C57: width order (equivalent for numbers)")
m(f,"checkWidths","if lt w (lit 0) || lt v (lit 0)","if !lt (lit 0) w || lt v (lit 0)","C110/C57: zero or nan nucleon width refused")
# definitions not covered by the mutants above
f="NumberText.lean"
m(f,"nanWord","('a','A')","('a','a')","C110: NAN refused")
m(f,"infinityWord",", ('y','Y')]","]","C110: infinity misspelt")
m(f,"ieeeSpecial","if neg then .ninf else .pinf","if neg then .pinf else .ninf","C110: sign of infinity swapped")
m(f,"numberLib",".finite q => some (lit q)",".finite q => some (lit (-q))","C110: value negated")
f="RealFmt.lean"
m(f,"roundEven","⌊x⌋ % 2 = 0","⌊x⌋ % 2 = 1","C46: ties rounded to odd")
m(f,"roundEven","1/2 < Int.fract x then ⌊x⌋ + 1","1/2 < Int.fract x then ⌊x⌋","C46: truncated instead of rounded")
m(f,"fracDigits","'.' :: digitsW p n","',' :: digitsW p n","C46: decimal comma")
m(f,"signChars","if x < 0 then ['-'] else []","[]","C46: sign lost")
m(f,"fmtFixed","/ 10 ^ p)","/ 10 ^ (p+1))","C46: integer part of fixed numbers")
m(f,"sciParts","(10 ^ p, e + 1)","(10 ^ p, e)","C46: carry into the next decade lost")
m(f,"expChars","if e < 0 then '-' else '+'","if e < 0 then '+' else '-'","C46: sign of the exponent")
m(f,"expChars","'0' :: natDigits e.natAbs","natDigits e.natAbs","C46: one digit exponents")
m(f,"fmtSci","expChars (sciParts p x).2","expChars ((sciParts p x).2 + 1)","C46: exponent off by one")
m(f,"stripZeros","if n % 10 = 0 then stripZeros p (n / 10)","if n % 10 = 0 then stripZeros p n","C46: stripping keeps the digits")
m(f,"fmtGeneral","-4 ≤ X ∧ X < (p : ℤ) + 1","-4 ≤ X ∧ X < (p : ℤ)","C46: general style switches one decade early")
m(f,"fmtGeneral","((p : ℤ) - X).toNat","((p : ℤ) - X).toNat + 1","C46: one digit too many")
f="CmdLine.lean"
m(f,"cliOpts","takesArg d.type","!takesArg d.type","C107: switches take values")
m(f,"CliOpt.isNamed","['-', c] == name","[c] == name","C107: letters without dash")
m(f,"findExact","opts.find? (·.isNamed name)","opts.find? (·.startsWith name)","C107: abbreviations count as exact")
m(f,"isSwitch","some d => !d.arg","some d => d.arg","C107: letters with values grouped")
m(f,"looksLikeOption",".ok (parseShort opts tok).isSome",".ok false","C107: short options taken as values")
m(f,"cliParse","namePositional positionalNames rs","namePositional [\"number-events\", \"projectile\", \"projectile\"] rs","C107: positional order")
f="Species.lean"
m(f,"pathFilename","(· != '/')","(· != '.')","C20: file name of a path")
m(f,"h5Configs","h5Position value i j","h5Position value j i","C20: configurations transposed")
m(f,"h5Configs","List.range nconfigs","List.range (nconfigs - 1)","C20: last configuration lost")
f="Program.lean"
m(f,"singleToken","| [s] => .ok s","| s :: _ => .ok s","C57: several values accepted")
m(f,"mapRes",".ok bs => .ok (b :: bs)",".ok bs => .ok bs","C57: values dropped")
m(f,"allOpts","++ gridOpts ++ mainOpts","++ mainOpts","C107: grid options unknown")
m(f,"vectorVals","| .paths => mapRes (fun s => orInvalid (L.toPath s)) toks","| .paths => .ok toks","C57: paths unchecked")
f="CrossSection.lean"
m(f,"mcReference","if n = 0 then none","if n = 1 then none","C75: reference of the first pass")
m(f,"mcWithin","lt (fabs (cs - ref)) tol","lt (cs - ref) tol","C75: one-sided convergence")
m(f,"scanF","some (lit q)","some (lit (-q))","C62: cache values negated")
f="LibRandom.lean"
m(f,"goodTable","lt b0 b1 && ","","C95/C98: unordered tables")
m(f,"pwlDraw","eqv b0 (lit 0) && eqv b1 (lit 1) && eqv d0 d1","eqv d0 d1","C95/C98: special case for any flat table")
m(f,"runningSums","(acc + a) :: runningSums (acc + a) t","(acc + a) :: runningSums acc t","C95/C98: areas not accumulated")
m(f,"nonzeroStep","if eqv u (lit 0)","if !eqv u (lit 0)","C97: the small-alpha boost uses zero")
m(f,"mtSeedWord","mtSeedStep (i+1)","mtSeedStep i","C95: seeding")
f="Event.lean"
m(f,"cells","fun ix => (iy, ix)","fun ix => (ix, iy)","C28/C46: cells scanned by column (sums are the same)")
m(f,"cells","List.finRange n).flatMap","List.finRange n).tail.flatMap","C28: first row skipped")
m(f,"computeObservables","s.e2.finish, s.e3.finish","s.e3.finish, s.e2.finish","C32: harmonics swapped")
m(f,"computeObservables","ev.ixcm ev.iycm","ev.iycm ev.ixcm","C32: centre transposed")
f="Nucleus.lean"
m(f,"sortBy","insertBy key a (sortBy key as)","a :: sortBy key as","C15: radii not sorted")
f="Nucleon.lean"
m(f,"NucleonCommon.maxImpact","sqrt nc.maxImpactSq","nc.maxImpactSq","C45: range of the default b-max")
f="Arith.lean"
m(f,"castInt","k ≤ 2147483647","k < 2147483647","C37: largest int refused")
m(f,"castSize","0 ≤ k ∧ ","","C01: negative index")
f="Random.lean"
m(f,"drawNormal","(x, ⟨e, d⟩)","(x, ⟨w.eng, d⟩)","C48/C95: engine not advanced by a normal draw")
m(f,"drawGamma","(x, ⟨e, d⟩)","(x, ⟨w.eng, d⟩)","C48/C95: engine not advanced by a gamma draw")
m(f,"canonical","{ w with eng := e }","w","C48/C95: engine not advanced by a uniform draw")
m(f,"drawPiecewiseLinear","(x, ⟨e, d⟩)","(x, ⟨w.eng, d⟩)","C48/C95: engine not advanced by a radius draw")
m(f,"drawIndex","(i, ⟨e, d⟩)","(i, w)","C48/C95: engine not advanced by an index draw")
