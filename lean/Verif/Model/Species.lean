import Verif.Model.Nucleus

/-!
# Creating nuclei: the species table and manual nuclei from HDF5 files
(src/nucleus.cxx:28-85, 382-482; src/hdf5_utils.cxx)
-/

namespace Trento
variable {F : Type} [Arith F]

/-! ## File names -/

/-- `boost::filesystem::path::filename` as far as `extension` needs it: the characters after the last `/`
(Boost library code, modelled; a path ending in `/` has the file name `.` in Boost, which has no extension, like the
empty list here). -/
def pathFilename (s : List Char) : List Char := (s.reverse.takeWhile (· != '/')).reverse

/-- `boost::filesystem::path::extension` (Boost.Filesystem v3 semantics, the default): from the last dot of the file
name to its end; empty for `.`, `..` and names without a dot. -/
def pathExtension (s : List Char) : List Char :=
  let name := pathFilename s
  if name = ['.'] ∨ name = ['.', '.'] then []
  else if '.' ∈ name then '.' :: (name.reverse.takeWhile (· != '.')).reverse
  else []

/-- `hdf5::filename_is_hdf5` (src/hdf5_utils.cxx:18-30). -/
def filenameIsHdf5 (s : String) : Bool :=
  if (pathExtension s.toList).isEmpty then false
  else [".hdf5", ".hdf", ".hd5", ".h5"].any fun e => decide (e.toList = pathExtension s.toList)

/-! ## Manual nuclei -/

/-- An object in the root group of an HDF5 file, as far as trento looks at it: a dataset with its extent, and its values
indexed by (configuration, nucleon, column), or something else (a group, a named datatype …). -/
inductive H5Obj (F : Type) where
  | dataset (dims : List Nat) (value : Nat → Nat → Nat → F)
  | other

/-- The view of a path on disk: absent, present but not HDF5, or an HDF5 file with the objects of its root group. -/
inductive H5View (F : Type) where
  | missing
  | notHdf5
  | file (objs : List (String × H5Obj F))

/-- Position `(x, y, z)` of nucleon `j` in configuration `i`. -/
def h5Position (value : Nat → Nat → Nat → F) (i j : Nat) : F × F × F := (value i j 0, value i j 1, value i j 2)

/-- The configurations of a dataset of shape `(nconfigs, A, 3)`. -/
def h5Configs (value : Nat → Nat → Nat → F) (nconfigs A : Nat) : List (List (F × F × F)) :=
  (List.range nconfigs).map fun i => (List.range A).map fun j => h5Position value i j

/-- The maximum search over squared radii (src/nucleus.cxx:458-467).  Simplification: the squares are computed in
`F` instead of `float`. -/
def maxRadiusSq : List (F × F × F) → F → F
  | [], m => m
  | (x, y, z) :: ps, m =>
    let rSq := x*x + y*y + z*z
    maxRadiusSq ps (if lt m rSq then rSq else m)

/-- `ManualNucleus::create` with `hdf5::try_open_file` (src/nucleus.cxx:406-474, src/hdf5_utils.cxx:34-42) and the
constructor (src/nucleus.cxx:476-482).  `getSimpleExtentDims(shape.data())` (line 433) writes one entry per dimension into
an array of three, before the number of dimensions is checked.  `500/A` (line 452) is an integer division.
HDF5 library errors other than those are not modelled. -/
def manualCreate (path : String) (view : H5View F) : Res (Nucleus F) :=
  match view with
  | .missing => .error (.throw .invalidArgument ("file '" ++ path ++ "' does not exist"))
  | .notHdf5 => .error (.throw .invalidArgument ("'" ++ path ++ "' is not a valid HDF5 file"))
  | .file objs =>
    match objs with
    | [(_, .other)] => .error (.throw .invalidArgument "object is not a dataset")
    | [(_, .dataset dims value)] =>
      if dims.length > 3 then .error (.ub "shape array overflow")
      else if dims.length ≠ 3 then .error (.throw .invalidArgument "wrong number of dimensions (need 3)")
      else if dims.getD 2 0 ≠ 3 then .error (.throw .invalidArgument "wrong number of columns (need 3)")
      else
        let nconfigs := dims.getD 0 0
        let A := dims.getD 1 0
        if A = 0 then .error (.ub "integer division by zero")
        else
          let n := min (500 / A + 1) nconfigs
          let rmaxSq := maxRadiusSq (h5Configs value n A).flatten (lit 0)
          .ok (Nucleus.ofKind (.manual (h5Configs value nconfigs A) (sqrt rmaxSq)) A)
    | _ => .error (.throw .invalidArgument "file must contain exactly one object")

/-! ## The species table -/

/-- `Nucleus::create` (src/nucleus.cxx:28-85).  `hdf5` tells whether the program was built with HDF5 support
(`TRENTO_HDF5`), `disk` what the path refers to. -/
def createNucleus (hdf5 : Bool) (disk : String → H5View F) (species : String) (dmin : F) : Res (Nucleus F) :=
  if species = "p" then .ok mkProton
  else if species = "d" then .ok (mkDeuteron (lit 0.457) (lit 2.35))
  else if species = "Cu" then .ok (mkWoodsSaxon 63 (lit 4.20) (lit 0.596) dmin)
  else if species = "Cu2" then .ok (mkDeformed 63 (lit 4.20) (lit 0.596) (lit 0.162) (lit (-0.006)) dmin)
  else if species = "Xe" then .ok (mkWoodsSaxon 129 (lit 5.36) (lit 0.590) dmin)
  else if species = "Xe2" then .ok (mkDeformed 129 (lit 5.36) (lit 0.590) (lit 0.162) (lit (-0.003)) dmin)
  else if species = "Au" then .ok (mkWoodsSaxon 197 (lit 6.38) (lit 0.535) dmin)
  else if species = "Au2" then .ok (mkDeformed 197 (lit 6.38) (lit 0.535) (lit (-0.131)) (lit (-0.031)) dmin)
  else if species = "Pb" then .ok (mkWoodsSaxon 208 (lit 6.62) (lit 0.546) dmin)
  else if species = "U" then .ok (mkDeformed 238 (lit 6.81) (lit 0.600) (lit 0.280) (lit 0.093) dmin)
  else if species = "U2" then .ok (mkDeformed 238 (lit 6.86) (lit 0.420) (lit 0.265) (lit 0.000) dmin)
  else if species = "U3" then .ok (mkDeformed 238 (lit 6.67) (lit 0.440) (lit 0.280) (lit 0.093) dmin)
  else if filenameIsHdf5 species then
    if hdf5 then manualCreate species (disk species)
    else .error (.throw .invalidArgument "HDF5 output was not compiled")
  else .error (.throw .invalidArgument ("unknown projectile species: " ++ species))

end Trento
