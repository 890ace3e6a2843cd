import Verif.Model.Text
import Verif.Model.Collider
import Verif.Model.Species

/-!
# Output (src/output.h, src/output.cxx) and the event loop with output (src/collider.cxx:82-98)
-/

namespace Trento

/-! ## The file system

Files live at absolute paths (lists of components).  Not modelled: links, special files, `..`, concurrent changes by other
processes during one call, and a disk that runs full. -/

/-- An absolute path. -/
abbrev Path := List String

/-- The value of a scalar HDF5 attribute written by trento. -/
inductive H5Attr (F : Type) where
  | int (k : Int)
  | dbl (x : F)

/-- A dataset written by trento: name, extent, values in row-major order, attributes in order of creation. -/
structure H5Dataset (F : Type) where
  name : List Char
  shape : List Nat
  data : List F
  attrs : List (List Char × H5Attr F)

/-- File contents: characters, or an HDF5 file with its datasets. -/
inductive Content (F : Type) where
  | text (s : List Char)
  | h5 (ds : List (H5Dataset F))

/-- What a path refers to. -/
inductive Node (F : Type) where
  | dir
  | file (c : Content F)

/-- The file system: what each path refers to. -/
abbrev FS (F : Type) := Path → Option (Node F)

/-- What the operating system decides: how path strings are resolved, and where creating a directory or opening a file for
writing is permitted. -/
structure OsEnv where
  resolve : String → Path
  mkdirOk : Path → Bool
  openOk : Path → Bool

namespace FS
variable {F : Type}

/-- Replace one entry. -/
def set (fs : FS F) (p : Path) (n : Node F) : FS F := fun q => if q = p then some n else fs q

/-- `fs::exists`. -/
def «exists» (fs : FS F) (p : Path) : Bool := (fs p).isSome

open scoped Classical in
/-- `fs::is_empty`: a directory without entries or a file of size 0 (an HDF5 file is never of size 0).  Only called on
existing paths. -/
noncomputable def isEmpty (fs : FS F) (p : Path) : Bool :=
  match fs p with
  | some .dir => decide (∀ name, fs (p ++ [name]) = none)
  | some (.file (.text s)) => s.isEmpty
  | some (.file (.h5 _)) => false
  | none => false

/-- Whether a new entry can be created inside `p`. -/
def isDir (fs : FS F) (p : Path) : Bool :=
  match fs p with
  | some .dir => true
  | _ => false

/-- `fs::create_directories(done / rest)` where `done` exists: create the missing components one after the other; fails with
`filesystem_error` (leaving what was created) if a component is a file or creation is not permitted. -/
def createDirs (env : OsEnv) : Path → List String → FS F → Res Unit × FS F
  | _, [], fs => (.ok (), fs)
  | done, c :: rest, fs =>
    let p := done ++ [c]
    match fs p with
    | some .dir => createDirs env p rest fs
    | some (.file _) => (.error (.throw .filesystemError "create_directories"), fs)
    | none =>
      if fs.isDir done && env.mkdirOk p then createDirs env p rest (fs.set p .dir)
      else (.error (.throw .filesystemError "create_directories"), fs)

/-- Whether `p` can be opened for writing. -/
def canOpen (env : OsEnv) (fs : FS F) (p : Path) : Bool :=
  env.openOk p && fs.isDir p.dropLast && !fs.isDir p && !p.isEmpty

end FS

/-- The observable world: standard output and the file system. -/
structure World (F : Type) where
  cout : OStream
  fs : FS F

/-! ## Writers -/

section
variable {F : Type} [Arith F] [NumFmt F]

/-- The eccentricities in the iteration order of `std::map<int, double>` (src/event.h:131): by ascending key.  (The map is
filled with keys 2, …, 5 by src/event.cxx:245-248 and never loses keys.) -/
def eccList (e : Ecc F) : List (Int × F) := [(2, e.e2), (3, e.e3), (4, e.e4), (5, e.e5)]

/-- `write_stream` (src/output.cxx:25-48). -/
def writeStream (width : Nat) (num : Int) (b : F) (ncoll : Int) {n : Nat} (ev : Event F n) (os : OStream) : OStream :=
  let os := ((os.setprecision 10).setw width).int num
  let os := ((os.setw 15).fixed).dbl b
  let os := (os.setw 5).int ev.npart
  let os := if 0 < ncoll then (os.setw 6).int ncoll else os
  let os := (((os.setw 18).scientific).dbl ev.multiplicity).fixed
  let os := (eccList ev.ecc).foldl (fun os e => (os.setw 14).dbl e.2) os
  os.put ['\n']

/-- The row loop of `write_text_file` (src/output.cxx:78-87): `i` is the position of the iterator, the list holds the elements
from there to the end of the row of length `n`.  Dereferencing past the end is undefined. -/
def gridRowLoop (n : Nat) : Nat → List F → OStream → Res OStream
  | _, [], _ => .error (.ub "read past the end of a grid row")
  | i, x :: xs, os =>
    let os := (os.dbl x).put [' ']
    if (i : Int) + 1 = (n : Int) - 1 then
      match xs with
      | [] => .error (.ub "read past the end of a grid row")
      | y :: _ => .ok ((os.dbl y).put ['\n'])
    else gridRowLoop n (i+1) xs os

/-- All rows. -/
def gridRows (n : Nat) : List (List F) → OStream → Res OStream
  | [], os => .ok os
  | row :: rows, os =>
    match gridRowLoop n 0 row os with
    | .error e => .error e
    | .ok os => gridRows n rows os

/-- The rows of a grid (iterating over a `boost::multi_array`: first index = row). -/
def gridLists {n : Nat} (g : Grid F n) : List (List F) := List.ofFn fun iy => List.ofFn fun ix => g iy ix

/-- The header of `write_text_file` (src/output.cxx:58-73). -/
def writeHeader (num : Int) (b : F) (ncoll : Int) {n : Nat} (ev : Event F n) (os : OStream) : OStream :=
  let os := os.setprecision 10
  let os := ((os.str "# event ").int num).put ['\n']
  let os := ((os.str "# b     = ").dbl b).put ['\n']
  let os := ((os.str "# npart = ").int ev.npart).put ['\n']
  let os := if 0 < ncoll then ((os.str "# ncoll = ").int ncoll).put ['\n'] else os
  let os := ((os.str "# mult  = ").dbl ev.multiplicity).put ['\n']
  (eccList ev.ecc).foldl (fun os e => ((((os.str "# e").int e.1).str "    = ").dbl e.2).put ['\n']) os

/-- The text `write_text_file` sends to the file stream (src/output.cxx:58-87). -/
def textFileBody (num : Int) (b : F) (ncoll : Int) {n : Nat} (ev : Event F n) (header : Bool) (os : OStream) : Res OStream :=
  let os := if header then writeHeader num b ncoll ev os else os
  gridRows n (gridLists ev.TR) os

/-- The padded file name (src/output.cxx:54-55). -/
def textFileName (width : Nat) (num : Int) : List Char :=
  (((({} : OStream).setw width).setfill '0').int num |>.str ".dat").out

/-- `write_text_file` (src/output.cxx:50-88): opening truncates the file; if it cannot be opened, the output is dropped
silently.  The content appears when the stream is closed. -/
def writeTextFile (env : OsEnv) (dir : Path) (width : Nat) (num : Int) (b : F) (ncoll : Int) {n : Nat} (ev : Event F n)
    (header : Bool) (fs : FS F) : Res Unit × FS F :=
  let p := dir ++ [String.ofList (textFileName width num)]
  if fs.canOpen env p then
    match textFileBody num b ncoll ev header {} with
    | .error e => (.error e, fs.set p (.file (.text [])))
    | .ok os => (.ok (), fs.set p (.file (.text os.out)))
  else
    match textFileBody num b ncoll ev header { good := false } with
    | .error e => (.error e, fs)
    | .ok _ => (.ok (), fs)

/-- The dataset written for an event (src/output.cxx:120-160). -/
def h5Event (num : Int) (b : F) (ncoll : Int) {n : Nat} (ev : Event F n) : H5Dataset F :=
  { name := "event_".toList ++ intDigits num
    shape := [n, n]
    data := (gridLists ev.TR).flatten
    attrs := [("b".toList, .dbl b), ("npart".toList, .int ev.npart)] ++
      (if 0 < ncoll then [("ncoll".toList, .int ncoll)] else []) ++
      [("mult".toList, .dbl ev.multiplicity)] ++
      (eccList ev.ecc).map fun e => ("e".toList ++ intDigits e.1, .dbl e.2) }

/-- `HDF5Writer::operator()` (src/output.cxx:120-160) on the open file `p`.  The HDF5 library refuses a zero chunk size and
an existing name. -/
def h5Write (p : Path) (d : H5Dataset F) (fs : FS F) : Res Unit × FS F :=
  match fs p with
  | some (.file (.h5 ds)) =>
    if 0 ∈ d.shape then (.error (.throw .h5Exception "setChunk"), fs)
    else if d.name ∈ ds.map (·.name) then (.error (.throw .h5Exception "createDataSet"), fs)
    else (.ok (), fs.set p (.file (.h5 (ds ++ [d]))))
  | _ => (.error (.throw .h5Exception "createDataSet"), fs)

/-- The writers an `Output` holds (src/output.h:38, src/output.cxx:174-216). -/
inductive Writer where
  | stdout (width : Nat)
  | text (dir : Path) (width : Nat) (header : Bool)
  | hdf5 (file : Path)
  deriving DecidableEq

/-- Calling one writer (src/output.cxx:175-179, 208-214, 121-160). -/
def Writer.run (env : OsEnv) (wr : Writer) {n : Nat} (r : EventRecord F n) (W : World F) : Res Unit × World F :=
  match wr with
  | .stdout width => (.ok (), { W with cout := writeStream width r.num r.b r.ncoll r.event W.cout })
  | .text dir width header =>
    let (res, fs) := writeTextFile env dir width r.num r.b r.ncoll r.event header W.fs
    (res, { W with fs := fs })
  | .hdf5 file =>
    let (res, fs) := h5Write file (h5Event r.num r.b r.ncoll r.event) W.fs
    (res, { W with fs := fs })

/-- `Output::operator()` (src/output.h:41-45): every writer in order; an exception skips the remaining ones. -/
def outputEvent (env : OsEnv) {n : Nat} (r : EventRecord F n) : List Writer → World F → Res Unit × World F
  | [], W => (.ok (), W)
  | wr :: wrs, W =>
    match wr.run env r W with
    | (.error e, W) => (.error e, W)
    | (.ok (), W) => outputEvent env r wrs W

/-- The output options (src/trento.cxx:96-105, 77). -/
structure OutOptions where
  quiet : Bool
  output : Option String
  noHeader : Bool

/-- `Output::Output` (src/output.cxx:166-217); `hdf5` is whether TRENTO_HDF5 is defined. -/
noncomputable def outputMake (env : OsEnv) (hdf5 : Bool) (nevents : Int) (o : OutOptions) (W : World F) : Res (List Writer) × World F :=
  match castInt (ceil (log10 (ofInt nevents : F))) with
  | .error e => (.error e, W)
  | .ok width =>
    let width := width.toNat
    let std := if o.quiet then [] else [Writer.stdout width]
    match o.output with
    | none => (.ok std, W)
    | some path =>
      let p := env.resolve path
      if filenameIsHdf5 path then
        if !hdf5 then (.error (.throw .runtimeError "HDF5 output was not compiled"), W)
        else if W.fs.exists p && !W.fs.isEmpty p then
          (.error (.throw .runtimeError s!"file '{path}' exists, will not overwrite"), W)
        else if W.fs.canOpen env p then
          (.ok (std ++ [.hdf5 p]), { W with fs := W.fs.set p (.file (.h5 [])) })
        else (.error (.throw .h5Exception "H5File"), W)
      else
        if W.fs.exists p then
          if !W.fs.isEmpty p then
            (.error (.throw .runtimeError s!"output directory '{path}' must be empty"), W)
          else (.ok (std ++ [.text p width (!o.noHeader)]), W)
        else
          match FS.createDirs env [] p W.fs with
          | (.error e, fs) => (.error e, { W with fs := fs })
          | (.ok (), fs) => (.ok (std ++ [.text p width (!o.noHeader)]), { W with fs := fs })

/-! ## The event loop with output -/

variable {E D : Type} [Rng F E D]

/-- The event loop of `Collider::run_events` with the output calls (src/collider.cxx:84-97). -/
def runLoopOut (rfuel fuel : Nat) (c : Collider F) (ec : EventCfg F) (debug : Bool) (env : OsEnv) (wrs : List Writer) {n : Nat} :
    Nat → Nat → RunState F E D n → World F → Res (RunState F E D n) × World F
  | 0, _, s, W => (.ok s, W)
  | k+1, num, s, W =>
    match c.sampleCollision rfuel fuel s.A s.B s.rand with
    | .error e => (.error e, W)
    | .ok ((b, ncoll, A, B), w) =>
      match s.event.compute ec c.nc debug A.nucleons B.nucleons with
      | .error e => (.error e, W)
      | .ok ev =>
        match outputEvent env ⟨num, b, ncoll, ev⟩ wrs W with
        | (.error e, W) => (.error e, W)
        | (.ok (), W) => runLoopOut rfuel fuel c ec debug env wrs k (num+1) ⟨A, B, ev, w⟩ W

end
end Trento
