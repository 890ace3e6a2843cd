import Verif.Model.CrossSection

/-!
# Several trento processes at once

Users run many trento processes in parallel; they share the cross section cache (src/nucleon.cxx:176-244).  Here the operations
of `partonic_cross_section` on the file system are separate steps, and a schedule says which process makes the next step.

Simplifications: looking for the file, opening it and searching it is one step (a snapshot of the file); the record
(src/nucleon.cxx:235-241, at most a few dozen characters in the stream buffer) is appended to the file by one write when the stream is
closed.  A process that is not scheduled any more has been killed between two of its steps. -/

namespace Trento
variable {F E D : Type} [Arith F]

/-- How far a process is in `partonic_cross_section` (src/nucleon.cxx:176-244). -/
inductive CachePc (F : Type) where
  /-- nothing done yet -/
  | start
  /-- the directory exists (src/nucleon.cxx:191-193) -/
  | searching (dir : Path)
  /-- no record was found (src/nucleon.cxx:196-215) -/
  | opening (dir : Path)
  /-- the file is open for appending (src/nucleon.cxx:218-219) -/
  | fitting (dir : Path)
  /-- the fit is done (src/nucleon.cxx:223-226) -/
  | writing (dir : Path) (sp : F)
  /-- the function has returned or thrown -/
  | done (res : Res F)

/-- A process: its parameters, its fit, its random state and how far it is. -/
structure CacheProc (F E D : Type) where
  key : CacheKey F
  fit : Rand E D → Res F × Rand E D
  rand : Rand E D
  pc : CachePc F := .start

/-- One step of `partonic_cross_section` (src/nucleon.cxx:176-244); `fuel` bounds the search loop. -/
def CacheProc.step [NumFmt F] (env : OsEnv) (ce : CacheEnv) (fuel : Nat) (p : CacheProc F E D) (fs : FS F) : CacheProc F E D × FS F :=
  match p.pc with
  | .start =>
    match cacheDir ce with
    | .error e => ({ p with pc := .done (.error e) }, fs)
    | .ok dir =>
      match FS.createDir env dir fs with
      | (.error e, fs) => ({ p with pc := .done (.error e) }, fs)
      | (.ok (), fs) => ({ p with pc := .searching dir }, fs)
  | .searching dir =>
    let path := dir ++ ["cross_section.cache"]
    match (if fs.exists path then searchCache p.key fuel {} (openRead ce fs path) else .ok none) with
    | .error e => ({ p with pc := .done (.error e) }, fs)
    | .ok (some sp) => ({ p with pc := .done (.ok sp) }, fs)
    | .ok none => ({ p with pc := .opening dir }, fs)
  | .opening dir => ({ p with pc := .fitting dir }, openAppend env (dir ++ ["cross_section.cache"]) fs)
  | .fitting dir =>
    match p.fit p.rand with
    | (.error e, r) => ({ p with rand := r, pc := .done (.error e) }, fs)
    | (.ok sp, r) => ({ p with rand := r, pc := .writing dir sp }, fs)
  | .writing dir sp =>
    ({ p with pc := .done (.ok sp) }, appendText env (dir ++ ["cross_section.cache"]) (writeRecord p.key sp {}).out fs)
  | .done _ => (p, fs)

/-- The processes `ι` make steps in the order of the schedule. -/
def cacheSchedule [NumFmt F] (env : OsEnv) (ce : CacheEnv) (fuel : Nat) {ι : Type} [DecidableEq ι] :
    List ι → (ι → CacheProc F E D) → FS F → (ι → CacheProc F E D) × FS F
  | [], ps, fs => (ps, fs)
  | i :: is, ps, fs =>
    let (p, fs) := (ps i).step env ce fuel fs
    cacheSchedule env ce fuel is (fun j => if j = i then p else ps j) fs

/-! ## Output of several processes

Each process constructs its output (one step: the checks, the creation of the directory or file) and then calls its writers, one call
per step; its events do not depend on the file system.  The standard output of each process is its own. -/

/-- How far a process is with its output: before `Output::Output` (src/output.cxx:166-217), with calls of writers
(src/output.h:41-45) left, or ended by an exception. -/
inductive OutPc (F : Type) (n : Nat) where
  | start
  | running (todo : List (EventRecord F n × Writer))
  | failed (e : Err)

/-- A process: its options and events, its standard output and how far it is. -/
structure OutProc (F : Type) (n : Nat) where
  opts : OutOptions
  records : List (EventRecord F n)
  cout : OStream := {}
  pc : OutPc F n := .start

/-- One step of the output of a process: the construction (src/output.cxx:166-217) or one call of a writer (src/output.h:41-45, in the
event loop src/collider.cxx:84-97). -/
noncomputable def OutProc.step [NumFmt F] (env : OsEnv) (hdf5 : Bool) {n : Nat} (p : OutProc F n) (fs : FS F) : OutProc F n × FS F :=
  match p.pc with
  | .start =>
    match outputMake env hdf5 (p.records.length : Int) p.opts ⟨p.cout, fs⟩ with
    | (.error e, W) => ({ p with cout := W.cout, pc := .failed e }, W.fs)
    | (.ok wrs, W) => ({ p with cout := W.cout, pc := .running (p.records.flatMap fun r => wrs.map fun wr => (r, wr)) }, W.fs)
  | .running [] => (p, fs)
  | .running ((r, wr) :: todo) =>
    match wr.run env r ⟨p.cout, fs⟩ with
    | (.error e, W) => ({ p with cout := W.cout, pc := .failed e }, W.fs)
    | (.ok (), W) => ({ p with cout := W.cout, pc := .running todo }, W.fs)
  | .failed _ => (p, fs)

/-- The processes `ι` make steps in the order of the schedule. -/
noncomputable def outSchedule [NumFmt F] (env : OsEnv) (hdf5 : Bool) {n : Nat} {ι : Type} [DecidableEq ι] :
    List ι → (ι → OutProc F n) → FS F → (ι → OutProc F n) × FS F
  | [], ps, fs => (ps, fs)
  | i :: is, ps, fs =>
    let (p, fs) := (ps i).step env hdf5 fs
    outSchedule env hdf5 is (fun j => if j = i then p else ps j) fs

end Trento
