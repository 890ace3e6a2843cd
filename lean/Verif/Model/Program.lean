import Verif.Model.CrossSection

/-!
# The program (src/trento.cxx) and the `Collider` constructor as a whole (src/collider.cxx:61-77)

The command line and config file parsers, number parsing (`boost::lexical_cast`) and the formatting of the option summary are
Boost code and enter as functions without laws (`Lib`).  How parsed options are stored (`po::store`, `po::notify`) is modelled
from Boost.Program_options (variables_map.cpp, value_semantic.hpp).
-/

namespace Trento
variable {F E D : Type}

/-- One parser result: option name and its value tokens (`po::basic_option`: `string_key`, `value`). -/
abbrev ParsedOption := String × List String

/-- Library functions and build constants. -/
structure Lib (F : Type) where
  /-- `po::command_line_parser(argc, argv).options(all_opts).positional(positional_opts).run()` (src/trento.cxx:177-178) -/
  parseArgs : List String → Res (List ParsedOption)
  /-- the tokens of a config file (`po::parse_config_file`, src/trento.cxx:221); the check of the option names is in `readConfig` -/
  parseConfig : List Char → Res (List ParsedOption)
  /-- `boost::lexical_cast<int>` -/
  toInt : String → Option Int
  /-- `boost::lexical_cast<int64_t>` -/
  toInt64 : String → Option Int
  /-- `boost::lexical_cast<double>` -/
  toDouble : String → Option F
  /-- `boost::lexical_cast<fs::path>` -/
  toPath : String → Option String
  /-- `std::cout << usage_opts` (src/trento.cxx:187) -/
  usageOpts : List Char
  /-- `TRENTO_VERSION_STRING` (src/trento.cxx:19-21) -/
  version : String
  /-- whether `TRENTO_HDF5` is defined -/
  hdf5 : Bool
  /-- whether `NDEBUG` is not defined -/
  debug : Bool

/-! ## The variables map -/

/-- The types of option values occurring in trento. -/
inductive OptType where
  /-- no value (`help`, `version`, `bibtex`) -/
  | none
  /-- `po::bool_switch()` -/
  | switch
  | int | int64 | double | path
  /-- `po::value<std::vector<std::string>>()` -/
  | strings
  /-- `po::value<std::vector<fs::path>>()` -/
  | paths
  deriving DecidableEq

/-- Option values (`boost::any`). -/
inductive OptVal (F : Type) where
  | str (s : String)
  | strs (l : List String)
  | int (k : Int)
  | dbl (x : F)
  | bool (b : Bool)

/-- An entry of `po::options_description`: name, type, default value. -/
structure OptDesc (F : Type) where
  name : String
  type : OptType
  default : Option (OptVal F)

/-- `po::variable_value`. -/
structure VarEntry (F : Type) where
  val : OptVal F
  defaulted : Bool

/-- `po::variables_map`: the values and the set `m_final` of options explicitly stored earlier. -/
structure VarMap (F : Type) where
  vals : String → Option (VarEntry F)
  final : List String

namespace VarMap

/-- An empty map (src/trento.cxx:174). -/
def empty : VarMap F := ⟨fun _ => Option.none, []⟩

/-- Replace an entry. -/
def set (vm : VarMap F) (k : String) (e : VarEntry F) : VarMap F :=
  { vm with vals := fun k' => if k' = k then some e else vm.vals k' }

/-- `var_map.count(k)`. -/
def count (vm : VarMap F) (k : String) : Bool := (vm.vals k).isSome

/-- `var_map[k].as<double>()`; a wrong type throws `boost::bad_any_cast`. -/
def dbl (vm : VarMap F) (k : String) : Res F :=
  match vm.vals k with
  | some ⟨.dbl x, _⟩ => .ok x
  | _ => .error (.throw .runtimeError "bad_any_cast")

/-- `var_map[k].as<int>()` or `as<int64_t>()`. -/
def int (vm : VarMap F) (k : String) : Res Int :=
  match vm.vals k with
  | some ⟨.int x, _⟩ => .ok x
  | _ => .error (.throw .runtimeError "bad_any_cast")

/-- `var_map[k].as<bool>()`. -/
def bool (vm : VarMap F) (k : String) : Res Bool :=
  match vm.vals k with
  | some ⟨.bool x, _⟩ => .ok x
  | _ => .error (.throw .runtimeError "bad_any_cast")

/-- `var_map[k].as<std::vector<…>>()`. -/
def strs (vm : VarMap F) (k : String) : Res (List String) :=
  match vm.vals k with
  | some ⟨.strs l, _⟩ => .ok l
  | _ => .error (.throw .runtimeError "bad_any_cast")

/-- `var_map[k].as<fs::path>()`. -/
def str (vm : VarMap F) (k : String) : Res String :=
  match vm.vals k with
  | some ⟨.str s, _⟩ => .ok s
  | _ => .error (.throw .runtimeError "bad_any_cast")

end VarMap

/-! ## `po::store` -/

/-- The single token of a scalar value (`validators::get_single_string`). -/
def singleToken : List String → Res String
  | [s] => .ok s
  | [] => .error (.throw .poError "at least one value required")
  | _ => .error (.throw .poError "multiple values not allowed")

/-- `lexical_cast` with the error translated to `invalid_option_value`. -/
def orInvalid {α : Type} : Option α → Res α
  | some x => .ok x
  | none => .error (.throw .poError "invalid option value")

/-- `validate(any&, …, bool*, int)`: no token means true. -/
def boolToken : List String → Res Bool
  | [] => .ok true
  | [s] =>
    let s := s.toLower
    if s = "" ∨ s = "on" ∨ s = "yes" ∨ s = "1" ∨ s = "true" then .ok true
    else if s = "off" ∨ s = "no" ∨ s = "0" ∨ s = "false" then .ok false
    else .error (.throw .poError "invalid bool value")
  | _ => .error (.throw .poError "multiple values not allowed")

/-- Every element, or the first error. -/
def mapRes {α β : Type} (f : α → Res β) : List α → Res (List β)
  | [] => .ok []
  | a :: as =>
    match f a with
    | .error e => .error e
    | .ok b =>
      match mapRes f as with
      | .error e => .error e
      | .ok bs => .ok (b :: bs)

/-- The value of a scalar option. -/
def scalarVal (L : Lib F) (ty : OptType) (toks : List String) : Res (OptVal F) := do
  match ty with
  | .switch => return .bool (← boolToken toks)
  | .int => return .int (← orInvalid (L.toInt (← singleToken toks)))
  | .int64 => return .int (← orInvalid (L.toInt64 (← singleToken toks)))
  | .double => return .dbl (← orInvalid (L.toDouble (← singleToken toks)))
  | .path => return .str (← orInvalid (L.toPath (← singleToken toks)))
  | _ =>
    match toks with
    | [] => return .str ""
    | [s] => return .str s
    | _ => throw (.throw .poError "multiple values not allowed")

/-- The new elements of a vector option. -/
def vectorVals (L : Lib F) (ty : OptType) (toks : List String) : Res (List String) :=
  match ty with
  | .paths => mapRes (fun s => orInvalid (L.toPath s)) toks
  | _ => .ok toks

/-- `value_semantic::parse(v.value(), tokens, utf8)`: a scalar must not have a value yet (`multiple_occurrences`), a vector is
extended. -/
def parseVal (L : Lib F) (ty : OptType) (old : Option (OptVal F)) (toks : List String) : Res (OptVal F) :=
  if ty = .strings ∨ ty = .paths then
    match vectorVals L ty toks with
    | .error e => .error e
    | .ok new =>
      match old with
      | some (.strs l) => .ok (.strs (l ++ new))
      | _ => .ok (.strs new)
  else
    match old with
    | some _ => .error (.throw .poError "option cannot be specified more than once")
    | none => scalarVal L ty toks

/-- First part of `po::store`: the parsed options in order.  `newFinal` collects the names set in this call; names that are
final from an earlier call are skipped; a default value is erased by an explicit one. -/
def storeParsed (L : Lib F) (desc : List (OptDesc F)) : List ParsedOption → List String → VarMap F → Res (VarMap F × List String)
  | [], newFinal, vm => .ok (vm, newFinal)
  | (k, toks) :: rest, newFinal, vm =>
    if k ∈ vm.final then storeParsed L desc rest newFinal vm
    else
      match desc.find? (fun d => d.name = k) with
      | none => .error (.throw .poError "unrecognised option")
      | some d =>
        let old := match vm.vals k with
          | some e => if e.defaulted then none else some e.val
          | none => none
        match parseVal L d.type old toks with
        | .error e => .error e
        | .ok v => storeParsed L desc rest (k :: newFinal) (vm.set k ⟨v, false⟩)

/-- Second part of `po::store`: default values for options without a value. -/
def storeDefaults : List (OptDesc F) → VarMap F → VarMap F
  | [], vm => vm
  | d :: ds, vm =>
    match vm.vals d.name, d.default with
    | none, some v => storeDefaults ds (vm.set d.name ⟨v, true⟩)
    | _, _ => storeDefaults ds vm

/-- `po::store(parsed, vm)`. -/
def store (L : Lib F) (desc : List (OptDesc F)) (parsed : List ParsedOption) (vm : VarMap F) : Res (VarMap F) :=
  match storeParsed L desc parsed [] vm with
  | .error e => .error e
  | .ok (vm, newFinal) => .ok (storeDefaults desc { vm with final := newFinal ++ vm.final })

/-! ## The options (src/trento.cxx:61-165) -/

section
variable [Arith F]

/-- `main_opts` (src/trento.cxx:68-78). -/
def mainOpts : List (OptDesc F) := [⟨"projectile", .strings, none⟩, ⟨"number-events", .int, some (.int 1)⟩]
/-- `general_opts` (src/trento.cxx:87-94). -/
def generalOpts : List (OptDesc F) :=
  [⟨"help", .none, none⟩, ⟨"version", .none, none⟩, ⟨"bibtex", .none, none⟩, ⟨"config-file", .paths, none⟩]
/-- `output_opts` (src/trento.cxx:96-105). -/
def outputOpts : List (OptDesc F) :=
  [⟨"quiet", .switch, some (.bool false)⟩, ⟨"output", .path, none⟩, ⟨"no-header", .switch, some (.bool false)⟩,
   ⟨"ncoll", .switch, some (.bool false)⟩]
/-- `phys_opts` (src/trento.cxx:107-141). -/
def physOpts : List (OptDesc F) :=
  [⟨"reduced-thickness", .double, some (.dbl (lit 0))⟩, ⟨"fluctuation", .double, some (.dbl (lit 1))⟩,
   ⟨"nucleon-width", .double, some (.dbl (lit 0.5))⟩, ⟨"constit-width", .double, some (.dbl (lit 0.5))⟩,
   ⟨"constit-number", .int, some (.int 1)⟩, ⟨"nucleon-min-dist", .double, some (.dbl (lit 0))⟩,
   ⟨"cross-section", .double, some (.dbl (lit 6.4))⟩, ⟨"normalization", .double, some (.dbl (lit 1))⟩,
   ⟨"b-min", .double, some (.dbl (lit 0))⟩, ⟨"b-max", .double, some (.dbl (lit (-1)))⟩,
   ⟨"random-seed", .int64, some (.int (-1))⟩]
/-- `grid_opts` (src/trento.cxx:143-150). -/
def gridOpts : List (OptDesc F) :=
  [⟨"grid-max", .double, some (.dbl (lit 10))⟩, ⟨"grid-step", .double, some (.dbl (lit 0.2))⟩]

/-- `all_opts` (src/trento.cxx:154-165). -/
def allOpts : List (OptDesc F) := generalOpts ++ outputOpts ++ physOpts ++ gridOpts ++ mainOpts
/-- `config_file_opts` (src/trento.cxx:208-213). -/
def configOpts : List (OptDesc F) := mainOpts ++ outputOpts ++ physOpts ++ gridOpts

/-! ## From the command line to the final configuration (src/trento.cxx:174-248) -/

/-- The text of a config file; a path that cannot be read gives no lines.  Simplification: an HDF5 file is read as empty. -/
def configText (ce : CacheEnv) (fs : FS F) (p : Path) : List Char := (openRead ce fs p).rest

/-- `po::parse_config_file(stream, config_file_opts)` (src/trento.cxx:221): the library's parser, which also rejects an option
that is not described by `desc` (`allow_unregistered` is left at its default, false). -/
def readConfig (L : Lib F) (desc : List (OptDesc F)) (text : List Char) : Res (List ParsedOption) :=
  match L.parseConfig text with
  | .error e => .error e
  | .ok parsed =>
    if parsed.all (fun o => desc.any fun d => d.name == o.1) then .ok parsed
    else .error (.throw .poError "unrecognised option")

/-- The loop over the config files (src/trento.cxx:215-222). -/
def mergeConfigs (L : Lib F) (env : OsEnv) (ce : CacheEnv) (fs : FS F) : List String → VarMap F → Res (VarMap F)
  | [], vm => .ok vm
  | path :: rest, vm =>
    if !fs.exists (env.resolve path) then .error (.throw .poError s!"configuration file '{path}' not found")
    else
      match readConfig L configOpts (configText ce fs (env.resolve path)) with
      | .error e => .error e
      | .ok parsed =>
        match store L configOpts parsed vm with
        | .error e => .error e
        | .ok vm => mergeConfigs L env ce fs rest vm

/-- The checks of the widths (src/trento.cxx:230-244). -/
def checkWidths (w v : F) (m : Int) : Res Unit :=
  if lt w (lit 0) || lt v (lit 0) then .error (.throw .poError "nucleon and constituent widths must be non-negative")
  else if lt w v then .error (.throw .poError "constituent width cannot be larger than nucleon width")
  else if lt v w && decide (m = 1) then
    .error (.throw .poError "cannot fit nucleon width using single constituent if different sizes")
  else .ok ()

/-- `po::notify` (src/trento.cxx:248): required options, then the notifier of `projectile` (lines 70-76). -/
def notify (vm : VarMap F) : Res Unit :=
  match vm.vals "projectile" with
  | some ⟨.strs l, _⟩ => if l.length ≠ 2 then .error (.throw .poRequiredOption "projectile") else .ok ()
  | _ => .error (.throw .poRequiredOption "projectile")

/-- What the command line asks for. -/
inductive Command (F : Type) where
  | help | version | bibtex
  | run (vm : VarMap F)

/-- The default constituent width (src/trento.cxx:225-228). -/
def defaultConstitWidth (vm : VarMap F) : Res (VarMap F) :=
  match vm.vals "constit-width" with
  | some e =>
    if e.defaulted then
      match vm.dbl "nucleon-width" with
      | .error er => .error er
      | .ok w => .ok (vm.set "constit-width" ⟨.dbl w, true⟩)
    else .ok vm
  | none => .ok vm

/-- Merge the config files named on the command line (src/trento.cxx:205-223). -/
def withConfigFiles (L : Lib F) (env : OsEnv) (ce : CacheEnv) (fs : FS F) (vm : VarMap F) : Res (VarMap F) :=
  if vm.count "config-file" then
    match vm.strs "config-file" with
    | .error e => .error e
    | .ok paths => mergeConfigs L env ce fs paths vm
  else .ok vm

/-- Default constituent width, checks, `po::notify` (src/trento.cxx:225-248). -/
def finalize (vm : VarMap F) : Res (VarMap F) := do
  let vm ← defaultConstitWidth vm
  let w ← vm.dbl "nucleon-width"
  let v ← vm.dbl "constit-width"
  let m ← vm.int "constit-number"
  checkWidths w v m
  notify vm
  return vm

/-- Everything `main` does before it constructs the collider (src/trento.cxx:174-248). -/
def configure (L : Lib F) (env : OsEnv) (ce : CacheEnv) (fs : FS F) (args : List String) : Res (Command F) :=
  match L.parseArgs args with
  | .error e => .error e
  | .ok parsed =>
    match store L allOpts parsed VarMap.empty with
    | .error e => .error e
    | .ok vm =>
      if vm.count "help" then .ok .help
      else if vm.count "version" then .ok .version
      else if vm.count "bibtex" then .ok .bibtex
      else
        match withConfigFiles L env ce fs vm with
        | .error e => .error e
        | .ok vm =>
          match finalize vm with
          | .error e => .error e
          | .ok vm => .ok (.run vm)

/-! ## The collider constructor and the run -/

/-- `create_nucleus` (src/collider.cxx:25-31); `h5view` is what the HDF5 library finds at a path. -/
def createFrom (L : Lib F) (h5view : String → H5View F) (vm : VarMap F) (index : Nat) : Res (Nucleus F) := do
  let ps ← vm.strs "projectile"
  match ps[index]? with
  | none => throw (.throw .outOfRange "vector::_M_range_check")
  | some species => createNucleus L.hdf5 h5view species (← vm.dbl "nucleon-min-dist")

/-- The numbers the constructors read from the map: `NucleonCommon` (src/nucleon.cxx:248-262), `Collider`
(src/collider.cxx:61-77), `Event` (src/event.cxx:48-52).  A negative constit-number is represented by 0 here; see
`runEventsOf`. -/
def readOptions (vm : VarMap F) (A B : Nucleus F) : Res (Options F) := do
  let w ← vm.dbl "nucleon-width"
  let v ← vm.dbl "constit-width"
  let m ← vm.int "constit-number"
  let ncoll ← vm.bool "ncoll"
  let k ← vm.dbl "fluctuation"
  let nev ← vm.int "number-events"
  let bmin ← vm.dbl "b-min"
  let bmax ← vm.dbl "b-max"
  let norm ← vm.dbl "normalization"
  let step ← vm.dbl "grid-step"
  let gmax ← vm.dbl "grid-max"
  let p ← vm.dbl "reduced-thickness"
  let x ← vm.dbl "cross-section"
  let seed ← vm.int "random-seed"
  return { projectileA := A, projectileB := B, numberEvents := nev, ncoll := ncoll, reducedThickness := p, fluctuation := k,
           nucleonWidth := w, constitWidth := v, constitNumber := m.toNat, crossSection := x, normalization := norm,
           bMin := bmin, bMax := bmax, randomSeed := seed, gridMax := gmax, gridStep := step }

/-- The output options (src/output.cxx:170-206). -/
def readOutOptions (vm : VarMap F) : Res OutOptions := do
  let quiet ← vm.bool "quiet"
  let noHeader ← vm.bool "no-header"
  if vm.count "output" then
    return ⟨quiet, some (← vm.str "output"), noHeader⟩
  else return ⟨quiet, none, noHeader⟩

/-- The cache key (src/nucleon.cxx:178-181). -/
def readKey (vm : VarMap F) : Res (CacheKey F) := do
  return ⟨← vm.int "constit-number", ← vm.dbl "nucleon-width", ← vm.dbl "constit-width", ← vm.dbl "cross-section"⟩

/-- Bounds for the unbounded loops of the model: Monte Carlo constants, cache search, rejection loops, collision attempts. -/
structure Fuel where
  mc : MCConst
  cache : Nat
  reject : Nat
  collide : Nat

variable [NumFmt F] [Toms748 F] [Rng F E D]

/-- The constructor of `Collider` (src/collider.cxx:61-77): members in declaration order (src/collider.h:51-86).  The nucleon
part runs the cross section fit with the random engine as it is before seeding; the body seeds it. -/
noncomputable def constructCollider (L : Lib F) (env : OsEnv) (ce : CacheEnv) (fu : Fuel) (h5view : FS F → String → H5View F)
    (vm : VarMap F) (W : World F) (r : Rand E D) :
    Res (Collider F × EventCfg F × List Writer) × World F × Rand E D :=
  match createFrom L (h5view W.fs) vm 0 with
  | .error e => (.error e, W, r)
  | .ok A =>
  match createFrom L (h5view W.fs) vm 1 with
  | .error e => (.error e, W, r)
  | .ok B =>
  match readOptions vm A B with
  | .error e => (.error e, W, r)
  | .ok o =>
  match readKey vm with
  | .error e => (.error e, W, r)
  | .ok key =>
  match partonicCrossSection env ce fu.cache key (crossSectionFit fu.mc key) W.fs r with
  | (.error e, fs, r) => (.error e, { W with fs := fs }, r)
  | (.ok sigma, fs, r) =>
    let W := { W with fs := fs }
    match EventCfg.make o.normalization o.gridStep o.gridMax o.reducedThickness with
    | .error e => (.error e, W, r)
    | .ok ec =>
    match readOutOptions vm with
    | .error e => (.error e, W, r)
    | .ok oo =>
      match outputMake env L.hdf5 o.numberEvents oo W with
      | (.error e, W) => (.error e, W, r)
      | (.ok wrs, W) => (.ok (Collider.make o sigma, ec, wrs), W, seedRand F o.randomSeed r)

/-- `Collider collider{var_map}; collider.run_events();` (src/trento.cxx:251-252).  With a negative constit-number the first
pair within range makes `std::vector::resize` throw (src/nucleon.h:287); simplification: the model throws at once (if there are
events to run). -/
noncomputable def runCommand (L : Lib F) (env : OsEnv) (ce : CacheEnv) (fu : Fuel) (h5view : FS F → String → H5View F)
    (ev0 : (n : Nat) → Event F n) (vm : VarMap F) (W : World F) (r : Rand E D) : Res Unit × World F :=
  match constructCollider L env ce fu h5view vm W r with
  | (.error e, W, _) => (.error e, W)
  | (.ok (c, ec, wrs), W, r) =>
    match vm.int "constit-number" with
    | .error e => (.error e, W)
    | .ok m =>
      if m < 0 ∧ 0 < c.nevents then (.error (.throw .runtimeError "vector::_M_default_append"), W)
      else
        match runLoopOut fu.reject fu.collide c ec L.debug env wrs c.nevents.toNat 0
            ⟨c.nucleusA, c.nucleusB, ev0 ec.nsteps.toNat, r⟩ W with
        | (.error e, W) => (.error e, W)
        | (.ok _, W) => (.ok (), W)

/-- How the process ends. -/
inductive Exit where
  | status (code : Nat)
  /-- an exception no handler of `main` catches: `std::terminate` -/
  | terminated
  | undefined
  /-- not finished within the loop bounds -/
  | running
  deriving DecidableEq

/-- `usage_str` (src/trento.cxx:168-169). -/
def usageStr : String := "usage: trento [options] projectile projectile [number-events = 1]\n"

/-- The help text (src/trento.cxx:182-191). -/
def helpText (L : Lib F) : List Char :=
  usageStr.toList ++ "\nprojectile = { p | d | Cu | Cu2 | Xe | Au | Au2 | Pb | U | U2 | U3 }\n".toList ++ L.usageOpts ++
    "\nsee the online documentation for complete usage information\n".toList

/-- `print_version` (src/trento.cxx:27-29). -/
def versionText (L : Lib F) : List Char := "trento ".toList ++ L.version.toList ++ ['\n']

/-- `print_bibtex` (src/trento.cxx:31-48). -/
def bibtexText : List Char :=
  String.toList "@article{Moreland:2014oya,
      author         = \"Moreland, J. Scott and Bernhard, Jonah E. and Bass,
                        Steffen A.\",
      title          = \"{Alternative ansatz to wounded nucleon and binary
                        collision scaling in high-energy nuclear collisions}\",
      journal        = \"Phys.Rev.\",
      number         = \"1\",
      volume         = \"C92\",
      pages          = \"011901\",
      doi            = \"10.1103/PhysRevC.92.011901\",
      year           = \"2015\",
      eprint         = \"1412.4708\",
      archivePrefix  = \"arXiv\",
      primaryClass   = \"nucl-th\",
      SLACcitation   = \"%%CITATION = ARXIV:1412.4708;%%\",
}
"

/-- The exception handlers of `main` (src/trento.cxx:254-264): exit and text on standard error. -/
def handle : Err → Exit × List Char
  | .throw .poRequiredOption _ => (.status 1, (usageStr ++ "run 'trento --help' for more information\n").toList)
  | .throw .h5Exception _ => (.terminated, [])
  | .throw _ msg => (.status 1, msg.toList ++ ['\n'])
  | .ub _ => (.undefined, [])
  | .fuel => (.running, [])

/-- `main` (src/trento.cxx:60-267): how the process ends, the world it leaves, and what it wrote to standard error. -/
noncomputable def mainProg (L : Lib F) (env : OsEnv) (ce : CacheEnv) (fu : Fuel) (h5view : FS F → String → H5View F)
    (ev0 : (n : Nat) → Event F n) (args : List String) (W : World F) (r : Rand E D) : Exit × World F × List Char :=
  match configure L env ce W.fs args with
  | .error e => ((handle e).1, W, (handle e).2)
  | .ok .help => (.status 0, { W with cout := W.cout.put (helpText L) }, [])
  | .ok .version => (.status 0, { W with cout := W.cout.put (versionText L) }, [])
  | .ok .bibtex => (.status 0, { W with cout := W.cout.put bibtexText }, [])
  | .ok (.run vm) =>
    match runCommand L env ce fu h5view ev0 vm W r with
    | (.ok (), W) => (.status 0, W, [])
    | (.error e, W) => ((handle e).1, W, (handle e).2)

end
end Trento
