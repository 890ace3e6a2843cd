import Verif.Model.Program

/-!
# The command line and config file parsers

`src/trento.cxx` hands its arguments to `po::command_line_parser(…).options(all_opts).positional(positional_opts).run()` (lines 177-178) and its config files to
`po::parse_config_file` (line 221).  This file models these parsers as they are in Boost.Program_options (libs/program_options/src/cmdline.cpp, options_description.cpp, config_file.cpp,
written down from the library's sources; the style is the default `unix_style`), together with trento's option names and letters, and `boost::lexical_cast<int>`.
They are possible values of the fields `parseArgs`, `parseConfig`, `toInt` and `toInt64` of `Lib`.
-/

namespace Trento
variable {F : Type}

/-- A token of the command line, as characters. -/
abbrev Tok := List Char

/-- What the parser uses of a `po::option_description`: long name, letter, and whether it takes a value (`min_tokens = max_tokens = 1`) or none (`= 0`: options without value semantics and
`po::bool_switch`). -/
structure CliOpt where
  long : String
  short : Option Char
  arg : Bool
  deriving DecidableEq

/-- The one-letter names (src/trento.cxx:89, 93, 98, 100, 109-130: `"help,h"` and so on). -/
def optLetters : List (String × Char) :=
  [("help", 'h'), ("config-file", 'c'), ("quiet", 'q'), ("output", 'o'), ("reduced-thickness", 'p'), ("fluctuation", 'k'), ("nucleon-width", 'w'), ("constit-width", 'v'),
   ("constit-number", 'm'), ("nucleon-min-dist", 'd'), ("cross-section", 'x'), ("normalization", 'n')]

/-- Number of tokens a value of this type takes (`value_semantic::max_tokens`): 0 for no value and for switches, else 1. -/
def takesArg : OptType → Bool
  | .none => false
  | .switch => false
  | _ => true

/-- `all_opts` (src/trento.cxx:154-165) as the command line parser sees it. -/
def cliOpts (F : Type) [Arith F] : List CliOpt := (allOpts (F := F)).map fun d => ⟨d.name, optLetters.lookup d.name, takesArg d.type⟩

/-- `positional_opts` (src/trento.cxx:81-84): the names of the first, second and third positional argument. -/
def positionalNames : List String := ["projectile", "projectile", "number-events"]

/-! ## Finding an option (options_description.cpp) -/

/-- `option_description::match` returns `full_match`: the name is the long name, or a dash and the letter. -/
def CliOpt.isNamed (o : CliOpt) (name : Tok) : Bool :=
  o.long.toList == name || (match o.short with | some c => ['-', c] == name | none => false)

/-- `option_description::match` with `approx` returns at least `approximate_match`: the name begins the long name (`allow_guessing`). -/
def CliOpt.startsWith (o : CliOpt) (name : Tok) : Bool := name.isPrefixOf o.long.toList

/-- `options_description::find_nothrow(name, approx = true, …)`: a full match wins; several full matches, or no full and several approximate ones, throw `ambiguous_option`. -/
def findOpt (opts : List CliOpt) (name : Tok) : Res (Option CliOpt) :=
  match opts.filter (·.isNamed name) with
  | [o] => .ok (some o)
  | _ :: _ :: _ => .error (.throw .poError "option is ambiguous")
  | [] =>
    match opts.filter (·.startsWith name) with
    | [] => .ok none
    | [o] => .ok (some o)
    | _ => .error (.throw .poError "option is ambiguous")

/-- `options_description::find_nothrow(name, approx = false, …)`.  Simplification: the first match instead of an exception if there are several (all names of trento differ). -/
def findExact (opts : List CliOpt) (name : Tok) : Option CliOpt := opts.find? (·.isNamed name)

/-! ## Style parsers (cmdline.cpp) -/

/-- `basic_option` while parsing: `string_key` and `value`.  An empty key is a positional argument. -/
structure RawOpt where
  key : Tok
  vals : List Tok

/-- `cmdline::parse_long_option`: `--name` or `--name=value`; at least one character after the dashes; an empty value after `=` is an error. -/
def parseLong : Tok → Res (Option RawOpt)
  | '-' :: '-' :: c :: cs =>
    if '=' ∈ c :: cs then
      let adjacent := ((c :: cs).dropWhile (· ≠ '=')).drop 1
      if adjacent = [] then .error (.throw .poError "the argument for option should follow immediately after the equal sign")
      else .ok (some ⟨(c :: cs).takeWhile (· ≠ '='), [adjacent]⟩)
    else .ok (some ⟨c :: cs, []⟩)
  | _ => .ok none

/-- Whether the letter names an option without value. -/
def isSwitch (opts : List CliOpt) (c : Char) : Bool :=
  match findExact opts ['-', c] with
  | some d => !d.arg
  | none => false

/-- The loop of `cmdline::parse_short_option`: what follows a letter without value is the next letter of the group, what follows another letter is its value. -/
def shortGroup (opts : List CliOpt) : Char → List Char → List RawOpt
  | c, [] => [⟨['-', c], []⟩]
  | c, a :: as => if isSwitch opts c then ⟨['-', c], []⟩ :: shortGroup opts a as else [⟨['-', c], [a :: as]⟩]

/-- `cmdline::parse_short_option`: a dash and a character that is not a dash. -/
def parseShort (opts : List CliOpt) : Tok → Option (List RawOpt)
  | '-' :: c :: cs => if c = '-' then none else some (shortGroup opts c cs)
  | _ => none

/-- The style parsers in the order of `cmdline::run`: long, short, and the terminator `--`, after which everything is positional.  The result: new options and remaining arguments, or `none` if
no parser takes the token. -/
def styleParse (opts : List CliOpt) (tok : Tok) (rest : List Tok) : Res (Option (List RawOpt × List Tok)) :=
  match parseLong tok with
  | .error e => .error e
  | .ok (some r) => .ok (some ([r], rest))
  | .ok none =>
    match parseShort opts tok with
    | some rs => .ok (some (rs, rest))
    | none => if tok = ['-', '-'] then .ok (some (rest.map fun t => ⟨[], [t]⟩, [])) else .ok none

/-! ## Values -/

/-- Whether a token that would become a value looks like an option (`followed_option` in `cmdline::finish_option`; the terminator alone gives no option). -/
def looksLikeOption (opts : List CliOpt) (tok : Tok) : Res Bool :=
  match parseLong tok with
  | .error e => .error e
  | .ok (some _) => .ok true
  | .ok none => .ok (parseShort opts tok).isSome

/-- The loop of `cmdline::finish_option` that takes `min_tokens` values from the following tokens: one that looks like an option and is the name of one is not taken. -/
def grabValues (opts : List CliOpt) : Nat → List Tok → List Tok → Res (List Tok × List Tok)
  | 0, vals, others => .ok (vals, others)
  | _+1, vals, [] => .ok (vals, [])
  | n+1, vals, t :: others =>
    match looksLikeOption opts t with
    | .error e => .error e
    | .ok false => grabValues opts n (vals ++ [t]) others
    | .ok true =>
      match findOpt opts t with
      | .error e => .error e
      | .ok (some _) => .error (.throw .poError "the required argument for option is missing")
      | .ok none => grabValues opts n (vals ++ [t]) others

/-- `cmdline::finish_option`: the full name, and values from the following tokens. -/
def finishOption (opts : List CliOpt) (r : RawOpt) (others : List Tok) : Res (RawOpt × List Tok) :=
  if r.key = [] then .ok (r, others)
  else
    match findOpt opts r.key with
    | .error e => .error e
    | .ok none => .error (.throw .poError "unrecognised option")
    | .ok (some d) =>
      let tokens := if d.arg then 1 else 0
      if r.vals.length + others.length < tokens then .error (.throw .poError "the required argument for option is missing")
      else if r.vals ≠ [] ∧ tokens = 0 then .error (.throw .poError "option does not take any arguments")
      else
        match grabValues opts (tokens - r.vals.length) r.vals others with
        | .error e => .error e
        | .ok (vals, others) => .ok (⟨d.long.toList, vals⟩, others)

/-- All options of a token: only the last one may take values from the following tokens. -/
def finishAll (opts : List CliOpt) : List RawOpt → List Tok → Res (List RawOpt × List Tok)
  | [], others => .ok ([], others)
  | [r], others =>
    match finishOption opts r others with
    | .error e => .error e
    | .ok (r, others) => .ok ([r], others)
  | r :: r' :: rs, others =>
    match finishOption opts r [] with
    | .error e => .error e
    | .ok (r, _) =>
      match finishAll opts (r' :: rs) others with
      | .error e => .error e
      | .ok (rs, others) => .ok (r :: rs, others)

/-- The main loop of `cmdline::run`.  `fuel` bounds the number of iterations; every iteration takes at least one token, so the number of tokens is enough.
Simplification: the step that gives further tokens to options with `min_tokens < max_tokens` is left out; trento has no such option. -/
def cliLoop (opts : List CliOpt) : Nat → List Tok → Res (List RawOpt)
  | _, [] => .ok []
  | 0, _ :: _ => .error .fuel
  | fuel+1, tok :: rest =>
    match styleParse opts tok rest with
    | .error e => .error e
    | .ok none =>
      match cliLoop opts fuel rest with
      | .error e => .error e
      | .ok rs => .ok (⟨[], [tok]⟩ :: rs)
    | .ok (some (next, rest)) =>
      match finishAll opts next rest with
      | .error e => .error e
      | .ok (done, rest) =>
        match cliLoop opts fuel rest with
        | .error e => .error e
        | .ok rs => .ok (done ++ rs)

/-- The end of `cmdline::run`: positional arguments get their names (`too_many_positional_options_error` after the last one). -/
def namePositional : List String → List RawOpt → Res (List ParsedOption)
  | _, [] => .ok []
  | names, r :: rs =>
    if r.key = [] then
      match names with
      | [] => .error (.throw .poError "too many positional options have been specified on the command line")
      | name :: names =>
        match namePositional names rs with
        | .error e => .error e
        | .ok ps => .ok ((name, r.vals.map String.ofList) :: ps)
    else
      match namePositional names rs with
      | .error e => .error e
      | .ok ps => .ok ((String.ofList r.key, r.vals.map String.ofList) :: ps)

/-- `po::command_line_parser(argc, argv).options(all_opts).positional(positional_opts).run()` (src/trento.cxx:177-178). -/
def cliParse (F : Type) [Arith F] (args : List String) : Res (List ParsedOption) :=
  match cliLoop (cliOpts F) args.length (args.map String.toList) with
  | .error e => .error e
  | .ok rs => namePositional positionalNames rs

/-! ## Config files (config_file.cpp) -/

/-- The lines of a text (`std::getline`); a final newline adds an empty line, which is ignored like all empty lines. -/
def cfgLines : List Char → List (List Char)
  | [] => [[]]
  | c :: cs =>
    if c = '\n' then [] :: cfgLines cs
    else
      match cfgLines cs with
      | [] => [[c]]
      | l :: ls => (c :: l) :: ls

/-- The characters removed by `trim_ws`. -/
def isTrim (c : Char) : Bool := c == ' ' || c == '\t' || c == '\r' || c == '\n'

/-- `trim_ws`. -/
def trimWs (s : List Char) : List Char := ((s.dropWhile isTrim).reverse.dropWhile isTrim).reverse

/-- The loop of `common_config_file_iterator::get` over the lines.  `pre` is `m_prefix`.  The section header `[]` reads the last character of an empty string: undefined behaviour.
The check that the name is an option is in `readConfig`. -/
def cfgLoop : Tok → List (List Char) → Res (List ParsedOption)
  | _, [] => .ok []
  | pre, line :: rest =>
    let s := trimWs (line.takeWhile (· ≠ '#'))
    if s = [] then cfgLoop pre rest
    else if s.head? = some '[' ∧ s.getLast? = some ']' then
      let p := (s.drop 1).dropLast
      match p.getLast? with
      | none => .error (.ub "rbegin of an empty string")
      | some c => cfgLoop (if c ≠ '.' then p ++ ['.'] else p) rest
    else if '=' ∈ s then
      match cfgLoop pre rest with
      | .error e => .error e
      | .ok ps => .ok ((String.ofList (pre ++ trimWs (s.takeWhile (· ≠ '='))), [String.ofList (trimWs ((s.dropWhile (· ≠ '=')).drop 1))]) :: ps)
    else .error (.throw .poError "the options configuration file contains an invalid line")

/-- `po::parse_config_file(ifs, config_file_opts)` (src/trento.cxx:221) up to the check of the names. -/
def cfgParse (text : List Char) : Res (List ParsedOption) := cfgLoop [] (cfgLines text)

/-! ## Integers (`boost::lexical_cast`) -/

/-- Value of a non-empty string of decimal digits. -/
def lexNat (s : List Char) : Option Nat :=
  if s ≠ [] ∧ s.all (fun c => '0' ≤ c && c ≤ '9') then some (s.foldl (fun n c => 10 * n + (c.toNat - 48)) 0) else none

/-- `boost::lexical_cast` to a signed integer type with values from `-lim` to `lim - 1` (`shr_signed`): an optional sign and digits, nothing else; out of range fails. -/
def lexInt (lim : Nat) (s : String) : Option Int :=
  match s.toList with
  | '-' :: ds => (lexNat ds).bind fun n => if n ≤ lim then some (-(n : Int)) else none
  | '+' :: ds => (lexNat ds).bind fun n => if n < lim then some (n : Int) else none
  | ds => (lexNat ds).bind fun n => if n < lim then some (n : Int) else none

/-- `Lib` with these parsers; the rest is taken from `L`. -/
def boostLib [Arith F] (L : Lib F) : Lib F :=
  { L with parseArgs := cliParse F, parseConfig := cfgParse, toInt := lexInt (2^31), toInt64 := lexInt (2^63) }

end Trento
