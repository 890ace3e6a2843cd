import Mathlib.Data.List.Forall2

/-!
# What command lines and config files mean, as documented

Taken from doc/usage.rst and the help text (`trento --help`), independently of the model of the parsers.
-/

namespace Trento.Spec

/-- An option as the documentation shows it: long name, letter, whether it is followed by a value. -/
structure DocOption where
  name : String
  letter : Option Char
  value : Bool
  deriving DecidableEq

/-- The options of doc/usage.rst ("-c, --config-file FILE" and so on) and the help text, with the two positional arguments, which can also be given by name. -/
def documentedOptions : List DocOption :=
  [⟨"help", some 'h', false⟩, ⟨"version", none, false⟩, ⟨"bibtex", none, false⟩, ⟨"config-file", some 'c', true⟩,
   ⟨"quiet", some 'q', false⟩, ⟨"output", some 'o', true⟩, ⟨"no-header", none, false⟩, ⟨"ncoll", none, false⟩,
   ⟨"reduced-thickness", some 'p', true⟩, ⟨"fluctuation", some 'k', true⟩, ⟨"nucleon-width", some 'w', true⟩,
   ⟨"constit-width", some 'v', true⟩, ⟨"constit-number", some 'm', true⟩, ⟨"nucleon-min-dist", some 'd', true⟩,
   ⟨"cross-section", some 'x', true⟩, ⟨"normalization", some 'n', true⟩,
   ⟨"b-min", none, true⟩, ⟨"b-max", none, true⟩, ⟨"random-seed", none, true⟩, ⟨"grid-max", none, true⟩, ⟨"grid-step", none, true⟩,
   ⟨"projectile", none, true⟩, ⟨"number-events", none, true⟩]

/-- One thing a command line says. -/
inductive Item where
  /-- an option without value -/
  | flag (o : DocOption)
  /-- an option with its value -/
  | setting (o : DocOption) (v : String)
  /-- a projectile or the number of events -/
  | argument (s : String)

/-- `s` names the option: its long name, or a beginning of it which begins no other long name. -/
def NameFor (o : DocOption) (s : String) : Prop :=
  s = o.name ∨ (s ≠ "" ∧ s.toList <+: o.name.toList ∧ ∀ o' ∈ documentedOptions, s.toList <+: o'.name.toList → o' = o)

/-- A word that cannot be taken for an option where a value is expected: it does not begin with two dashes and is not a dash and the letter of an option.  Negative numbers are such words. -/
def NotAnOption (v : String) : Prop :=
  ¬ ['-', '-'] <+: v.toList ∧ ∀ o ∈ documentedOptions, ∀ c, o.letter = some c → v.toList ≠ ['-', c]

/-- The ways to write something on the command line, as words. -/
inductive Spelled : Item → List String → Prop
  /-- `--quiet` -/
  | longFlag (o : DocOption) (s : String) (ho : o ∈ documentedOptions) (hv : o.value = false) (hs : NameFor o s) : Spelled (.flag o) ["--" ++ s]
  /-- `-q` -/
  | shortFlag (o : DocOption) (c : Char) (ho : o ∈ documentedOptions) (hv : o.value = false) (hc : o.letter = some c) : Spelled (.flag o) [String.ofList ['-', c]]
  /-- `--output FILE` -/
  | longApart (o : DocOption) (s v : String) (ho : o ∈ documentedOptions) (hv : o.value = true) (hs : NameFor o s) (hn : NotAnOption v) :
      Spelled (.setting o v) ["--" ++ s, v]
  /-- `--output=FILE` -/
  | longJoined (o : DocOption) (s v : String) (ho : o ∈ documentedOptions) (hv : o.value = true) (hs : NameFor o s) (hn : v ≠ "") :
      Spelled (.setting o v) ["--" ++ s ++ "=" ++ v]
  /-- `-o FILE` -/
  | shortApart (o : DocOption) (c : Char) (v : String) (ho : o ∈ documentedOptions) (hv : o.value = true) (hc : o.letter = some c) (hn : NotAnOption v) :
      Spelled (.setting o v) [String.ofList ['-', c], v]
  /-- `-oFILE` -/
  | shortJoined (o : DocOption) (c : Char) (v : String) (ho : o ∈ documentedOptions) (hv : o.value = true) (hc : o.letter = some c) (hn : v ≠ "") :
      Spelled (.setting o v) [String.ofList ['-', c] ++ v]
  /-- a projectile or number: any word that does not begin with a dash, or a single dash -/
  | argument (s : String) (hs : s.toList.head? ≠ some '-' ∨ s = "-") : Spelled (.argument s) [s]

/-- The options a command line sets, as names with values, if the arguments are called `names` in order; `none` if there are too many arguments. -/
def meaningWith : List String → List Item → Option (List (String × List String))
  | _, [] => some []
  | names, .flag o :: is => (meaningWith names is).map ((o.name, []) :: ·)
  | names, .setting o v :: is => (meaningWith names is).map ((o.name, [v]) :: ·)
  | [], .argument _ :: _ => none
  | n :: names, .argument s :: is => (meaningWith names is).map ((n, [s]) :: ·)

/-- "usage: trento [options] projectile projectile [number-events = 1]". -/
def meaning (is : List Item) : Option (List (String × List String)) := meaningWith ["projectile", "projectile", "number-events"] is

/-! ## Config files -/

/-- Blanks: spaces, tabs, carriage returns. -/
def Blanks (s : List Char) : Prop := ∀ c ∈ s, c = ' ' ∨ c = '\t' ∨ c = '\r'

/-- Text without a blank (or newline) at either end. -/
def Tight (s : List Char) : Prop := ∀ c ∈ [' ', '\t', '\r', '\n'], s.head? ≠ some c ∧ s.getLast? ≠ some c

/-- A line of a config file and the setting it makes, if any ("Config files follow a simple `key = value` syntax, and lines beginning with a `#` are comments").
Blanks around key and value and a comment after the value are allowed. -/
inductive ConfigLine : Option (String × String) → List Char → Prop
  | blank (ws : List Char) (h : Blanks ws) : ConfigLine none ws
  | comment (ws text : List Char) (h : Blanks ws) (hn : '\n' ∉ text) : ConfigLine none (ws ++ '#' :: text)
  | setting (k v : String) (a b c d : List Char) (comment : List Char)
      (hk : k ≠ "") (hk1 : k.toList.head? ≠ some '[') (hk2 : ∀ x ∈ ['=', '#', '\n'], x ∉ k.toList) (hk3 : Tight k.toList)
      (hv1 : ∀ x ∈ ['#', '\n'], x ∉ v.toList) (hv2 : Tight v.toList)
      (ha : Blanks a) (hb : Blanks b) (hc : Blanks c) (hd : Blanks d) (hcom : comment = [] ∨ ∃ text, comment = '#' :: text ∧ '\n' ∉ text) :
      ConfigLine (some (k, v)) (a ++ k.toList ++ b ++ '=' :: (c ++ v.toList ++ d ++ comment))

/-- The text of a config file and its settings in order: lines separated by newlines (a newline at the end is an empty last line). -/
def IsConfigFile (settings : List (String × String)) (text : List Char) : Prop :=
  ∃ kinds lines, List.Forall₂ ConfigLine kinds lines ∧ kinds.filterMap id = settings ∧ text = ['\n'].intercalate lines

end Trento.Spec
