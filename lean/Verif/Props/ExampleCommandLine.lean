import Verif.Props.IntegerOptions
import Verif.Props.ExampleProgram

/-! # Concrete command lines and config files (C107–C109) -/

namespace Trento
open Spec

def optOutput : DocOption := ⟨"output", some 'o', true⟩
def optBmax : DocOption := ⟨"b-max", none, true⟩
def optQuiet : DocOption := ⟨"quiet", some 'q', false⟩
def optP : DocOption := ⟨"reduced-thickness", some 'p', true⟩

/-- `Pb --b-ma=5 Pb -q -p -1 --output run 10`: abbreviations, a negative number as value, options between the arguments. -/
theorem example_spelled : List.Forall₂ Spelled
    [.argument "Pb", .setting optBmax "5", .argument "Pb", .flag optQuiet, .setting optP "-1", .setting optOutput "run", .argument "10"]
    [["Pb"], ["--b-ma=5"], ["Pb"], ["-q"], ["-p", "-1"], ["--output", "run"], ["10"]] := by
  refine .cons (.argument _ (.inl (by decide))) (.cons (.longJoined optBmax "b-ma" "5" (by decide) rfl (.inr ⟨by decide, by decide, by decide⟩) (by decide)) (.cons (.argument _ (.inl (by decide)))
    (.cons (.shortFlag optQuiet 'q' (by decide) rfl rfl) (.cons (.shortApart optP 'p' "-1" (by decide) rfl rfl ⟨by decide, ?_⟩)
    (.cons (.longApart optOutput "output" "run" (by decide) rfl (.inl rfl) ⟨by decide, ?_⟩) (.cons (.argument _ (.inl (by decide))) .nil))))))
  · intro o ho c hc
    have : ∀ o ∈ documentedOptions, o.letter ≠ some '1' := by decide
    intro he
    simp only [show ("-1" : String).toList = ['-', '1'] from rfl, List.cons.injEq, and_true, true_and] at he
    exact this o ho (he ▸ hc)
  · intro o ho c hc he
    cases he

/-- Its meaning. -/
theorem example_meaning (F : Type) [Arith F] : cliParse F ["Pb", "--b-ma=5", "Pb", "-q", "-p", "-1", "--output", "run", "10"] =
    .ok [("projectile", ["Pb"]), ("b-max", ["5"]), ("projectile", ["Pb"]), ("quiet", []), ("reduced-thickness", ["-1"]), ("output", ["run"]), ("number-events", ["10"])] :=
  (C107_spellings F _ _ example_spelled []).1

/-- The option may be moved over the projectile. -/
theorem example_reordered : Reordered
    [.argument "Pb", .setting optBmax "5", .argument "Pb", .flag optQuiet, .setting optP "-1", .setting optOutput "run", .argument "10"]
    [.setting optBmax "5", .argument "Pb", .argument "Pb", .flag optQuiet, .setting optP "-1", .setting optOutput "run", .argument "10"] :=
  .single ⟨[], _, _, _, rfl, rfl, .argSetting _ _ _ (by decide) (by decide)⟩

/-- Mistakes: `--nu` could be `nucleon-width`, `nucleon-min-dist` or `number-events`; `-5` is no letter. -/
theorem example_mistakes : Mistake ["--nu", "1"] ∧ Mistake ["-5"] ∧ Mistake ["--output="] ∧ Mistake ["--quiet=true"] ∧ Mistake ["--outp"] ∧ Mistake ["--output", "-q"] := by
  refine ⟨.unknown "nu" _ (by decide) (by decide) (by decide) ?_, .unknownLetter '5' [] [] (by decide) (by decide), .emptyValue "output" _ (by decide) (by decide),
    .valueForFlag optQuiet "quiet" "true" _ (by decide) rfl (.inl rfl) (by decide),
    .missingLong optOutput "outp" (by decide) rfl (.inr ⟨by decide, by decide, by decide⟩), .optionForValue optOutput optQuiet "output" 'q' _ (by decide) rfl (.inl rfl) (by decide) rfl⟩
  have : ∀ o ∈ documentedOptions, "nu" ≠ o.name ∧ ¬ ∀ o' ∈ documentedOptions, "nu".toList <+: o'.name.toList → o' = o := by decide
  rintro o ho (h | ⟨-, -, h⟩)
  · exact (this o ho).1 h
  · exact (this o ho).2 h

/-! Traps (properties of Boost.Program_options): a long option in the place of a value is taken as the value; `--=x` is an argument; `---q` is `-q`. -/

example (F : Type) [Arith F] : cliParse F ["--output", "--ncoll"] = .ok [("output", ["--ncoll"])] := by
  unfold cliParse; rw [cliOpts_eq]; rfl
example (F : Type) [Arith F] : cliParse F ["--=x"] = .ok [("projectile", ["x"])] := by
  unfold cliParse; rw [cliOpts_eq]; rfl
example (F : Type) [Arith F] : cliParse F ["---q"] = .ok [("quiet", [])] := by
  unfold cliParse; rw [cliOpts_eq]; rfl

/-! ## Config files -/

/-- A config file as in doc/usage.rst. -/
def exampleConfig : List Char := "# specify the projectile option twice\nprojectile = Pb\nprojectile=Pb\n\nquiet =  true\t# no output\ngrid-max = 10\n".toList

theorem tight_of (s : List Char) (h : (s.head?.all fun c => !isTrim c) && (s.getLast?.all fun c => !isTrim c)) : Tight s := by
  intro c hc
  have ht := (isTrim_iff c).mpr hc
  constructor
  · intro he; rw [he] at h; simp [ht] at h
  · intro he; rw [he] at h; simp [ht] at h

theorem blanks_of (s : List Char) (h : s.all fun c => c == ' ' || c == '\t' || c == '\r') : Blanks s := by
  intro c hc
  have := List.all_eq_true.mp h c hc
  simpa [or_assoc] using this

theorem example_config : IsConfigFile [("projectile", "Pb"), ("projectile", "Pb"), ("quiet", "true"), ("grid-max", "10")] exampleConfig := by
  refine ⟨[none, some ("projectile", "Pb"), some ("projectile", "Pb"), none, some ("quiet", "true"), some ("grid-max", "10"), none],
    ["# specify the projectile option twice".toList, "projectile = Pb".toList, "projectile=Pb".toList, [], "quiet =  true\t# no output".toList, "grid-max = 10".toList, []], ?_, rfl, by decide⟩
  refine .cons (.comment [] _ (blanks_of _ rfl) (by decide)) (.cons (.setting "projectile" "Pb" [] [' '] [' '] [] [] (by decide) (by decide) (by decide) (tight_of _ (by decide)) (by decide)
    (tight_of _ (by decide)) (blanks_of _ rfl) (blanks_of _ rfl) (blanks_of _ rfl) (blanks_of _ rfl) (.inl rfl)) (.cons (.setting "projectile" "Pb" [] [] [] [] [] (by decide) (by decide) (by decide)
    (tight_of _ (by decide)) (by decide) (tight_of _ (by decide)) (blanks_of _ rfl) (blanks_of _ rfl) (blanks_of _ rfl) (blanks_of _ rfl) (.inl rfl)) (.cons (.blank [] (blanks_of _ rfl))
    (.cons (.setting "quiet" "true" [] [' '] [' ', ' '] ['\t'] "# no output".toList (by decide) (by decide) (by decide) (tight_of _ (by decide)) (by decide) (tight_of _ (by decide)) (blanks_of _ rfl)
    (blanks_of _ rfl) (blanks_of _ rfl) (blanks_of _ rfl) (.inr ⟨_, rfl, by decide⟩)) (.cons (.setting "grid-max" "10" [] [' '] [' '] [] [] (by decide) (by decide) (by decide) (tight_of _ (by decide))
    (by decide) (tight_of _ (by decide)) (blanks_of _ rfl) (blanks_of _ rfl) (blanks_of _ rfl) (blanks_of _ rfl) (.inl rfl)) (.cons (.blank [] (blanks_of _ rfl)) .nil))))))

example : cfgParse exampleConfig = .ok [("projectile", ["Pb"]), ("projectile", ["Pb"]), ("quiet", ["true"]), ("grid-max", ["10"])] := C108_syntax _ _ example_config

/-- Broken files: a line without an equal sign; a setting in a section. -/
theorem example_broken : BrokenFile "quiet".toList ∧ BrokenFile "[trento]\nquiet = true".toList := by
  constructor
  · exact ⟨[], [], .nil, .inl ⟨"quiet".toList, [], ⟨[], "quiet".toList, [], [], by simp, blanks_of _ rfl, blanks_of _ rfl, tight_of _ (by decide), by decide, by decide, by decide, by decide, by decide, .inl rfl⟩, by simp, by decide⟩⟩
  · exact ⟨[], [], .nil, .inr ⟨"trento".toList, [], [], "quiet", "true", _, [], ⟨by decide, by decide, by decide⟩, .nil, by simp,
      .setting "quiet" "true" [] [' '] [' '] [] [] (by decide) (by decide) (by decide) (tight_of _ (by decide)) (by decide) (tight_of _ (by decide)) (blanks_of _ rfl) (blanks_of _ rfl)
        (blanks_of _ rfl) (blanks_of _ rfl) (.inl rfl), by simp, by decide⟩⟩

/-! Traps: the header `[]` reads the last character of an empty string; a `#` ends a value, so an output path cannot contain one in a config file. -/

example : cfgParse "[]".toList = .error (.ub "rbegin of an empty string") := rfl
example : cfgParse "output = run#1".toList = .ok [("output", ["run"])] := rfl

/-! ## Integers -/

example : lexInt (2^31) "10" = some 10 ∧ lexInt (2^31) "-2147483648" = some (-2147483648) ∧ lexInt (2^31) "2147483648" = none ∧ lexInt (2^31) "1e3" = none ∧ lexInt (2^31) "" = none := by
  refine ⟨?_, ?_, ?_, ?_, ?_⟩ <;> decide +kernel

/-! ## A run -/

/-- The words `-c trento.conf -w1 --ncoll --random-seed 0 p p 2`. -/
def demoWords : List (List String) := [["-c", "trento.conf"], ["-w1"], ["--ncoll"], ["--random-seed", "0"], ["p"], ["p"], ["2"]]
def demoItems : List Item :=
  [.setting ⟨"config-file", some 'c', true⟩ "trento.conf", .setting ⟨"nucleon-width", some 'w', true⟩ "1", .flag ⟨"ncoll", none, false⟩,
   .setting ⟨"random-seed", none, true⟩ "0", .argument "p", .argument "p", .argument "2"]

theorem demo_spelled : List.Forall₂ Spelled demoItems demoWords := by
  refine .cons (.shortApart _ 'c' "trento.conf" (by decide) rfl rfl ⟨by decide, ?_⟩) (.cons (.shortJoined _ 'w' "1" (by decide) rfl rfl (by decide))
    (.cons (.longFlag _ "ncoll" (by decide) rfl (.inl rfl)) (.cons (.longApart _ "random-seed" "0" (by decide) rfl (.inl rfl) ⟨by decide, ?_⟩)
    (.cons (.argument _ (.inl (by decide))) (.cons (.argument _ (.inl (by decide))) (.cons (.argument _ (.inl (by decide))) .nil))))))
  · intro o ho c hc he; cases he
  · intro o ho c hc he; cases he

theorem demo_meaning : meaning demoItems = some (demoCmd []) := rfl

theorem demo_config : IsConfigFile [("nucleon-width", "2"), ("b-max", "1")] "nucleon-width = 2\nb-max = 1\n".toList := by
  refine ⟨[some ("nucleon-width", "2"), some ("b-max", "1"), none], ["nucleon-width = 2".toList, "b-max = 1".toList, []], ?_, rfl, by decide⟩
  exact .cons (.setting "nucleon-width" "2" [] [' '] [' '] [] [] (by decide) (by decide) (by decide) (tight_of _ (by decide)) (by decide)
    (tight_of _ (by decide)) (blanks_of _ rfl) (blanks_of _ rfl) (blanks_of _ rfl) (blanks_of _ rfl) (.inl rfl)) (.cons (.setting "b-max" "1" [] [' '] [' '] [] [] (by decide) (by decide) (by decide)
    (tight_of _ (by decide)) (by decide) (tight_of _ (by decide)) (blanks_of _ rfl) (blanks_of _ rfl) (blanks_of _ rfl) (blanks_of _ rfl) (.inl rfl)) (.cons (.blank [] (blanks_of _ rfl)) .nil))

/-- **Example for C108 and C109.** This command line with this config file starts a run. -/
theorem demo_boost_configure : ∃ vm, configure (boostLib (demoLib [])) exEnv exCacheEnv (demoFs false) demoWords.flatten = .ok (.run vm) := by
  obtain ⟨vm, h, -⟩ := demo_configure none false
  refine ⟨vm, ?_⟩
  rw [← h]
  rfl

end Trento
