import Verif.Props.RealOptions
import Verif.Props.InfOptions
import Verif.Props.Run
import Verif.Props.ConfigErrors

/-!
# C110: from the texts of special values to the runs

`boost::lexical_cast` turns the words for infinity and not-a-number into the special values of the arithmetic, with their sign; a program given such a text for the impact parameter
range never ends successfully.
-/

namespace Trento
open Spec XReal

section
/-- **C110, values.** In the arithmetic with infinities and not-a-number: a real option given as a word for infinity has the infinity of that sign as its value, one given as a word for
not-a-number is not a number, and one given as a decimal numeral is finite. -/
theorem C110_special_values (L : Lib XReal) (env : OsEnv) (ce : CacheEnv) (fs : FS XReal) (args : List String) (vm : VarMap XReal)
    (h : configure (numberLib ieeeSpecial L) env ce fs args = .ok (.run vm)) :
    ∃ (cmd : List ParsedOption) (paths : List String) (files : List (List ParsedOption)), cliParse XReal args = .ok cmd ∧
      ConfigFiles (numberLib ieeeSpecial L) env ce fs paths files ∧
      ∀ k ∈ ["reduced-thickness", "fluctuation", "nucleon-width", "constit-width", "nucleon-min-dist", "cross-section", "normalization", "b-min", "b-max", "grid-max", "grid-step"],
        ∀ ms, firstMention k (cmd :: files) = some ms → ∃ s, ms = [[s]] ∧
          ((∃ n : Numeral, n.Proper ∧ n.text = s.toList ∧ vm.dbl k = .ok (fin (n.value : ℝ))) ∨
          (InfinityText false s.toList ∧ vm.dbl k = .ok pinf) ∨ (InfinityText true s.toList ∧ vm.dbl k = .ok ninf) ∨
          (NanText s.toList ∧ vm.dbl k = .ok nan)) := by
  obtain ⟨cmd, paths, files, h1, h2, h3⟩ := C110_options ieeeSpecial L env ce fs args vm h
  refine ⟨cmd, paths, files, h1, h2, fun k hk ms hms => ?_⟩
  obtain ⟨s, e, hs⟩ := h3 k hk ms hms
  refine ⟨s, e, ?_⟩
  rcases hs with ⟨n, n1, n2, -, n3⟩ | ⟨neg, x, t, v, d⟩ | ⟨x, t, v, d⟩
  · exact .inl ⟨n, n1, n2, n3⟩
  · cases v
    cases neg
    · exact .inr (.inl ⟨t, d⟩)
    · exact .inr (.inr (.inl ⟨t, d⟩))
  · cases v
    exact .inr (.inr (.inr ⟨t, d⟩))

variable {E D : Type} [Rng ℝ E D] [NumFmt XReal] [Toms748 XReal]

/-- **C110, runs.** If events are asked for and `--b-max` is given as infinity or not-a-number, or `--b-min` as any special value, or `--constit-width` as not-a-number (on the command line, or in a
configuration file and not on the command line), the program never ends successfully, whatever the other options, the files, the cache and the random sequence are. -/
theorem C110_special_runs [LawfulRng E D] (L : Lib XReal) (env : OsEnv) (ce : CacheEnv) (fu : Fuel) (h5view : FS XReal → String → H5View XReal)
    (ev0 : (n : Nat) → Event XReal n) (args : List String) (W : World XReal) (r : Rand E D) (vm : VarMap XReal)
    (h : configure (numberLib ieeeSpecial L) env ce W.fs args = .ok (.run vm)) {N : ℤ} (hN : vm.int "number-events" = .ok N) (hpos : 0 < N) :
    ∃ (cmd : List ParsedOption) (paths : List String) (files : List (List ParsedOption)), cliParse XReal args = .ok cmd ∧
      ConfigFiles (numberLib ieeeSpecial L) env ce W.fs paths files ∧
      ∀ s : String, (firstMention "b-max" (cmd :: files) = some [[s]] ∧ (NanText s.toList ∨ InfinityText false s.toList) ∨
          firstMention "b-min" (cmd :: files) = some [[s]] ∧ (NanText s.toList ∨ InfinityText false s.toList ∨ InfinityText true s.toList) ∨
          firstMention "constit-width" (cmd :: files) = some [[s]] ∧ NanText s.toList) →
        ∀ W' err, mainProg (numberLib ieeeSpecial L) env ce fu h5view ev0 args W r ≠ (.status 0, W', err) := by
  obtain ⟨cmd, paths, files, h1, -, h2, -, h4, -⟩ := C56_values (numberLib ieeeSpecial L) env ce W.fs args vm h
  refine ⟨cmd, paths, files, h1, h2, fun s hs W' err hrun => ?_⟩
  -- the value of a special text
  have value : ∀ k ∈ ["reduced-thickness", "fluctuation", "nucleon-width", "constit-width", "nucleon-min-dist", "cross-section", "normalization", "b-min", "b-max", "grid-max", "grid-step"],
      firstMention k (cmd :: files) = some [[s]] → ∀ v x, lexNumber s = some v → (∀ q, v ≠ .finite q) → ieeeSpecial v = some x → vm.dbl k = .ok x := by
    intro k hk hms v x hv hq hx
    obtain ⟨s', x', e1, e2, e3⟩ := h4 k hk _ hms
    cases e1
    have e2 : ((lexNumber s).bind fun v => match v with | .finite q => some (lit q) | v => ieeeSpecial v) = some x' := e2
    rw [hv, Option.bind_some] at e2
    cases v with
    | finite q => exact absurd rfl (hq q)
    | inf neg => have e2 : ieeeSpecial (.inf neg) = some x' := e2; rw [hx] at e2; cases e2; exact e3
    | nan => have e2 : ieeeSpecial .nan = some x' := e2; rw [hx] at e2; cases e2; exact e3
  obtain ⟨-, c2, c3⟩ := C110_texts s
  have vnan : ∀ k ∈ ["reduced-thickness", "fluctuation", "nucleon-width", "constit-width", "nucleon-min-dist", "cross-section", "normalization", "b-min", "b-max", "grid-max", "grid-step"],
      firstMention k (cmd :: files) = some [[s]] → NanText s.toList → vm.dbl k = .ok nan :=
    fun k hk hms ht => value k hk hms .nan nan (c3.mpr ht) (fun q h => by cases h) rfl
  have vinf : ∀ k ∈ ["reduced-thickness", "fluctuation", "nucleon-width", "constit-width", "nucleon-min-dist", "cross-section", "normalization", "b-min", "b-max", "grid-max", "grid-step"],
      firstMention k (cmd :: files) = some [[s]] → ∀ neg, InfinityText neg s.toList → vm.dbl k = .ok (if neg then ninf else pinf) :=
    fun k hk hms neg ht => value k hk hms (.inf neg) _ ((c2 neg).mpr ht) (fun q h => by cases h) rfl
  obtain ⟨a, b, dmin, o, oo, sigma, fs1, r1, wrs, W1, n, rs, -, -, p1, p2, hconf, -, -, -, hall, -⟩ :=
    C64_successful_run (numberLib ieeeSpecial L) env ce fu h5view ev0 args W W' r err vm h hrun
  have hA : NucleusHistory E D o.projectileA := .create _ _ _ _ _ p1
  have hB : NucleusHistory E D o.projectileB := .create _ _ _ _ _ p2
  have hNo : 0 < o.numberEvents := by
    have := hconf.numberEvents
    rw [hN] at this
    cases this
    exact hpos
  have same : ∀ {k : String} {x y : XReal}, vm.dbl k = .ok x → vm.dbl k = .ok y → y = x := by
    intro k x y h1 h2
    rw [h1] at h2
    exact (Except.ok.inj h2).symm
  rcases hs with ⟨hm, ht⟩ | ⟨hm, ht⟩ | ⟨hm, ht⟩
  · rcases ht with ht | ht
    · exact C110_nan_never_ends fu.reject fu.collide o sigma _ (.inr (.inl (same (vnan "b-max" (by simp) hm ht) hconf.bMax))) hNo hA hB ev0 r1 _ hall
    · exact C110_inf_never_ends fu.reject fu.collide o sigma _ (.inl (same (vinf "b-max" (by simp) hm false ht) hconf.bMax)) hNo hA hB ev0 r1 _ hall
  · rcases ht with ht | ht | ht
    · exact C110_nan_never_ends fu.reject fu.collide o sigma _ (.inl (same (vnan "b-min" (by simp) hm ht) hconf.bMin)) hNo hA hB ev0 r1 _ hall
    · exact C110_inf_never_ends fu.reject fu.collide o sigma _ (.inr (.inl (same (vinf "b-min" (by simp) hm false ht) hconf.bMin))) hNo hA hB ev0 r1 _ hall
    · exact C110_inf_never_ends fu.reject fu.collide o sigma _ (.inr (.inr (same (vinf "b-min" (by simp) hm true ht) hconf.bMin))) hNo hA hB ev0 r1 _ hall
  · exact C110_nan_never_ends fu.reject fu.collide o sigma _ (.inr (.inr (.inl (same (vnan "constit-width" (by simp) hm ht) hconf.constitWidth)))) hNo hA hB ev0 r1 _ hall

end

/-! ## A concrete case: `trento --b-max=inf p p` -/

/-- The parsers of the program; the other functions of the library do not matter here. -/
noncomputable def specialLib : Lib XReal :=
  { parseArgs := fun _ => .ok [], parseConfig := fun _ => .ok [], toInt := fun _ => none, toInt64 := fun _ => none, toDouble := fun _ => none, toPath := fun s => some s,
    usageOpts := [], version := "1", hdf5 := true, debug := true }

theorem special_cli : cliParse XReal ["--b-max=inf", "p", "p"] = .ok [("b-max", ["inf"]), ("projectile", ["p"]), ("projectile", ["p"])] :=
  (C107_spellings XReal [.setting ⟨"b-max", none, true⟩ "inf", .argument "p", .argument "p"] [["--b-max=inf"], ["p"], ["p"]]
    (.cons (.longJoined _ "b-max" "inf" (by decide) rfl (.inl rfl) (by decide)) (.cons (.argument _ (.inl (by decide))) (.cons (.argument _ (.inl (by decide))) .nil))) []).1.trans rfl

theorem special_configure (fs : FS XReal) : ∃ vm, configure (numberLib ieeeSpecial specialLib) exEnv exCacheEnv fs ["--b-max=inf", "p", "p"] = .ok (.run vm) ∧ vm.int "number-events" = .ok 1 := by
  obtain ⟨vm1, hvm1, c1, c2, c3, c4, vm3, hvm3, g1, g2, g3, g4, g5⟩ :
      ∃ vm1, store (numberLib ieeeSpecial specialLib) allOpts [("b-max", ["inf"]), ("projectile", ["p"]), ("projectile", ["p"])] VarMap.empty = .ok vm1 ∧
        vm1.count "help" = false ∧ vm1.count "version" = false ∧ vm1.count "bibtex" = false ∧ vm1.count "config-file" = false ∧
        ∃ vm3, defaultConstitWidth vm1 = .ok vm3 ∧ notify vm3 = .ok () ∧ vm3.dbl "nucleon-width" = .ok (lit 0.5) ∧ vm3.dbl "constit-width" = .ok (lit 0.5) ∧
          vm3.int "constit-number" = .ok 1 ∧ vm3.int "number-events" = .ok 1 :=
    ⟨_, rfl, rfl, rfl, rfl, rfl, _, rfl, rfl, rfl, rfl, rfl, rfl⟩
  have hchk : checkWidths (lit 0.5 : XReal) (lit 0.5) 1 = .ok () := by
    have h : (lit 0.5 : XReal) = fin 0.5 := by
      show fin (lit 0.5 : ℝ) = _
      rw [lit_real]; norm_num
    have h0 : (lit 0 : XReal) = fin 0 := by
      show fin (lit 0 : ℝ) = _
      rw [lit_real]; norm_num
    rw [h]
    unfold checkWidths
    rw [h0]
    have e1 : (lt (fin 0.5 : XReal) (fin 0)) = false := by
      show lt (0.5:ℝ) 0 = false
      simp [lt]
      norm_num
    have e2 : (lt (fin 0.5 : XReal) (fin 0.5)) = false := by
      show lt (0.5:ℝ) 0.5 = false
      simp [lt]
    simp [e1, e2]
  have hfin : finalize vm1 = .ok vm3 := by
    unfold finalize
    simp only [bind, Except.bind, pure, Except.pure, hvm3, g2, g3, g4, hchk, g1]
  refine ⟨vm3, ?_, g5⟩
  unfold configure
  have hp : (numberLib ieeeSpecial specialLib).parseArgs ["--b-max=inf", "p", "p"] = .ok [("b-max", ["inf"]), ("projectile", ["p"]), ("projectile", ["p"])] := special_cli
  have hw : withConfigFiles (numberLib ieeeSpecial specialLib) exEnv exCacheEnv fs vm1 = .ok vm1 := by
    unfold withConfigFiles
    simp [c4]
  simp only [hp, hvm1, c1, c2, c3, Bool.false_eq_true, if_false, hw, hfin]

/-- `trento --b-max=inf p p` never ends successfully (example for `C110_special_runs`; the file system, the cache and the random sequence are arbitrary). -/
example [NumFmt XReal] [Toms748 XReal] (fu : Fuel) (h5view : FS XReal → String → H5View XReal) (ev0 : (n : Nat) → Event XReal n) (W : World XReal) (r : Rand Tape Unit) (W' : World XReal)
    (err : List Char) :
    mainProg (numberLib ieeeSpecial specialLib) exEnv exCacheEnv fu h5view ev0 ["--b-max=inf", "p", "p"] W r ≠ (.status 0, W', err) := by
  obtain ⟨vm, h, hN⟩ := special_configure W.fs
  obtain ⟨cmd, paths, files, h1, -, h3⟩ := C110_special_runs specialLib exEnv exCacheEnv fu h5view ev0 _ W r vm h hN (by norm_num)
  refine h3 "inf" (.inl ⟨?_, .inr ?_⟩) W' err
  · rw [special_cli] at h1
    cases h1
    rfl
  · exact ((C110_texts "inf").2.1 false).mp rfl

end Trento
