import Verif.Props.Witnesses
import Verif.Props.ConcurrentCache
import Verif.Props.MonteCarloSample

/-!
# Concrete cases: the cache, the command line, the Monte Carlo fit
-/

namespace Trento
open Spec

/-! ## The cache -/

/-- the cache holds one record, for one constituent -/
theorem ex_lookup_none : Spec.lookup [exRecord] (⟨3, 0.5, 0.4, 6.4⟩ : CacheKey ℝ) = none := by
  have hf : ¬ Spec.Fits ⟨3, 0.5, 0.4, 6.4⟩ exRecord := fun h => by have := h.1; simp [exRecord] at this
  unfold Spec.lookup
  classical
  rw [List.find?_cons_of_neg (by simpa using hf)]
  rfl

theorem ex_lookup_some : Spec.lookup [exRecord] (⟨1, 0.5, 0.5, 6.4⟩ : CacheKey ℝ) = some ((9.251482 : ℚ) : ℝ) := by
  have hf : Spec.Fits ⟨1, 0.5, 0.5, 6.4⟩ exRecord := by
    refine ⟨rfl, ?_, ?_, ?_⟩ <;> simp only [exRecord] <;> norm_num
  unfold Spec.lookup
  classical
  rw [List.find?_cons_of_pos (by exact decide_eq_true hf)]
  rfl

/-- C50, C66: the stored value is returned without a fit and without a random number; other parameters are fitted and added. -/
example (r : Rand Tape Unit) :
    partonicCrossSection exEnv exCacheEnv 5 ⟨1, 0.5, 0.5, 6.4⟩ (fun r => (.error (.ub "not called"), r)) exFs r = (.ok ((9.251482 : ℚ) : ℝ), exFs, r) ∧
    ∃ rec fs', partonicCrossSection exEnv exCacheEnv 5 ⟨3, 0.5, 0.4, 6.4⟩ (fun r => (.ok (5/2), r)) exFs r = (.ok (5/2 : ℝ), fs', r) ∧
      CacheState exEnv exCacheEnv fs' [exRecord, rec] := by
  refine ⟨C66_cache_answers exEnv exCacheEnv exCache_state (by simp) _ _ ex_lookup_some 5 (by simp) _ r, ?_⟩
  obtain ⟨rec, fs', h1, h2, -⟩ := ((C50_lookup exEnv exCacheEnv exCache_state (by simp) ⟨3, 0.5, 0.4, 6.4⟩ (fun r => (.ok (5/2), r)) r 5 (by simp)).2 ex_lookup_none).2 (5/2) r rfl exCacheable
  exact ⟨rec, fs', h1, h2⟩

/-- C51: after the first run with these parameters, the same value (to six digits) however many other runs follow. -/
example (r : Rand Tape Unit) (runs : List (CacheRun Tape Unit)) (hr : ∀ q ∈ runs, q.Ok) (fuel' : ℕ) (hf : runs.length + 2 ≤ fuel') :
    ∃ fs1, partonicCrossSection exEnv exCacheEnv 5 ⟨3, 0.5, 0.4, 6.4⟩ (fun r => (.ok (5/2), r)) exFs0 r = (.ok (5/2 : ℝ), fs1, r) ∧
      ∃ c : ℝ, |c - 5/2| ≤ 5e-7 * |5/2| ∧ ∀ (fit : Rand Tape Unit → Res ℝ × Rand Tape Unit) (q : Rand Tape Unit),
        partonicCrossSection exEnv exCacheEnv fuel' ⟨3, 0.5, 0.4, 6.4⟩ fit (afterRuns exEnv exCacheEnv fuel' runs fs1) q = (.ok c, afterRuns exEnv exCacheEnv fuel' runs fs1, q) := by
  obtain ⟨rec, fs1, h, -⟩ := C50_first_run exEnv exCacheEnv exNoCache ⟨3, 0.5, 0.4, 6.4⟩ (fun r => (.ok (5/2), r)) r r 5 (5/2) rfl exCacheable
  refine ⟨fs1, h, ?_⟩
  obtain ⟨c, h1, h2⟩ := C51_stable exEnv exCacheEnv exFs0 fs1 (⟨⟨3, 0.5, 0.4, 6.4⟩, fun r => (.ok (5/2), r), r⟩ : CacheRun Tape Unit)
    (by intro sp r' he; cases he; exact exCacheable) [] (.inl ⟨exNoCache, rfl⟩) 5 (5/2) r h (by simp)
  exact ⟨c, h1, fun fit q => h2 runs hr fuel' (by simpa using hf) fit q⟩

theorem roundEven_of_near {x : ℝ} {k : ℕ} (h : |(k:ℝ) - x| < 1/2) (h0 : 0 ≤ x) : (roundEven x).toNat = k := by
  have h1 := abs_round_toNat_sub h0
  generalize (roundEven x).toNat = m at h1
  have : |(m:ℝ) - k| < 1 := by
    rw [abs_lt] at h ⊢; rw [abs_le] at h1; constructor <;> linarith
  have h2 : |((m:ℤ) - (k:ℤ) : ℤ)| < 1 := by exact_mod_cast this
  rw [Int.abs_lt_one_iff] at h2; omega

theorem fmt_five_halves : fmtSci 6 (5/2 : ℝ) = "2.500000e+00".toList := by
  have hs : signChars (5/2) = [] := by unfold signChars; rw [if_neg (by norm_num)]
  unfold fmtSci
  rw [sciParts_of_range _ (by norm_num) (by norm_num), hs, roundEven_of_near (k := 2500000) (by norm_num) (by norm_num)]
  decide +kernel

/-- C52: killed after `2` of `2.500000e+00` has been written, the next run with the same parameters takes 2. -/
example (r : Rand Tape Unit) : ∃ fs' t, Killed exEnv exCacheEnv 5 ⟨3, 0.5, 0.4, 6.4⟩ (fun r => (.ok (5/2), r)) exFs r fs' t ∧
    ∀ (fit' : Rand Tape Unit → Res ℝ × Rand Tape Unit) (q : Rand Tape Unit), partonicCrossSection exEnv exCacheEnv 5 ⟨3, 0.5, 0.4, 6.4⟩ fit' fs' q = (.ok (((2:ℚ)) : ℝ), fs', q) := by
  have h : "2".toList <+: fmtSci 6 (5/2 : ℝ) := by rw [fmt_five_halves]; exact ⟨".500000e+00".toList, rfl⟩
  exact C52_torn_value exEnv exCacheEnv exCache_state (by simp) _ ex_lookup_none _ r r (5/2) rfl exCacheable 5 (by simp) "2".toList h 2 (by decide +kernel)

/-- C52: the first record of the cache is found after any crash. -/
example (r : Rand Tape Unit) (fs' : FS ℝ) (t : List Char) (h : Killed exEnv exCacheEnv 5 ⟨3, 0.5, 0.4, 6.4⟩ (fun r => (.ok (5/2), r)) exFs r fs' t)
    (fit' : Rand Tape Unit → Res ℝ × Rand Tape Unit) (q : Rand Tape Unit) :
    partonicCrossSection exEnv exCacheEnv 2 ⟨1, 0.5, 0.5, 6.4⟩ fit' fs' q = (.ok ((9.251482 : ℚ) : ℝ), fs', q) :=
  (C52_crash exEnv exCacheEnv exCache_state ⟨3, 0.5, 0.4, 6.4⟩ (fun r => (.ok (5/2), r)) r 5).2.2.2 fs' t h _ _ ex_lookup_some fit' q 2 (by simp)

/-- C52: the same widths with three constituents; killed before the value, the next run takes the value for one constituent. -/
example (r : Rand Tape Unit) : ∃ fs' t, Killed exEnv exCacheEnv 5 ⟨3, 0.5, 0.5, 6.4⟩ (fun r => (.ok (5/2), r)) exFs r fs' t ∧
    ∀ (fit' : Rand Tape Unit → Res ℝ × Rand Tape Unit) (q : Rand Tape Unit), partonicCrossSection exEnv exCacheEnv 5 ⟨3, 0.5, 0.5, 6.4⟩ fit' fs' q = (.ok ((9.251482 : ℚ) : ℝ), fs', q) :=
  C52_torn_write exEnv exCacheEnv exCache_state ⟨3, 0.5, 0.5, 6.4⟩ (by simp [exRecord]) (by simp only [exRecord]; norm_num) (by simp only [exRecord]; norm_num)
    (by simp only [exRecord]; norm_num) _ r r (5/2) rfl 5 (by norm_num)

/-- C52: a first run killed before it has written anything leaves an empty file. -/
example (r : Rand Tape Unit) : ∃ fs' : FS ℝ, ∀ (key' : CacheKey ℝ) (fit' : Rand Tape Unit → Res ℝ × Rand Tape Unit) (q : Rand Tape Unit),
    ∃ msg, partonicCrossSection exEnv exCacheEnv 5 key' fit' fs' q = (.error (.ub msg), fs', q) := by
  obtain ⟨fs', -, -, h⟩ := C52_empty_cache_ub exEnv exCacheEnv exNoCache ⟨3, 0.5, 0.4, 6.4⟩ (fun r => (.ok (5/2), r)) r 5
  exact ⟨fs', fun key' fit' q => h key' fit' q 4⟩

/-- C53: the searches in the example cache; the file with a comment. -/
example : searchCache (⟨3, 0.5, 0.4, 6.4⟩ : CacheKey ℝ) 2 {} { rest := exCacheText } = .ok none ∧
    ∀ fuel, searchCache (⟨3, 0.5, 0.4, 6.4⟩ : CacheKey ℝ) fuel {} { rest := exCacheText ++ "# comment\n".toList } = .error .fuel := by
  obtain ⟨d, -, -, -, -, t, ht, hc, hb⟩ := exCache_state
  have hc' : CacheContent exCacheText [exRecord] := by
    refine ⟨[["1".toList, "0.500000".toList, "0.500000".toList, "6.400000".toList, "9.251482e+00".toList]], by decide, ?_⟩
    refine .cons ⟨_, _, _, _, _, rfl, ?_, ?_, ?_, ?_, ?_⟩ .nil
    all_goals decide +kernel
  have hb' : EndsBlank exCacheText := .inr ⟨"1     0.500000  0.500000  6.400000  9.251482e+00".toList, '\n', by decide, by decide⟩
  refine ⟨?_, fun fuel => ?_⟩
  · rw [(C53_well_formed _ hc' (by simp)).2 2 (by simp), ex_lookup_none]
  · exact C53_garbage_never_ends _ hc' hb' (fun h => by have := h.1; simp [exRecord] at this) (by norm_num) fuel

/-- C73: two programs at the same time, one whose parameters are in the cache and one whose are not. -/
noncomputable def exProcs (r : Rand Tape Unit) : Bool → CacheProc ℝ Tape Unit := fun b => ⟨if b then ⟨1, 0.5, 0.5, 6.4⟩ else ⟨3, 0.5, 0.4, 6.4⟩, fun r => (.ok (5/2), r), r, .start⟩

theorem exProcs_ok (r : Rand Tape Unit) (i : Bool) : ProcOk (exProcs r i) := by
  intro sp r' h
  cases h
  cases i with
  | true =>
    have := exCacheable
    exact ⟨by norm_num [exProcs], by norm_num [exProcs], by norm_num [exProcs], by norm_num, this.sp_range⟩
  | false => exact exCacheable

example (r : Rand Tape Unit) (sched : List Bool) :
    ∃ more, CacheState exEnv exCacheEnv (cacheSchedule exEnv exCacheEnv (sched.length + 2) sched (exProcs r) exFs).2 ([exRecord] ++ more) := by
  obtain ⟨more, h, -⟩ := C73_concurrent_cache exEnv exCacheEnv (exProcs r) (fun i => by cases i <;> rfl) (exProcs_ok r) sched exCache_state (by simp) (sched.length + 2) (by simp; omega)
  exact ⟨more, h⟩

example (r : Rand Tape Unit) : ∃ msg, ((cacheSchedule exEnv exCacheEnv 5 [true, true, true, false, false] (exProcs r) exFs0).1 false).pc = .done (.error (.ub msg)) :=
  C73_first_runs_ub exEnv exCacheEnv (exProcs r) (fun i => by cases i <;> rfl) exNoCache true false (by decide) 4

/-! ## The command line -/

section
variable {F : Type} [Arith F] {E D : Type} [NumFmt F] [Toms748 F] [Rng F E D]
variable (L : Lib F) (env : OsEnv) (ce : CacheEnv) (fu : Fuel) (h5view : FS F → String → H5View F) (ev0 : (n : Nat) → Event F n) (W : World F) (r : Rand E D)

/-- C107: `Pb --b-ma=5 Pb …` and `--b-max 5 Pb Pb …` are the same. -/
example : mainProg (boostLib L) env ce fu h5view ev0 ["Pb", "--b-ma=5", "Pb", "-q", "-p", "-1", "--output", "run", "10"] W r =
      mainProg (boostLib L) env ce fu h5view ev0 ["--b-ma=5", "Pb", "Pb", "-q", "-p", "-1", "--output", "run", "10"] W r ∨
    ∃ err err', err ≠ [] ∧ err' ≠ [] ∧ mainProg (boostLib L) env ce fu h5view ev0 ["Pb", "--b-ma=5", "Pb", "-q", "-p", "-1", "--output", "run", "10"] W r = (.status 1, W, err) ∧
      mainProg (boostLib L) env ce fu h5view ev0 ["--b-ma=5", "Pb", "Pb", "-q", "-p", "-1", "--output", "run", "10"] W r = (.status 1, W, err') := by
  have h := example_spelled
  have h' : List.Forall₂ Spelled
      [.setting optBmax "5", .argument "Pb", .argument "Pb", .flag optQuiet, .setting optP "-1", .setting optOutput "run", .argument "10"]
      [["--b-ma=5"], ["Pb"], ["Pb"], ["-q"], ["-p", "-1"], ["--output", "run"], ["10"]] := by
    obtain ⟨a, h⟩ := List.forall₂_cons.mp h
    obtain ⟨b, h⟩ := List.forall₂_cons.mp h
    exact .cons b (.cons a h)
  exact C107_order L env ce fu h5view ev0 W r _ _ example_reordered _ _ h h'

/-- C107: `trento Pb --b-ma=5 Pb … --outp` exits with status 1. -/
example : ∃ err, err ≠ [] ∧ mainProg (boostLib L) env ce fu h5view ev0 (["Pb", "--b-ma=5", "Pb", "-q", "-p", "-1", "--output", "run", "10"] ++ ["--outp"]) W r = (.status 1, W, err) :=
  C107_mistakes L env ce fu h5view ev0 W r _ _ example_spelled _ (.inl example_mistakes.2.2.2.2.1)

/-- C107: `-qp1` is `-q -p1`. -/
example : cliParse F (["Pb", "--b-ma=5", "Pb", "-q", "-p", "-1", "--output", "run", "10"] ++ ["-qp1", "x"]) =
    cliParse F (["Pb", "--b-ma=5", "Pb", "-q", "-p", "-1", "--output", "run", "10"] ++ ["-q", "-p1", "x"]) :=
  C107_groups F _ _ example_spelled optQuiet (by decide) rfl 'q' rfl 'p' (by decide) ['1'] ["x"]

end

/-- C108: the run of the example; a broken config file instead. -/
example : ∃ vm : VarMap ℝ, configure (boostLib (demoLib [])) exEnv exCacheEnv (demoFs false) demoWords.flatten = .ok (.run vm) ∧
    ∀ d ∈ configOpts, d.name ≠ "constit-width" → Takes (boostLib (demoLib [])) d [demoCmd [], demoFile] (vm.vals d.name) := by
  obtain ⟨vm, h⟩ := demo_boost_configure
  refine ⟨vm, h, ?_⟩
  exact (C108_values (demoLib []) exEnv exCacheEnv (demoFs false) demoItems demoWords demo_spelled (demoCmd []) demo_meaning ["trento.conf"] (.cons rfl .nil) [[("nucleon-width", "2"), ("b-max", "1")]]
    (.cons demo_config .nil) vm h).2.1

def brokenFs : FS ℝ := fun p => if p = ["trento.conf"] then some (.file (.text "quiet".toList)) else none

example (vm : VarMap ℝ) : configure (boostLib (demoLib [])) exEnv exCacheEnv brokenFs demoWords.flatten ≠ .ok (.run vm) :=
  C108_broken (demoLib []) exEnv exCacheEnv brokenFs _ (demoCmd []) ((C107_spellings ℝ _ _ demo_spelled []).1.trans rfl) "trento.conf" "trento.conf"
    (by simp [demoCmd, givenIn]) rfl example_broken.1 vm

/-! ## The Monte Carlo cross section -/

/-- C54, C75: with parameter 0 every run returns, a little less than the mean, here a negative number. -/
example (r : Rand Tape Unit) : ∃ x ps r', (MonteCarlo.make (1/2:ℝ) (1/4) 3).run mcConst 0 r = .ok (x, ps, r') ∧ 10002 < ps.length ∧ x < monteCarloMean (6 * (1/2)) ps ∧
    (∀ p ∈ ps, ∃ (u : ℝ) (as bs : List (ℝ × ℝ)), 0 ≤ u ∧ u < 1 ∧ as.length = 3 ∧ bs.length = 3 ∧
      p = Real.exp (-0 * overlapTAB (1/4) 3 (atPoints (6 * (1/2) * Real.sqrt u) as) (atPoints 0 bs))) := by
  obtain ⟨x, ps, r', h, -⟩ := C54_negative (E := Tape) (D := Unit) (1/2) (1/4) (by norm_num) (by norm_num) 3 r
  exact ⟨x, ps, r', h, (C54_estimate _ _ _ _ le_rfl _ _ _ _ h).1, C54_biased _ _ (by norm_num) _ _ le_rfl _ _ _ _ h, C75_samples _ _ _ _ _ _ _ _ h⟩

end Trento
