import Verif.Props.Cache

/-! # C52: the cross section cache after crashes and failed fits -/

namespace Trento
open Spec
set_option linter.unusedSectionVars false

/-- The file systems a run of `partonic_cross_section` (src/nucleon.cxx:174-244) may leave behind when the process is killed in
it: at any point between two operations on the file system, or while the characters of the record are transferred (any prefix
of them may have reached the file). -/
inductive Spec.Killed {E D : Type} (env : OsEnv) (ce : CacheEnv) (fuel : ℕ) (key : CacheKey ℝ) (fit : Rand E D → Res ℝ × Rand E D)
    (fs : FS ℝ) (r : Rand E D) : FS ℝ → List Char → Prop
  /-- before anything happened -/
  | start : Killed env ce fuel key fit fs r fs []
  /-- after `create_directory`, before the file is opened for appending (also while searching) -/
  | created {d fs1} : cacheDir ce = .ok d → FS.createDir env d fs = (.ok (), fs1) → Killed env ce fuel key fit fs r fs1 []
  /-- after the file was opened for appending, nothing found: during the fit -/
  | opened {d fs1} : cacheDir ce = .ok d → FS.createDir env d fs = (.ok (), fs1) →
      (if fs1.exists (d ++ ["cross_section.cache"]) then searchCache key fuel {} (openRead ce fs1 (d ++ ["cross_section.cache"])) else .ok none)
        = .ok none →
      Killed env ce fuel key fit fs r (openAppend env (d ++ ["cross_section.cache"]) fs1) []
  /-- after the fit, when the characters `t` of the record have reached the file -/
  | writing {d fs1 sp r' t} : cacheDir ce = .ok d → FS.createDir env d fs = (.ok (), fs1) →
      (if fs1.exists (d ++ ["cross_section.cache"]) then searchCache key fuel {} (openRead ce fs1 (d ++ ["cross_section.cache"])) else .ok none)
        = .ok none →
      fit r = (.ok sp, r') → t <+: (writeRecord key sp {}).out →
      Killed env ce fuel key fit fs r
        (appendText env (d ++ ["cross_section.cache"]) t (openAppend env (d ++ ["cross_section.cache"]) fs1)) t

section
variable {E D : Type}

theorem FS.set_node (fs : FS ℝ) (p : Path) (n : Node ℝ) (h : fs p = some n) : fs.set p n = fs := by
  funext q
  unfold FS.set
  by_cases hq : q = p
  · rw [if_pos hq, hq, h]
  · rw [if_neg hq]

/-- The search finds the first fitting record, whatever comes after the records. -/
theorem searchCache_prefix (key : CacheKey ℝ) (recs : List CacheRecord) (r : CacheRecord) (hfind : recs.find? (fitsB key) = some r) :
    ∀ (text : List Char) (wss : List (List (List Char))) (tail : List (List Char)) (x : CacheVars ℝ) (fuel : ℕ),
      words text = wss.flatten ++ tail → List.Forall₂ RecordWords wss recs → recs.length ≤ fuel →
      searchCache key fuel x { rest := text } = .ok (some (r.sp : ℝ)) := by
  induction recs with
  | nil => cases hfind
  | cons r1 recs ih =>
    intro text wss tail x fuel hw hr hf
    obtain ⟨fuel, rfl⟩ : ∃ k, fuel = k + 1 := ⟨fuel - 1, by simp at hf; omega⟩
    cases hr with
    | cons h1 h2 =>
      rename_i ws wss
      obtain ⟨t, ht1, ht2⟩ := readRecord_record (F := ℝ) x h1 (rest := wss.flatten ++ tail) (by rw [hw]; simp)
      rw [searchCache]
      simp only [Bool.false_eq_true, if_false, ht1, matchRecord_vars]
      rw [List.find?_cons] at hfind
      cases hfit : fitsB key r1 with
      | true =>
        rw [hfit] at hfind
        injection hfind with hfind
        subst hfind
        rfl
      | false =>
        rw [hfit] at hfind
        simp only [Bool.false_eq_true, if_false]
        have hne : t.isEmpty = false := by
          cases t with
          | nil =>
            cases h2 with
            | nil => cases hfind
            | cons h3 h4 =>
              obtain ⟨a, b, c, d, e, rfl, -⟩ := h3
              simp [words, wordsFrom] at ht2
          | cons c t => rfl
        rw [hne]
        exact ih hfind t wss tail (varsOf r1) fuel ht2 h2 (by simp at hf; omega)

/-- **C52, existing cache.** If the cache file exists with at least one record and the run is killed at any point before a
character of its record has reached the file (before and during the search, at any time in the fit), or the fit fails, the
file system is unchanged: every later run behaves as if the interrupted one had not happened.  If all characters of the record have
reached the file, every later run behaves as after a complete run.  And wherever the run is killed — also while the record
is transferred — every later run with parameters for which the cache held a value gets this value and leaves everything as it
is. -/
theorem C52_crash (env : OsEnv) (ce : CacheEnv) {fs : FS ℝ} {recs : List CacheRecord} (hs : CacheState env ce fs recs)
    (key : CacheKey ℝ) (fit : Rand E D → Res ℝ × Rand E D) (r : Rand E D) (fuel : ℕ) :
    (∀ fs', Killed env ce fuel key fit fs r fs' [] → fs' = fs) ∧
    (∀ e fs' r', partonicCrossSection env ce fuel key fit fs r = (.error e, fs', r') → fs' = fs) ∧
    (∀ fs' t sp r', Killed env ce fuel key fit fs r fs' t → fit r = (.ok sp, r') → t = recordText key sp →
      partonicCrossSection env ce fuel key fit fs r = (.ok sp, fs', r')) ∧
    (∀ fs' t, Killed env ce fuel key fit fs r fs' t → ∀ key' c, lookup recs key' = some c →
      ∀ (fit' : Rand E D → Res ℝ × Rand E D) (q : Rand E D) (fuel' : ℕ), recs.length + 1 ≤ fuel' →
        partonicCrossSection env ce fuel' key' fit' fs' q = (.ok c, fs', q)) := by
  obtain ⟨d, hd, hdir, hopen, hread, t, ht, hc, hb⟩ := hs.dir
  have hcreate : FS.createDir env d fs = (.ok (), fs) := by unfold FS.createDir; rw [hdir]
  have hcan : fs.canOpen env (d ++ ["cross_section.cache"]) = true := by
    unfold FS.canOpen
    rw [hopen, dropLast_concat_path]
    simp [FS.isDir, hdir, ht]
  have happ : openAppend env (d ++ ["cross_section.cache"]) fs = fs := by
    unfold openAppend; rw [if_pos hcan, ht]
  refine ⟨?_, ?_, ?_, ?_⟩
  · intro fs' hk
    cases hk with
    | start => rfl
    | created h1 h2 =>
      rw [hd] at h1; cases h1; rw [hcreate] at h2; cases h2; rfl
    | opened h1 h2 h3 =>
      rw [hd] at h1; cases h1; rw [hcreate] at h2; cases h2; exact happ
    | writing h1 h2 h3 h4 h5 =>
      rw [hd] at h1; cases h1; rw [hcreate] at h2; cases h2
      rw [happ]
      unfold appendText
      rw [if_pos hcan, ht]
      simp only [List.append_nil]
      exact FS.set_node _ _ _ ht
  · intro e fs' r' h
    unfold partonicCrossSection at h
    simp only [hd, hcreate, happ] at h
    split at h
    · simp only [Prod.mk.injEq] at h; exact h.2.1.symm
    · simp only [Prod.mk.injEq] at h; exact h.2.1.symm
    · cases hfit : fit r with
      | mk res r' =>
        cases res with
        | error e => simp only [hfit, Prod.mk.injEq] at h; exact h.2.1.symm
        | ok sp => simp only [hfit, Prod.mk.injEq] at h; cases h.1
  · intro fs' t' sp r' hk hfit ht'
    have hne : recordText key sp ≠ [] := by unfold recordText; simp [intDigits_ne_nil]
    cases hk with
    | start => exact absurd ht'.symm hne
    | created h1 h2 => exact absurd ht'.symm hne
    | opened h1 h2 h3 => exact absurd ht'.symm hne
    | writing h1 h2 h3 h4 h5 =>
      rw [hd] at h1; cases h1; rw [hcreate] at h2; cases h2
      rw [hfit] at h4; cases h4
      unfold partonicCrossSection
      simp only [hd, hcreate, happ, hfit]
      rw [h3]
      simp only [writeRecord_eq, ht']
  · intro fs' t' hk key' c hl fit' q fuel' hf'
    obtain ⟨rec, hrec, hsp⟩ : ∃ rec, recs.find? (fitsB key') = some rec ∧ (rec.sp : ℝ) = c := by
      rw [← lookup_eq, Option.map_eq_some_iff] at hl
      exact hl
    have hnn : d ≠ d ++ ["cross_section.cache"] := by
      intro h; have := congrArg List.length h; simp at this
    -- in every case characters were appended to the file, possibly none
    have happended : fs' = fs.set (d ++ ["cross_section.cache"]) (.file (.text (t ++ t'))) := by
      cases hk with
      | start => rw [List.append_nil, FS.set_node _ _ _ ht]
      | created h1 h2 =>
        rw [hd] at h1; cases h1; rw [hcreate] at h2; cases h2
        rw [List.append_nil, FS.set_node _ _ _ ht]
      | opened h1 h2 h3 =>
        rw [hd] at h1; cases h1; rw [hcreate] at h2; cases h2
        rw [happ, List.append_nil, FS.set_node _ _ _ ht]
      | writing h1 h2 h3 h4 h5 =>
        rw [hd] at h1; cases h1; rw [hcreate] at h2; cases h2
        rw [happ]
        unfold appendText
        rw [if_pos hcan, ht]
    have hdir' : fs' d = some .dir := by rw [happended]; unfold FS.set; rw [if_neg hnn]; exact hdir
    have ht' : fs' (d ++ ["cross_section.cache"]) = some (.file (.text (t ++ t'))) := by
      rw [happended]; unfold FS.set; rw [if_pos rfl]
    have hcreate' : FS.createDir env d fs' = (.ok (), fs') := by unfold FS.createDir; rw [hdir']
    have hex' : fs'.exists (d ++ ["cross_section.cache"]) = true := by simp [FS.exists, ht']
    have hor' : openRead ce fs' (d ++ ["cross_section.cache"]) = { rest := t ++ t' } := by unfold openRead; rw [ht']; simp [hread]
    obtain ⟨wss, hw, hrr⟩ := hc
    have hse := searchCache_prefix key' recs rec hrec (t ++ t') wss (words t') {} fuel'
      (by rw [words_append_of_blank_end _ _ hb, hw]) hrr (by omega)
    unfold partonicCrossSection
    simp only [hd, hcreate', hex', if_true, hor', hse, hsp]

/-- The text of a record up to the characters `p` of the fitted value is a record with the value `p` says. -/
theorem tornText_content {key : CacheKey ℝ} {sp : ℝ} (h : Cacheable key sp) (p : List Char) (hp : p <+: fmtSci 6 sp) (c : ℚ)
    (hc : numberOf p = some c) :
    ∃ t, t <+: recordText key sp ∧ ∃ r : CacheRecord, r.sp = c ∧ Fits key r ∧ CacheContent t [r] := by
  obtain ⟨qw, hw1, hw2⟩ := numberOf_fmtFixed 6 key.w
  obtain ⟨qv, hv1, hv2⟩ := numberOf_fmtFixed 6 key.v
  obtain ⟨qs, hs1, hs2⟩ := numberOf_fmtFixed 6 key.s
  have hlen : ∀ x : ℝ, 0 ≤ x ∧ x < 99.999999 → (fmtFixed 6 x).length < 10 := by
    intro x hx
    have := fmtFixed_length_le (p := 6) (k := 2) (by norm_num) (by norm_num) hx.1 (by have := hx.2; norm_num at this ⊢; linarith)
    omega
  have hsp : (fmtSci 6 sp).length < 14 := by
    have := fmtSci_length_le (p := 6) (k := 3) (by norm_num) h.sp_nonneg (by norm_num) (by
      apply sciParts_exp_lt 6 (10 ^ 3) _ (by norm_num)
      rcases h.sp_range with h0 | ⟨h1, h2⟩
      · exact Or.inl h0
      · right; rw [abs_of_nonneg h.sp_nonneg]; norm_num at h1 h2 ⊢; exact ⟨h1, h2⟩)
    omega
  have hpne : p ≠ [] := by
    rintro rfl
    have : numberOf [] = none := by decide
    rw [this] at hc; cases hc
  have hpns : ∀ ch ∈ p, isSpace ch = false := fun ch hch => fmt_not_space .scientific 6 sp ch (hp.subset hch)
  set blanks := List.replicate (14 - (fmtSci 6 sp).length) ' ' with hbl
  have hpad : padTo 14 (fmtSci 6 sp) = blanks ++ fmtSci 6 sp := rfl
  refine ⟨intDigits key.m ++ (List.replicate (4 - (intDigits key.m).length) ' ' ++ (padTo 10 (fmtFixed 6 key.w) ++
    (padTo 10 (fmtFixed 6 key.v) ++ (padTo 10 (fmtFixed 6 key.s) ++ (blanks ++ p))))), ?_, ⟨key.m, qw, qv, qs, c⟩, rfl, ?_, ?_⟩
  · obtain ⟨rest, hrest⟩ := hp
    refine ⟨rest ++ ['\n'], ?_⟩
    unfold recordText
    rw [hpad, ← hrest]
    simp
  · refine ⟨rfl, ?_, ?_, ?_⟩ <;> rw [abs_sub_comm]
    · refine lt_of_le_of_lt hw2 (by norm_num)
    · refine lt_of_le_of_lt hv2 (by norm_num)
    · refine lt_of_le_of_lt hs2 (by norm_num)
  · refine ⟨[[intDigits key.m, fmtFixed 6 key.w, fmtFixed 6 key.v, fmtFixed 6 key.s, p]], ?_, ?_⟩
    · have wf : ∀ (k : ℕ) (x : ℝ) (t : List Char), (∀ c ∈ t.head?, isSpace c = true) →
          words (padTo k (fmtFixed 6 x) ++ t) = fmtFixed 6 x :: words t :=
        fun k x t ht => words_padTo (fmt_ne_nil .fixed 6 x) (fmt_not_space .fixed 6 x) ht
      have hb : ∀ c ∈ List.replicate (4 - (intDigits key.m).length) ' ', isSpace c = true := by
        intro c hc; rw [List.eq_of_mem_replicate hc]; decide
      have hhead : ∀ t : List Char, ∀ c ∈ (List.replicate (4 - (intDigits key.m).length) ' ' ++ (padTo 10 (fmtFixed 6 key.w) ++ t)).head?,
          isSpace c = true := by
        intro t c hc
        cases hk : 4 - (intDigits key.m).length with
        | zero => rw [hk] at hc; exact padTo_head (hlen _ h.w) c hc
        | succ k => rw [hk, List.replicate_succ] at hc; simp at hc; rw [← hc]; decide
      have hbb : ∀ ch ∈ blanks, isSpace ch = true := by
        intro ch hch; rw [List.eq_of_mem_replicate hch]; decide
      have hbh : ∀ ch ∈ (blanks ++ p).head?, isSpace ch = true := by
        intro ch hch
        obtain ⟨k, hk⟩ : ∃ k, 14 - (fmtSci 6 sp).length = k + 1 := ⟨13 - (fmtSci 6 sp).length, by omega⟩
        rw [hbl, hk, List.replicate_succ] at hch
        simp at hch; rw [← hch]; decide
      have hlast : words (blanks ++ p) = [p] := by
        rw [words_blanks hbb]
        have := words_word (w := p) (s := []) hpne hpns (by intro c hc; cases hc)
        rw [List.append_nil] at this
        rw [this]; rfl
      rw [words_word (intDigits_ne_nil _) (intDigits_not_space _) (hhead _), words_blanks hb,
        wf _ _ _ (padTo_head (hlen _ h.v)), wf _ _ _ (padTo_head (hlen _ h.s)), wf _ _ _ hbh, hlast]
      rfl
    · exact .cons ⟨_, _, _, _, _, rfl, intOf_intDigits _, hw1, hv1, hs1, hc⟩ .nil

/-- What a kill while the record is written can do to the interrupted configuration itself: if only the characters `p` of the
fitted value have reached the file (say, the first digit), the next run with the same parameters takes the number `p` says as the
fitted value and does not notice. -/
theorem C52_torn_value (env : OsEnv) (ce : CacheEnv) {fs : FS ℝ} {recs : List CacheRecord} (hs : CacheState env ce fs recs)
    (hne : recs ≠ []) (key : CacheKey ℝ) (hl : lookup recs key = none) (fit : Rand E D → Res ℝ × Rand E D) (r r' : Rand E D) (sp : ℝ)
    (hfit : fit r = (.ok sp, r')) (hcb : Cacheable key sp) (fuel : ℕ) (hf : recs.length + 2 ≤ fuel)
    (p : List Char) (hp : p <+: fmtSci 6 sp) (c : ℚ) (hc : numberOf p = some c) :
    ∃ fs' t, Killed env ce fuel key fit fs r fs' t ∧
      ∀ (fit' : Rand E D → Res ℝ × Rand E D) (q : Rand E D), partonicCrossSection env ce fuel key fit' fs' q = (.ok (c : ℝ), fs', q) := by
  obtain ⟨d, hd, hdir, hopen, hread, t, ht, hct, hb⟩ := hs.dir
  have hnn : d ≠ d ++ ["cross_section.cache"] := by
    intro h; have := congrArg List.length h; simp at this
  have hcreate : FS.createDir env d fs = (.ok (), fs) := by unfold FS.createDir; rw [hdir]
  have hex : fs.exists (d ++ ["cross_section.cache"]) = true := by simp [FS.exists, ht]
  have hor : openRead ce fs (d ++ ["cross_section.cache"]) = { rest := t } := by unfold openRead; rw [ht]; simp [hread]
  have hcan : fs.canOpen env (d ++ ["cross_section.cache"]) = true := by
    unfold FS.canOpen
    rw [hopen, dropLast_concat_path]
    simp [FS.isDir, hdir, ht]
  have happ : openAppend env (d ++ ["cross_section.cache"]) fs = fs := by
    unfold openAppend; rw [if_pos hcan, ht]
  obtain ⟨t2, hpre, rec, hrsp, hfits, hcont⟩ := tornText_content hcb p hp c hc
  have hsearch : searchCache key fuel {} { rest := t } = .ok none := by
    rw [search_lookup key hct hne fuel (by omega), hl]
  let fs' := fs.set (d ++ ["cross_section.cache"]) (.file (.text (t ++ t2)))
  have hfs' : appendText env (d ++ ["cross_section.cache"]) t2 fs = fs' := by
    unfold appendText; rw [if_pos hcan, ht]
  refine ⟨fs', t2, ?_, ?_⟩
  · rw [← hfs']
    have := Killed.writing (env := env) (ce := ce) (fuel := fuel) (key := key) (fit := fit) (fs := fs) (r := r) (t := t2)
      hd hcreate (by rw [if_pos hex, hor, hsearch]) hfit (by rw [writeRecord_eq]; exact hpre)
    rwa [happ] at this
  · intro fit' q
    have hdir' : fs' d = some .dir := by show FS.set _ _ _ _ = _; unfold FS.set; rw [if_neg hnn]; exact hdir
    have ht' : fs' (d ++ ["cross_section.cache"]) = some (.file (.text (t ++ t2))) := by
      show FS.set _ _ _ _ = _; unfold FS.set; rw [if_pos rfl]
    have hcreate' : FS.createDir env d fs' = (.ok (), fs') := by unfold FS.createDir; rw [hdir']
    have hex' : fs'.exists (d ++ ["cross_section.cache"]) = true := by simp [FS.exists, ht']
    have hor' : openRead ce fs' (d ++ ["cross_section.cache"]) = { rest := t ++ t2 } := by unfold openRead; rw [ht']; simp [hread]
    have hone : lookup [rec] key = some (c : ℝ) := by
      unfold lookup
      simp [hfits, hrsp]
    have hlook : lookup (recs ++ [rec]) key = some (c : ℝ) := by
      have hnone : recs.find? (fun r => @decide (Fits key r) (Classical.propDecidable _)) = none := by
        unfold lookup at hl
        rwa [Option.map_eq_none_iff] at hl
      unfold lookup at hone ⊢
      rw [List.find?_append, hnone]
      simpa using hone
    have hs' := search_lookup key (hct.append hb hcont) (by simp) fuel (by simp; omega)
    rw [hlook] at hs'
    unfold partonicCrossSection
    simp only [hd, hcreate', hex', if_true, hor', hs']

/-- The exception in C52, first runs: without a cache file, if the fit fails (or the process is killed in it) an empty cache
file is left behind, and every later run, with any parameters, uses uninitialised variables. -/
theorem C52_empty_cache_ub (env : OsEnv) (ce : CacheEnv) {fs : FS ℝ} (hs : NoCache env ce fs) (key : CacheKey ℝ)
    (fit : Rand E D → Res ℝ × Rand E D) (r : Rand E D) (fuel : ℕ) :
    ∃ fs', Killed env ce fuel key fit fs r fs' [] ∧
      (∀ e r', fit r = (.error e, r') → partonicCrossSection env ce fuel key fit fs r = (.error e, fs', r')) ∧
      ∀ (key' : CacheKey ℝ) (fit' : Rand E D → Res ℝ × Rand E D) (q : Rand E D) (fuel' : ℕ),
        ∃ msg, partonicCrossSection env ce (fuel' + 1) key' fit' fs' q = (.error (.ub msg), fs', q) := by
  obtain ⟨d, hd, hdir, hopen, hread, ht⟩ := hs.dir
  have hnn : d ≠ d ++ ["cross_section.cache"] := by
    intro h; have := congrArg List.length h; simp at this
  obtain ⟨fs1, hcreate, hdir1, ht1⟩ : ∃ fs1, FS.createDir env d fs = (.ok (), fs1) ∧ fs1 d = some .dir ∧
      fs1 (d ++ ["cross_section.cache"]) = none := by
    rcases hdir with hdir | ⟨h1, h2, h3, h4⟩
    · exact ⟨fs, by unfold FS.createDir; rw [hdir], hdir, ht⟩
    · refine ⟨fs.set d .dir, ?_, ?_, ?_⟩
      · unfold FS.createDir
        rw [h1]
        simp [h2, h3, h4]
      · unfold FS.set; rw [if_pos rfl]
      · unfold FS.set; rw [if_neg (Ne.symm hnn)]; exact ht
  have hex : fs1.exists (d ++ ["cross_section.cache"]) = false := by simp [FS.exists, ht1]
  have hcan : fs1.canOpen env (d ++ ["cross_section.cache"]) = true := by
    unfold FS.canOpen
    rw [hopen, dropLast_concat_path]
    simp [FS.isDir, hdir1, ht1]
  let fs2 := fs1.set (d ++ ["cross_section.cache"]) (.file (.text []))
  have happ : openAppend env (d ++ ["cross_section.cache"]) fs1 = fs2 := by
    unfold openAppend; rw [if_pos hcan, ht1]
  have hdir2 : fs2 d = some .dir := by show FS.set _ _ _ _ = _; unfold FS.set; rw [if_neg hnn]; exact hdir1
  have ht2 : fs2 (d ++ ["cross_section.cache"]) = some (.file (.text [])) := by
    show FS.set _ _ _ _ = _; unfold FS.set; rw [if_pos rfl]
  have hcreate2 : FS.createDir env d fs2 = (.ok (), fs2) := by unfold FS.createDir; rw [hdir2]
  have hex2 : fs2.exists (d ++ ["cross_section.cache"]) = true := by simp [FS.exists, ht2]
  have hor : openRead ce fs2 (d ++ ["cross_section.cache"]) = { rest := [] } := by unfold openRead; rw [ht2]; simp [hread]
  refine ⟨fs2, ?_, ?_, ?_⟩
  · rw [← happ]
    exact .opened hd hcreate (by simp [hex])
  · intro e r' hfit
    unfold partonicCrossSection
    simp only [hd, hcreate, hex, Bool.false_eq_true, if_false, happ, hfit]
  · intro key' fit' q fuel'
    obtain ⟨msg, hm⟩ := C53_empty_file_ub key' [] rfl fuel'
    refine ⟨msg, ?_⟩
    unfold partonicCrossSection
    simp only [hd, hcreate2, hex2, if_true, hor, hm]

/-- The exception in C52, torn records: after a record `rec` with other constituent number, the file
ends with the constituent number of the torn record only; then a run with that number and otherwise the parameters of `rec`
takes the value of `rec`, although no fit has ever been made for it. -/
theorem C52_torn_write (env : OsEnv) (ce : CacheEnv) {fs : FS ℝ} {rec : CacheRecord} (hs : CacheState env ce fs [rec])
    (key : CacheKey ℝ) (hm : key.m ≠ rec.m) (hw : |key.w - rec.w| < 1e-6) (hv : |key.v - rec.v| < 1e-6) (hss : |key.s - rec.s| < 1e-6)
    (fit : Rand E D → Res ℝ × Rand E D) (r r' : Rand E D) (sp : ℝ) (hfit : fit r = (.ok sp, r')) (fuel : ℕ) (hf : 2 ≤ fuel) :
    ∃ fs' t, Killed env ce fuel key fit fs r fs' t ∧
      ∀ (fit' : Rand E D → Res ℝ × Rand E D) (q : Rand E D), partonicCrossSection env ce fuel key fit' fs' q = (.ok (rec.sp : ℝ), fs', q) := by
  obtain ⟨d, hd, hdir, hopen, hread, t, ht, hc, hb⟩ := hs.dir
  have hnn : d ≠ d ++ ["cross_section.cache"] := by
    intro h; have := congrArg List.length h; simp at this
  have hcreate : FS.createDir env d fs = (.ok (), fs) := by unfold FS.createDir; rw [hdir]
  have hex : fs.exists (d ++ ["cross_section.cache"]) = true := by simp [FS.exists, ht]
  have hor : openRead ce fs (d ++ ["cross_section.cache"]) = { rest := t } := by unfold openRead; rw [ht]; simp [hread]
  have hcan : fs.canOpen env (d ++ ["cross_section.cache"]) = true := by
    unfold FS.canOpen
    rw [hopen, dropLast_concat_path]
    simp [FS.isDir, hdir, ht]
  have happ : openAppend env (d ++ ["cross_section.cache"]) fs = fs := by
    unfold openAppend; rw [if_pos hcan, ht]
  have hnofit : fitsB key rec = false := by
    rw [← Bool.not_eq_true, fitsB_real]; exact fun h => hm h.1
  have hsearch : searchCache key fuel {} { rest := t } = .ok none := by
    rw [searchCache_content key hc (by simp) fuel (by simpa using hf)]
    simp [hnofit]
  let t' := t ++ intDigits key.m
  let fs' := fs.set (d ++ ["cross_section.cache"]) (.file (.text t'))
  have hfs' : appendText env (d ++ ["cross_section.cache"]) (intDigits key.m) fs = fs' := by
    unfold appendText; rw [if_pos hcan, ht]
  refine ⟨fs', intDigits key.m, ?_, ?_⟩
  · rw [← hfs']
    have := Killed.writing (env := env) (ce := ce) (fuel := fuel) (key := key) (fit := fit) (fs := fs) (r := r) (t := intDigits key.m)
      hd hcreate (by rw [if_pos hex, hor, hsearch]) hfit (by rw [writeRecord_eq]; unfold recordText; exact List.prefix_append _ _)
    rwa [happ] at this
  · intro fit' q
    have hdir' : fs' d = some .dir := by show FS.set _ _ _ _ = _; unfold FS.set; rw [if_neg hnn]; exact hdir
    have ht' : fs' (d ++ ["cross_section.cache"]) = some (.file (.text t')) := by
      show FS.set _ _ _ _ = _; unfold FS.set; rw [if_pos rfl]
    have hcreate' : FS.createDir env d fs' = (.ok (), fs') := by unfold FS.createDir; rw [hdir']
    have hex' : fs'.exists (d ++ ["cross_section.cache"]) = true := by simp [FS.exists, ht']
    have hor' : openRead ce fs' (d ++ ["cross_section.cache"]) = { rest := t' } := by unfold openRead; rw [ht']; simp [hread]
    have hs' : searchCache key fuel {} { rest := t' } = .ok (some (rec.sp : ℝ)) := by
      obtain ⟨fuel, rfl⟩ : ∃ k, fuel = k + 2 := ⟨fuel - 2, by omega⟩
      obtain ⟨wss, hww, hrr⟩ := hc
      cases hrr with
      | cons h1 h2 =>
        cases h2
        rename_i ws
        have hw' : words t' = ws ++ [intDigits key.m] := by
          show words (t ++ _) = _
          rw [words_append_of_blank_end _ _ hb, hww]
          have : words (intDigits key.m) = [intDigits key.m] := by
            have := words_word (w := intDigits key.m) (s := []) (intDigits_ne_nil _) (intDigits_not_space _) (by intro c hc; cases hc)
            simpa [words, wordsFrom] using this
          rw [this]; simp
        obtain ⟨u, hu1, hu2⟩ := readRecord_record (F := ℝ) {} h1 hw'
        rw [searchCache]
        simp only [Bool.false_eq_true, if_false, hu1, matchRecord_vars, hnofit]
        have hune : u.isEmpty = false := by
          cases u with
          | nil => simp [words, wordsFrom] at hu2
          | cons c t => rfl
        rw [searchCache]
        simp only [hune, Bool.false_eq_true, if_false]
        obtain ⟨v, hv1, hv2⟩ := extract_word (0:ℤ) scanInt (fun s t ht => scanInt_append s ht) hu2 (intOf_scan (intOf_intDigits key.m))
        -- the rest of the file is blank
        have hrd : ∃ is', readRecord (varsOf (F := ℝ) rec) { rest := u } = (varsOf { rec with m := key.m }, is') := by
          unfold readRecord
          rw [hv1]
          cases v with
          | nil => exact ⟨{ rest := [], eof := true, fail := true }, by simp [extract_bad, varsOf]⟩
          | cons c v =>
            refine ⟨{ rest := [], eof := true, fail := true }, ?_⟩
            have hx : IStream.extract (lit 0 : ℝ) scanF { rest := c :: v } = (none, { rest := [], eof := true, fail := true }) :=
              extract_blank _ _ hv2
            simp only [List.isEmpty_cons, hx]
            simp [extract_bad, varsOf]
        obtain ⟨is', hrd⟩ := hrd
        have hfitB : fitsB key { rec with m := key.m } = true := by
          rw [fitsB_real]; exact ⟨rfl, hw, hv, hss⟩
        rw [hrd]
        simp only [matchRecord_vars, hfitB, if_true]
        rfl
    unfold partonicCrossSection
    simp only [hd, hcreate', hex', if_true, hor', hs']

end

/-! ## A concrete case

A home directory with a cache of one record, and one without cache. -/

/-- The environment: everything is permitted. -/
def exEnv : OsEnv := { resolve := fun s => [s], mkdirOk := fun _ => true, openOk := fun _ => true }
/-- `XDG_DATA_HOME=/data`. -/
def exCacheEnv : CacheEnv := { xdg := some ["data"], home := none, readOk := fun _ => true }
/-- A cache as the program writes it. -/
def exCacheText : List Char := "1     0.500000  0.500000  6.400000  9.251482e+00\n".toList
/-- Its record. -/
def exRecord : CacheRecord := { m := 1, w := 0.5, v := 0.5, s := 6.4, sp := 9.251482 }
/-- The file system with that cache. -/
def exFs : FS ℝ := fun p =>
  if p = ["data", "trento", "cross_section.cache"] then some (.file (.text exCacheText))
  else if p = ["data", "trento"] ∨ p = ["data"] ∨ p = [] then some .dir else none
/-- The file system without a cache. -/
def exFs0 : FS ℝ := fun p => if p = ["data"] ∨ p = [] then some .dir else none

theorem exCache_state : CacheState exEnv exCacheEnv exFs [exRecord] := by
  refine ⟨["data", "trento"], rfl, by simp [exFs], rfl, rfl, exCacheText, by simp [exFs], ?_, ?_⟩
  · refine ⟨[["1".toList, "0.500000".toList, "0.500000".toList, "6.400000".toList, "9.251482e+00".toList]], by decide, ?_⟩
    refine .cons ⟨_, _, _, _, _, rfl, ?_, ?_, ?_, ?_, ?_⟩ .nil
    all_goals decide +kernel
  · exact .inr ⟨"1     0.500000  0.500000  6.400000  9.251482e+00".toList, '\n', by decide, by decide⟩

theorem exNoCache : NoCache exEnv exCacheEnv exFs0 := by
  refine ⟨["data", "trento"], rfl, .inr ⟨by simp [exFs0], ?_, rfl, by simp⟩, rfl, rfl, by simp [exFs0]⟩
  simp [FS.isDir, exFs0]

/-- Parameters the record fits, and parameters it does not fit. -/
example : Fits ⟨1, 0.5, 0.5, 6.4⟩ exRecord ∧ ¬ Fits ⟨3, 0.5, 0.4, 6.4⟩ exRecord := by
  refine ⟨⟨rfl, ?_, ?_, ?_⟩, fun h => ?_⟩
  · simp only [exRecord]; norm_num
  · simp only [exRecord]; norm_num
  · simp only [exRecord]; norm_num
  · have := h.1; simp [exRecord] at this

theorem exCacheable : Cacheable ⟨3, 0.5, 0.4, 6.4⟩ (5/2) :=
  ⟨by norm_num, by norm_num, by norm_num, by norm_num, .inr
    ⟨(zpow_le_one_of_nonpos₀ (by norm_num) (by norm_num)).trans (by norm_num),
     lt_of_lt_of_le (by norm_num : (5/2:ℝ) < 10 ^ (1:ℤ)) (zpow_le_zpow_right₀ (by norm_num) (by norm_num))⟩⟩

/-- The hypotheses of C51 are met by a first run with a successful fit. -/
example {E D : Type} (r : Rand E D) : ∃ fs1, partonicCrossSection exEnv exCacheEnv 5 ⟨3, 0.5, 0.4, 6.4⟩ (fun r => (.ok (5/2), r)) exFs0 r
    = (.ok (5/2 : ℝ), fs1, r) := by
  obtain ⟨rec, fs', h, -⟩ := C50_first_run exEnv exCacheEnv exNoCache ⟨3, 0.5, 0.4, 6.4⟩ (fun r => (.ok (5/2), r)) r r 5 (5/2) rfl
    exCacheable
  exact ⟨fs', h⟩

end Trento
