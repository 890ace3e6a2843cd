import Verif.Model.Concurrent
import Verif.Props.CacheCrash

/-! # C73: processes sharing the cross section cache -/

namespace Trento
open Spec
set_option linter.unusedSectionVars false

section alone
variable {F E D : Type} [Arith F] [NumFmt F]

/-- A process left alone does what the function does (the steps are those of `partonic_cross_section`). -/
theorem steps_alone (env : OsEnv) (ce : CacheEnv) (fuel : ℕ) (p : CacheProc F E D) (hp : p.pc = .start) (fs : FS F) :
    ∃ q, cacheSchedule env ce fuel [(), (), (), (), ()] (fun _ => p) fs =
        (fun _ => q, (partonicCrossSection env ce fuel p.key p.fit fs p.rand).2.1) ∧
      q.pc = .done (partonicCrossSection env ce fuel p.key p.fit fs p.rand).1 ∧
      q.rand = (partonicCrossSection env ce fuel p.key p.fit fs p.rand).2.2 := by
  have one : ∀ (is : List Unit) (p : CacheProc F E D) (fs : FS F), cacheSchedule env ce fuel (() :: is) (fun _ => p) fs =
      cacheSchedule env ce fuel is (fun _ => (p.step env ce fuel fs).1) (p.step env ce fuel fs).2 := by
    intro is p fs
    rw [cacheSchedule]
    cases h : p.step env ce fuel fs with
    | mk p' fs' =>
      dsimp only
      congr 1
  have stay : ∀ (is : List Unit) (p : CacheProc F E D) (fs : FS F) (res : Res F), p.pc = .done res →
      cacheSchedule env ce fuel is (fun _ => p) fs = (fun _ => p, fs) := by
    intro is
    induction is with
    | nil => intro p fs res _; rfl
    | cons i is ih =>
      intro p fs res h
      have hs : p.step env ce fuel fs = (p, fs) := by unfold CacheProc.step; rw [h]
      rw [one, hs]
      exact ih p fs res h
  rw [one]
  cases hd : cacheDir ce with
  | error e =>
    have hs : p.step env ce fuel fs = ({ p with pc := .done (.error e) }, fs) := by
      unfold CacheProc.step; rw [hp]; simp only [hd]
    rw [hs]
    have hP : partonicCrossSection env ce fuel p.key p.fit fs p.rand = (.error e, fs, p.rand) := by
      unfold partonicCrossSection; simp only [hd]
    rw [hP]
    exact ⟨_, stay _ _ _ _ rfl, rfl, rfl⟩
  | ok dir =>
    cases hc : FS.createDir env dir fs with
    | mk res fs1 =>
      cases res with
      | error e =>
        have hs : p.step env ce fuel fs = ({ p with pc := .done (.error e) }, fs1) := by
          unfold CacheProc.step; rw [hp]; simp only [hd, hc]
        rw [hs]
        have hP : partonicCrossSection env ce fuel p.key p.fit fs p.rand = (.error e, fs1, p.rand) := by
          unfold partonicCrossSection; simp only [hd, hc]
        rw [hP]
        exact ⟨_, stay _ _ _ _ rfl, rfl, rfl⟩
      | ok u =>
        have hs : p.step env ce fuel fs = ({ p with pc := .searching dir }, fs1) := by
          unfold CacheProc.step; rw [hp]; simp only [hd, hc]
        rw [hs, one]
        dsimp only
        generalize hse : (if fs1.exists (dir ++ ["cross_section.cache"]) then
            searchCache p.key fuel {} (openRead ce fs1 (dir ++ ["cross_section.cache"])) else .ok none) = se
        cases se with
        | error e =>
          have hs : ({ p with pc := .searching dir } : CacheProc F E D).step env ce fuel fs1 = ({ p with pc := .done (.error e) }, fs1) := by
            unfold CacheProc.step; simp only [hse]
          rw [hs]
          have hP : partonicCrossSection env ce fuel p.key p.fit fs p.rand = (.error e, fs1, p.rand) := by
            unfold partonicCrossSection; simp only [hd, hc, hse]
          rw [hP]
          exact ⟨_, stay _ _ _ _ rfl, rfl, rfl⟩
        | ok o =>
          cases o with
          | some sp =>
            have hs : ({ p with pc := .searching dir } : CacheProc F E D).step env ce fuel fs1 = ({ p with pc := .done (.ok sp) }, fs1) := by
              unfold CacheProc.step; simp only [hse]
            rw [hs]
            have hP : partonicCrossSection env ce fuel p.key p.fit fs p.rand = (.ok sp, fs1, p.rand) := by
              unfold partonicCrossSection; simp only [hd, hc, hse]
            rw [hP]
            exact ⟨_, stay _ _ _ _ rfl, rfl, rfl⟩
          | none =>
            have hs : ({ p with pc := .searching dir } : CacheProc F E D).step env ce fuel fs1 = ({ p with pc := .opening dir }, fs1) := by
              unfold CacheProc.step; simp only [hse]
            rw [hs, one]
            rw [show ({ p with pc := .opening dir } : CacheProc F E D).step env ce fuel fs1 =
              ({ p with pc := .fitting dir }, openAppend env (dir ++ ["cross_section.cache"]) fs1) from rfl, one]
            dsimp only
            cases hf : p.fit p.rand with
            | mk res r =>
              cases res with
              | error e =>
                have hs : ({ p with pc := .fitting dir } : CacheProc F E D).step env ce fuel (openAppend env (dir ++ ["cross_section.cache"]) fs1)
                    = ({ p with rand := r, pc := .done (.error e) }, openAppend env (dir ++ ["cross_section.cache"]) fs1) := by
                  unfold CacheProc.step; simp only [hf]
                rw [hs]
                have hP : partonicCrossSection env ce fuel p.key p.fit fs p.rand = (.error e, openAppend env (dir ++ ["cross_section.cache"]) fs1, r) := by
                  unfold partonicCrossSection; simp only [hd, hc, hse, hf]
                rw [hP]
                exact ⟨_, stay _ _ _ _ rfl, rfl, rfl⟩
              | ok sp =>
                have hs : ({ p with pc := .fitting dir } : CacheProc F E D).step env ce fuel (openAppend env (dir ++ ["cross_section.cache"]) fs1)
                    = ({ p with rand := r, pc := .writing dir sp }, openAppend env (dir ++ ["cross_section.cache"]) fs1) := by
                  unfold CacheProc.step; simp only [hf]
                rw [hs, one]
                have hP : partonicCrossSection env ce fuel p.key p.fit fs p.rand = (.ok sp, appendText env (dir ++ ["cross_section.cache"]) (writeRecord p.key sp {}).out (openAppend env (dir ++ ["cross_section.cache"]) fs1), r) := by
                  unfold partonicCrossSection; simp only [hd, hc, hse, hf]
                rw [hP]
                exact ⟨_, stay _ _ _ _ rfl, rfl, rfl⟩

end alone

section
variable {E D : Type}

/-! ## What single operations do to a cache -/

theorem Spec.CacheState.createDir {env : OsEnv} {ce : CacheEnv} {fs : FS ℝ} {recs : List CacheRecord} (hs : CacheState env ce fs recs)
    {d : Path} (hd : cacheDir ce = .ok d) : FS.createDir env d fs = (.ok (), fs) := by
  obtain ⟨d', hd', hdir, -⟩ := hs.dir
  rw [hd] at hd'; cases hd'
  unfold FS.createDir; rw [hdir]

theorem Spec.CacheState.search {env : OsEnv} {ce : CacheEnv} {fs : FS ℝ} {recs : List CacheRecord} (hs : CacheState env ce fs recs)
    (hne : recs ≠ []) {d : Path} (hd : cacheDir ce = .ok d) (key : CacheKey ℝ) {fuel : ℕ} (hf : recs.length + 1 ≤ fuel) :
    (if fs.exists (d ++ ["cross_section.cache"]) then searchCache key fuel {} (openRead ce fs (d ++ ["cross_section.cache"])) else .ok none)
      = .ok (lookup recs key) := by
  obtain ⟨d', hd', hdir, hopen, hread, t, ht, hc, hb⟩ := hs.dir
  rw [hd] at hd'; cases hd'
  have hex : fs.exists (d ++ ["cross_section.cache"]) = true := by simp [FS.exists, ht]
  have hor : openRead ce fs (d ++ ["cross_section.cache"]) = { rest := t } := by unfold openRead; rw [ht]; simp [hread]
  rw [if_pos hex, hor]
  exact search_lookup key hc hne fuel hf

theorem Spec.CacheState.canOpen {env : OsEnv} {ce : CacheEnv} {fs : FS ℝ} {recs : List CacheRecord} (hs : CacheState env ce fs recs)
    {d : Path} (hd : cacheDir ce = .ok d) : fs.canOpen env (d ++ ["cross_section.cache"]) = true := by
  obtain ⟨d', hd', hdir, hopen, hread, t, ht, hc, hb⟩ := hs.dir
  rw [hd] at hd'; cases hd'
  unfold FS.canOpen
  rw [hopen, dropLast_concat_path]
  simp [FS.isDir, hdir, ht]

theorem Spec.CacheState.openAppend {env : OsEnv} {ce : CacheEnv} {fs : FS ℝ} {recs : List CacheRecord} (hs : CacheState env ce fs recs)
    {d : Path} (hd : cacheDir ce = .ok d) : Trento.openAppend env (d ++ ["cross_section.cache"]) fs = fs := by
  have hcan := hs.canOpen hd
  obtain ⟨d', hd', hdir, hopen, hread, t, ht, hc, hb⟩ := hs.dir
  rw [hd] at hd'; cases hd'
  unfold Trento.openAppend; rw [if_pos hcan, ht]

theorem Spec.CacheState.append {env : OsEnv} {ce : CacheEnv} {fs : FS ℝ} {recs : List CacheRecord} (hs : CacheState env ce fs recs)
    {d : Path} (hd : cacheDir ce = .ok d) {key : CacheKey ℝ} {sp : ℝ} (hcb : Cacheable key sp) :
    ∃ rec, CacheState env ce (appendText env (d ++ ["cross_section.cache"]) (writeRecord key sp {}).out fs) (recs ++ [rec]) ∧ Fits key rec ∧
      |(rec.sp : ℝ) - sp| ≤ 5e-7 * |sp| := by
  have hcan := hs.canOpen hd
  obtain ⟨d', hd', hdir, hopen, hread, t, ht, hc, hb⟩ := hs.dir
  rw [hd] at hd'; cases hd'
  obtain ⟨rec, hr1, hr2, hr3, hr4⟩ := recordText_content hcb
  refine ⟨rec, ?_, hr2, hr3⟩
  have happ : appendText env (d ++ ["cross_section.cache"]) (writeRecord key sp {}).out fs =
      fs.set (d ++ ["cross_section.cache"]) (.file (.text (t ++ recordText key sp))) := by
    rw [writeRecord_eq]
    unfold appendText
    rw [if_pos hcan, ht]
  have hnn : d ≠ d ++ ["cross_section.cache"] := by
    intro h; have := congrArg List.length h; simp at this
  rw [happ]
  exact ⟨d, hd, by unfold FS.set; rw [if_neg hnn]; exact hdir, hopen, hread, t ++ recordText key sp,
    by unfold FS.set; rw [if_pos rfl], hc.append hb hr1, hr4.append (by unfold recordText; simp [intDigits_ne_nil])⟩

/-! ## Any schedule -/

/-- The values a process may store are cacheable. -/
def Spec.ProcOk (p : CacheProc ℝ E D) : Prop := ∀ sp r', p.fit p.rand = (.ok sp, r') → Cacheable p.key sp

/-- A record was written for the process `p`: it fits its parameters and holds its fitted value to seven digits. -/
def Spec.WrittenBy (p : CacheProc ℝ E D) (rec : CacheRecord) : Prop :=
  ∃ sp r', p.fit p.rand = (.ok sp, r') ∧ Fits p.key rec ∧ |(rec.sp : ℝ) - sp| ≤ 5e-7 * |sp|

/-- What a process that started as `p` has done so far (it is now `q`), when `more` was appended to the records `recs` since. -/
def Progress (ce : CacheEnv) (recs more : List CacheRecord) (p q : CacheProc ℝ E D) : Prop :=
  q.key = p.key ∧ q.fit = p.fit ∧
  match q.pc with
  | .start => q.rand = p.rand
  | .searching d => q.rand = p.rand ∧ cacheDir ce = .ok d
  | .opening d => q.rand = p.rand ∧ cacheDir ce = .ok d ∧ lookup recs p.key = none
  | .fitting d => q.rand = p.rand ∧ cacheDir ce = .ok d ∧ lookup recs p.key = none
  | .writing d sp => cacheDir ce = .ok d ∧ lookup recs p.key = none ∧ ∃ r, p.fit p.rand = (.ok sp, r)
  | .done res => (∃ pre c, pre <+: more ∧ lookup (recs ++ pre) p.key = some c ∧ res = .ok c) ∨
      (lookup recs p.key = none ∧ res = (p.fit p.rand).1 ∧ ∀ c, res = .ok c → ∃ rec ∈ more, Fits p.key rec)

theorem Progress.mono {ce : CacheEnv} {recs more : List CacheRecord} {p q : CacheProc ℝ E D} (h : Progress ce recs more p q)
    (rs : List CacheRecord) : Progress ce recs (more ++ rs) p q := by
  obtain ⟨h1, h2, h3⟩ := h
  refine ⟨h1, h2, ?_⟩
  cases hpc : q.pc with
  | done res =>
    rw [hpc] at h3
    rcases h3 with ⟨pre, c, k1, k2, k3⟩ | h3
    · exact .inl ⟨pre, c, k1.trans (List.prefix_append _ _), k2, k3⟩
    · exact .inr ⟨h3.1, h3.2.1, fun c hc => let ⟨rec, k1, k2⟩ := h3.2.2 c hc; ⟨rec, List.mem_append_left _ k1, k2⟩⟩
  | start => rw [hpc] at h3; exact h3
  | searching d => rw [hpc] at h3; exact h3
  | opening d => rw [hpc] at h3; exact h3
  | fitting d => rw [hpc] at h3; exact h3
  | writing d sp => rw [hpc] at h3; exact h3

theorem lookup_none_left {recs more : List CacheRecord} {key : CacheKey ℝ} (h : lookup (recs ++ more) key = none) :
    lookup recs key = none := by
  cases hl : lookup recs key with
  | none => rfl
  | some c => rw [lookup_append hl more] at h; cases h

/-- One step of one process. -/
theorem step_progress (env : OsEnv) (ce : CacheEnv) (fuel : ℕ) {fs : FS ℝ} {recs more : List CacheRecord} (hne : recs ≠ [])
    (hs : CacheState env ce fs (recs ++ more)) (hf : recs.length + more.length + 1 ≤ fuel) (p q : CacheProc ℝ E D) (hok : ProcOk p)
    (hp : Progress ce recs more p q) :
    ∃ rs, rs.length ≤ 1 ∧ (∀ rec ∈ rs, WrittenBy p rec) ∧ CacheState env ce (q.step env ce fuel fs).2 (recs ++ (more ++ rs)) ∧
      Progress ce recs (more ++ rs) p (q.step env ce fuel fs).1 := by
  obtain ⟨d, hd, -⟩ := hs.dir
  obtain ⟨h1, h2, h3⟩ := hp
  obtain ⟨key, fit, rand, pc⟩ := q
  simp only at h1 h2 h3
  subst h1 h2
  have same : ∀ (q' : CacheProc ℝ E D), CacheProc.step env ce fuel ⟨p.key, p.fit, rand, pc⟩ fs = (q', fs) → Progress ce recs more p q' →
      ∃ rs, rs.length ≤ 1 ∧ (∀ rec ∈ rs, WrittenBy p rec) ∧
        CacheState env ce (CacheProc.step env ce fuel ⟨p.key, p.fit, rand, pc⟩ fs).2 (recs ++ (more ++ rs)) ∧
        Progress ce recs (more ++ rs) p (CacheProc.step env ce fuel ⟨p.key, p.fit, rand, pc⟩ fs).1 := by
    intro q' h hq
    refine ⟨[], by simp, by simp, ?_, ?_⟩
    · rw [h, List.append_nil]; exact hs
    · rw [h, List.append_nil]; exact hq
  cases pc with
  | start =>
    refine same ⟨p.key, p.fit, rand, .searching d⟩ ?_ ⟨rfl, rfl, h3, hd⟩
    unfold CacheProc.step
    simp only [hd, hs.createDir hd]
  | searching d' =>
    obtain ⟨h3, hd'⟩ := h3
    rw [hd] at hd'; cases hd'
    have hse := hs.search (by simp [hne]) hd p.key (fuel := fuel) (by simp; omega)
    cases hl : lookup (recs ++ more) p.key with
    | some c =>
      rw [hl] at hse
      refine same ⟨p.key, p.fit, rand, .done (.ok c)⟩ ?_ ⟨rfl, rfl, .inl ⟨more, c, List.prefix_rfl, hl, rfl⟩⟩
      unfold CacheProc.step
      simp only [hse]
    | none =>
      rw [hl] at hse
      refine same ⟨p.key, p.fit, rand, .opening d⟩ ?_ ⟨rfl, rfl, h3, hd, lookup_none_left hl⟩
      unfold CacheProc.step
      simp only [hse]
  | opening d' =>
    obtain ⟨h3, hd', hnone⟩ := h3
    rw [hd] at hd'; cases hd'
    refine same ⟨p.key, p.fit, rand, .fitting d⟩ ?_ ⟨rfl, rfl, h3, hd, hnone⟩
    unfold CacheProc.step
    simp only [hs.openAppend hd]
  | fitting d' =>
    obtain ⟨h3, hd', hnone⟩ := h3
    subst h3
    rw [hd] at hd'; cases hd'
    cases hfit : p.fit p.rand with
    | mk res r =>
      cases res with
      | error e =>
        refine same ⟨p.key, p.fit, r, .done (.error e)⟩ ?_ ⟨rfl, rfl, .inr ⟨hnone, by rw [hfit], fun c hc => by cases hc⟩⟩
        unfold CacheProc.step
        simp only [hfit]
      | ok sp =>
        refine same ⟨p.key, p.fit, r, .writing d sp⟩ ?_ ⟨rfl, rfl, hd, hnone, r, hfit⟩
        unfold CacheProc.step
        simp only [hfit]
  | writing d' sp =>
    obtain ⟨hd', hnone, r, hfit⟩ := h3
    rw [hd] at hd'; cases hd'
    obtain ⟨rec, k1, k2, k3⟩ := hs.append hd (hok sp r hfit)
    refine ⟨[rec], by simp, ?_, ?_, rfl, rfl, ?_⟩
    · intro rec' hrec
      rw [List.mem_singleton] at hrec; subst hrec
      exact ⟨sp, r, hfit, k2, k3⟩
    · rw [List.append_assoc] at k1; exact k1
    · exact .inr ⟨hnone, by rw [hfit], fun c _ => ⟨rec, by simp, k2⟩⟩
  | done res => exact same ⟨p.key, p.fit, rand, .done res⟩ rfl ⟨rfl, rfl, h3⟩

/-- Any schedule. -/
theorem schedule_progress (env : OsEnv) (ce : CacheEnv) {ι : Type} [DecidableEq ι] (ps : ι → CacheProc ℝ E D)
    (hstart : ∀ i, (ps i).pc = .start) (hok : ∀ i, ProcOk (ps i)) (sched : List ι) {fs : FS ℝ} {recs : List CacheRecord}
    (hs : CacheState env ce fs recs) (hne : recs ≠ []) (fuel : ℕ) (hf : recs.length + sched.length + 1 ≤ fuel) :
    ∃ more, CacheState env ce (cacheSchedule env ce fuel sched ps fs).2 (recs ++ more) ∧ more.length ≤ sched.length ∧
      (∀ rec ∈ more, ∃ i, WrittenBy (ps i) rec) ∧ ∀ i, Progress ce recs more (ps i) ((cacheSchedule env ce fuel sched ps fs).1 i) := by
  have key : ∀ (sched : List ι) (qs : ι → CacheProc ℝ E D) (fs : FS ℝ) (more : List CacheRecord),
      CacheState env ce fs (recs ++ more) → (∀ i, Progress ce recs more (ps i) (qs i)) → (∀ rec ∈ more, ∃ i, WrittenBy (ps i) rec) →
      recs.length + more.length + sched.length + 1 ≤ fuel →
      ∃ more', CacheState env ce (cacheSchedule env ce fuel sched qs fs).2 (recs ++ more') ∧ more'.length ≤ more.length + sched.length ∧
        (∀ rec ∈ more', ∃ i, WrittenBy (ps i) rec) ∧ ∀ i, Progress ce recs more' (ps i) ((cacheSchedule env ce fuel sched qs fs).1 i) := by
    intro sched
    induction sched with
    | nil => intro qs fs more h1 h2 h3 _; exact ⟨more, h1, by simp, h3, h2⟩
    | cons i is ih =>
      intro qs fs more h1 h2 h3 hfu
      rw [List.length_cons] at hfu
      obtain ⟨rs, k1, k2, k3, k4⟩ := step_progress env ce fuel hne h1 (by omega) (ps i) (qs i) (hok i) (h2 i)
      rw [cacheSchedule]
      obtain ⟨more', l1, l2, l3, l4⟩ := ih (fun j => if j = i then ((qs i).step env ce fuel fs).1 else qs j) _ (more ++ rs) k3 (by
        intro j
        by_cases hj : j = i
        · subst hj; rw [if_pos rfl]; exact k4
        · rw [if_neg hj]; exact (h2 j).mono rs) (by
        intro rec hrec
        rcases List.mem_append.mp hrec with h | h
        · exact h3 rec h
        · exact ⟨i, k2 rec h⟩) (by simp; omega)
      exact ⟨more', l1, by simp at l2 ⊢; omega, l3, l4⟩
  obtain ⟨more, h1, h2, h3, h4⟩ := key sched ps fs [] (by rw [List.append_nil]; exact hs) (fun i => ⟨rfl, rfl, by rw [hstart i]⟩)
    (by simp) (by simp; omega)
  exact ⟨more, h1, by simpa using h2, h3, h4⟩

/-- **C73: processes sharing the cache.**  Let the cache hold at least one record.  For any number of processes with any parameters and
fits, and any schedule of their steps (processes may also stop anywhere): the cache then holds the old records, followed by records
each of which was written by one of the processes, fits its parameters and holds its fitted value to seven digits; and every
process that has finished has returned the value of the first fitting record among those in the cache when it looked, or the
outcome of its own fit; in particular none used an uninitialised variable. -/
theorem C73_concurrent_cache (env : OsEnv) (ce : CacheEnv) {ι : Type} [DecidableEq ι] (ps : ι → CacheProc ℝ E D)
    (hstart : ∀ i, (ps i).pc = .start) (hok : ∀ i, ProcOk (ps i)) (sched : List ι) {fs : FS ℝ} {recs : List CacheRecord}
    (hs : CacheState env ce fs recs) (hne : recs ≠ []) (fuel : ℕ) (hf : recs.length + sched.length + 1 ≤ fuel) :
    ∃ more, CacheState env ce (cacheSchedule env ce fuel sched ps fs).2 (recs ++ more) ∧ more.length ≤ sched.length ∧
      (∀ rec ∈ more, ∃ i, WrittenBy (ps i) rec) ∧
      ∀ i res, ((cacheSchedule env ce fuel sched ps fs).1 i).pc = .done res →
        (∃ pre c, pre <+: more ∧ lookup (recs ++ pre) (ps i).key = some c ∧ res = .ok c) ∨
        (lookup recs (ps i).key = none ∧ res = ((ps i).fit (ps i).rand).1) := by
  obtain ⟨more, h1, h2, h3, h4⟩ := schedule_progress env ce ps hstart hok sched hs hne fuel hf
  refine ⟨more, h1, h2, h3, fun i res hres => ?_⟩
  have := (h4 i).2.2
  rw [hres] at this
  rcases this with h | ⟨h, h', -⟩
  · exact .inl h
  · exact .inr ⟨h, h'⟩

/-- **C73, afterwards.**  Whatever the schedule was, all later runs with the parameters of a process that finished with the value `c`
get one and the same value `c'`, without a fit and without changing a file; `c'` is `c` itself, or was fitted (and stored to seven
digits) by one of the processes, for parameters the same record fits. -/
theorem C73_afterwards (env : OsEnv) (ce : CacheEnv) {ι : Type} [DecidableEq ι] (ps : ι → CacheProc ℝ E D)
    (hstart : ∀ i, (ps i).pc = .start) (hok : ∀ i, ProcOk (ps i)) (sched : List ι) {fs : FS ℝ} {recs : List CacheRecord}
    (hs : CacheState env ce fs recs) (hne : recs ≠ []) (fuel : ℕ) (hf : recs.length + sched.length + 1 ≤ fuel) (i : ι) (c : ℝ)
    (hdone : ((cacheSchedule env ce fuel sched ps fs).1 i).pc = .done (.ok c)) :
    ∃ c' : ℝ, (c' = c ∨ ∃ j rec, WrittenBy (ps j) rec ∧ Fits (ps i).key rec ∧ c' = (rec.sp : ℝ)) ∧
      ∀ (fit : Rand E D → Res ℝ × Rand E D) (r : Rand E D),
        partonicCrossSection env ce fuel (ps i).key fit (cacheSchedule env ce fuel sched ps fs).2 r =
          (.ok c', (cacheSchedule env ce fuel sched ps fs).2, r) := by
  obtain ⟨more, h1, h2, h3, h4⟩ := schedule_progress env ce ps hstart hok sched hs hne fuel hf
  have hlk : ∀ c', lookup (recs ++ more) (ps i).key = some c' → ∀ (fit : Rand E D → Res ℝ × Rand E D) (r : Rand E D),
        partonicCrossSection env ce fuel (ps i).key fit (cacheSchedule env ce fuel sched ps fs).2 r =
          (.ok c', (cacheSchedule env ce fuel sched ps fs).2, r) := fun c' hc' fit r =>
    (C50_lookup env ce h1 (by simp [hne]) (ps i).key fit r fuel (by simp; omega)).1 c' hc'
  have hp := (h4 i).2.2
  rw [hdone] at hp
  rcases hp with ⟨pre, c', ⟨suf, rfl⟩, hl, hcc⟩ | ⟨hnone, -, hrec⟩
  · cases hcc
    exact ⟨c, .inl rfl, hlk c (by rw [← List.append_assoc]; exact lookup_append hl suf)⟩
  · obtain ⟨rec, hm, hfit⟩ := hrec c rfl
    have hfn : recs.find? (fun r => @decide (Fits (ps i).key r) (Classical.propDecidable _)) = none := by
      unfold lookup at hnone; simpa using hnone
    cases hfm : more.find? (fun r => @decide (Fits (ps i).key r) (Classical.propDecidable _)) with
    | none =>
      rw [List.find?_eq_none] at hfm
      exact absurd (by simpa using hfit) (hfm rec hm)
    | some rec' =>
      have hmem := List.mem_of_find?_eq_some hfm
      have hfits : Fits (ps i).key rec' := by simpa using List.find?_some hfm
      obtain ⟨j, hj⟩ := h3 rec' hmem
      refine ⟨(rec'.sp : ℝ), .inr ⟨j, rec', hj, hfits, rfl⟩, hlk _ ?_⟩
      unfold lookup
      rw [List.find?_append, hfn, Option.none_or, hfm]
      rfl

/-- **C73, the exception: first runs at the same time.**  Without a cache, a process that looks for the cache while another one is
fitting finds an empty file and uses uninitialised variables. -/
theorem C73_first_runs_ub (env : OsEnv) (ce : CacheEnv) {ι : Type} [DecidableEq ι] (ps : ι → CacheProc ℝ E D)
    (hstart : ∀ i, (ps i).pc = .start) {fs : FS ℝ} (hs : NoCache env ce fs) (a b : ι) (hab : a ≠ b) (fuel : ℕ) :
    ∃ msg, ((cacheSchedule env ce (fuel + 1) [a, a, a, b, b] ps fs).1 b).pc = .done (.error (.ub msg)) := by
  obtain ⟨d, hd, hdir, hopen, hread, ht⟩ := hs.dir
  have hnn : d ≠ d ++ ["cross_section.cache"] := by
    intro h; have := congrArg List.length h; simp at this
  obtain ⟨fs1, hcreate, hdir1, ht1⟩ : ∃ fs1, FS.createDir env d fs = (.ok (), fs1) ∧ fs1 d = some .dir ∧
      fs1 (d ++ ["cross_section.cache"]) = none := by
    rcases hdir with hdir | ⟨h1, h2, h3, h4⟩
    · exact ⟨fs, by unfold FS.createDir; rw [hdir], hdir, ht⟩
    · refine ⟨fs.set d .dir, ?_, ?_, ?_⟩
      · unfold FS.createDir
        rw [h1]
        simp [h2, h3, h4]
      · unfold FS.set; rw [if_pos rfl]
      · unfold FS.set; rw [if_neg (Ne.symm hnn)]; exact ht
  have hex : fs1.exists (d ++ ["cross_section.cache"]) = false := by simp [FS.exists, ht1]
  have hcan : fs1.canOpen env (d ++ ["cross_section.cache"]) = true := by
    unfold FS.canOpen
    rw [hopen, dropLast_concat_path]
    simp [FS.isDir, hdir1, ht1]
  obtain ⟨fs2, hfs2⟩ : ∃ fs2, fs2 = fs1.set (d ++ ["cross_section.cache"]) (.file (.text [])) := ⟨_, rfl⟩
  have happ : Trento.openAppend env (d ++ ["cross_section.cache"]) fs1 = fs2 := by
    unfold Trento.openAppend; rw [if_pos hcan, ht1, hfs2]
  have hdir2 : fs2 d = some .dir := by rw [hfs2]; unfold FS.set; rw [if_neg hnn]; exact hdir1
  have ht2 : fs2 (d ++ ["cross_section.cache"]) = some (.file (.text [])) := by
    rw [hfs2]; unfold FS.set; rw [if_pos rfl]
  have hcreate2 : FS.createDir env d fs2 = (.ok (), fs2) := by unfold FS.createDir; rw [hdir2]
  have hex2 : fs2.exists (d ++ ["cross_section.cache"]) = true := by simp [FS.exists, ht2]
  have hor : openRead ce fs2 (d ++ ["cross_section.cache"]) = { rest := [] } := by unfold openRead; rw [ht2]; simp [hread]
  obtain ⟨msg, hm⟩ := C53_empty_file_ub (ps b).key [] rfl fuel
  refine ⟨msg, ?_⟩
  have hba : b ≠ a := fun h => hab h.symm
  simp only [cacheSchedule, CacheProc.step, hstart, hd, hcreate, hex, if_true, if_neg hba, Bool.false_eq_true, if_false, happ, hcreate2,
    hex2, hor, hm]

end

/-- Two processes with different parameters and an existing cache: the hypotheses of C73 are met. -/
example (r : Rand Unit Unit) :
    let ps : Bool → CacheProc ℝ Unit Unit := fun b => ⟨if b then ⟨1, 0.5, 0.5, 6.4⟩ else ⟨3, 0.5, 0.4, 6.4⟩, fun r => (.ok (5/2), r), r, .start⟩
    CacheState exEnv exCacheEnv exFs [exRecord] ∧ (∀ i, (ps i).pc = .start) ∧ ∀ i, ProcOk (ps i) := by
  refine ⟨exCache_state, fun i => rfl, fun i sp r' h => ?_⟩
  simp only at h
  cases h
  cases i with
  | true =>
    have := exCacheable
    exact ⟨by norm_num, by norm_num, by norm_num, by norm_num, this.sp_range⟩
  | false => exact exCacheable

end Trento
