import Verif.ConfScripts
import Mathlib.Tactic.Linarith
import Mathlib.Tactic.FieldSimp
import Mathlib.Tactic.Positivity

/-!
# C290: settings of the conda automation; C291: reports of the documentation tests
-/

namespace SW
namespace Conf

/-! ### C290 -/

/-- The timeouts after import: an integer in the environment is taken for the check of PyPI and for GitHub; anything else leaves what is in
the file. -/
theorem C290_timeout (int : Txt → Option Int) (env : String → Option Txt) :
    ((imported int env).pypiCheck, (imported int env).githubApi, (imported int env).githubTimeout) =
      match (env "CONDA_AUTOMATION_TIMEOUT").bind int with
      | some t => (t, t, t)
      | none => (10, 15, 15) := by
  unfold imported load loadDebug loadDryRun loadTimeout defaults
  cases env "CONDA_AUTOMATION_DEBUG" <;> cases env "CONDA_AUTOMATION_DRY_RUN" <;> cases h : env "CONDA_AUTOMATION_TIMEOUT" with
  | none => simp
  | some v => cases h2 : int v <;> simp [h2]

/-- Dry runs are the default exactly if the variable is "true", "1" or "yes", in any case. -/
theorem C290_dry_run (int : Txt → Option Int) (env : String → Option Txt) :
    (imported int env).dryRun = true ↔ ∃ v, env "CONDA_AUTOMATION_DRY_RUN" = some v ∧
      (v.map Char.toLower = "true".toList ∨ v.map Char.toLower = "1".toList ∨ v.map Char.toLower = "yes".toList) := by
  have h : ∀ c : Cfg, (loadDebug env c).dryRun = c.dryRun := by
    intro c; unfold loadDebug; split <;> rfl
  have h2 : (loadTimeout int env defaults).dryRun = false := by
    unfold loadTimeout
    split
    · rfl
    · split <;> rfl
  unfold imported load
  rw [h]
  unfold loadDryRun
  cases hv : env "CONDA_AUTOMATION_DRY_RUN" with
  | none => simp [h2]
  | some v => simp only [List.contains_eq_mem, List.mem_cons, List.not_mem_nil, or_false, decide_eq_true_eq, Option.some.injEq,
      exists_eq_left']

/-- Only three variables matter: the token for GitHub that the documentation names has no effect. -/
theorem C290_token_violated (int : Txt → Option Int) (env env' : String → Option Txt)
    (h : ∀ n ∈ ["CONDA_AUTOMATION_TIMEOUT", "CONDA_AUTOMATION_DRY_RUN", "CONDA_AUTOMATION_DEBUG"], env n = env' n) :
    imported int env = imported int env' := by
  simp only [List.mem_cons, List.not_mem_nil, or_false, forall_eq_or_imp, forall_eq] at h
  unfold imported load loadDebug loadDryRun loadTimeout
  rw [h.1, h.2.1, h.2.2]

/-- Reading the environment again changes nothing. -/
theorem C290_again (int : Txt → Option Int) (env : String → Option Txt) (c : Cfg) : load int env (load int env c) = load int env c := by
  rcases h3 : env "CONDA_AUTOMATION_TIMEOUT" with _ | v
  · rcases h1 : env "CONDA_AUTOMATION_DEBUG" with _ | d <;> rcases h2 : env "CONDA_AUTOMATION_DRY_RUN" with _ | y <;>
      simp only [load, loadDebug, loadDryRun, loadTimeout, h1, h2, h3]
  · rcases h4 : int v with _ | t <;> rcases h1 : env "CONDA_AUTOMATION_DEBUG" with _ | d <;>
      rcases h2 : env "CONDA_AUTOMATION_DRY_RUN" with _ | y <;>
      simp only [load, loadDebug, loadDryRun, loadTimeout, h1, h2, h3, h4]

/-- Violated: whatever the environment says, the timeout PyPI's settings give is 10 seconds, that of downloads 60, and the wait for
availability 300. -/
theorem C290_pypi_violated (int : Txt → Option Int) (env : String → Option Txt) :
    (imported int env).pypiApiTimeout = 10 ∧ (imported int env).download = 60 ∧ (imported int env).pypiAvailability = 300 := by
  unfold imported load loadDebug loadDryRun loadTimeout defaults
  cases env "CONDA_AUTOMATION_DEBUG" <;> cases env "CONDA_AUTOMATION_DRY_RUN" <;> cases env "CONDA_AUTOMATION_TIMEOUT" with
  | none => simp
  | some v => cases h2 : int v <;> simp [h2]

/-- Violated: the log level is DEBUG exactly if the variable is set, to whatever: "0" and "false" turn debugging on. -/
theorem C290_debug_violated (int : Txt → Option Int) (env : String → Option Txt) :
    (imported int env).level = (if env "CONDA_AUTOMATION_DEBUG" = none then "INFO".toList else "DEBUG".toList) := by
  have h : (loadDryRun env (loadTimeout int env defaults)).level = "INFO".toList := by
    unfold loadDryRun loadTimeout
    split <;> split <;> first | rfl | (split <;> rfl)
  unfold imported load loadDebug
  cases env "CONDA_AUTOMATION_DEBUG" with
  | none => simpa using h
  | some v => simp

/-- Automation cannot be turned off, and pre-releases are always skipped. -/
theorem C290_enabled (int : Txt → Option Int) (env : String → Option Txt) :
    isEnabled (imported int env) = true ∧ skipPrereleases (imported int env) = true := by
  unfold imported load loadDebug loadDryRun loadTimeout defaults
  cases env "CONDA_AUTOMATION_DEBUG" <;> cases env "CONDA_AUTOMATION_DRY_RUN" <;> cases env "CONDA_AUTOMATION_TIMEOUT" with
  | none => simp [isEnabled, skipPrereleases]
  | some v => cases h2 : int v <;> simp [h2, isEnabled, skipPrereleases]

theorem append_slash_inj {a b x y : Txt} (ha : '/' ∉ a) (hb : '/' ∉ b) (h : a ++ '/' :: x = b ++ '/' :: y) : a = b ∧ x = y := by
  induction a generalizing b with
  | nil =>
    cases b with
    | nil => simpa using h
    | cons c b => simp only [List.nil_append, List.cons_append, List.cons.injEq] at h; simp [← h.1] at hb
  | cons c a ih =>
    cases b with
    | nil => simp only [List.nil_append, List.cons_append, List.cons.injEq] at h; simp [h.1] at ha
    | cons d b =>
      simp only [List.cons_append, List.cons.injEq] at h
      simp only [List.mem_cons, not_or] at ha hb
      obtain ⟨h1, h2⟩ := ih ha.2 hb.2 h.2
      exact ⟨by rw [h.1, h1], h2⟩

/-- Different packages have different feedstocks. -/
theorem C290_feedstock (p q : Txt) (h : feedstock p = feedstock q) : p = q := by
  unfold feedstock at h
  rw [List.append_assoc, List.append_assoc] at h
  exact List.append_cancel_right (List.append_cancel_left h)

/-- Different releases have different archives, for package names without a slash; an empty name is an error. -/
theorem C290_source (p q v w : Txt) (hp : '/' ∉ p) (hq : '/' ∉ q) (u : Txt) (h : sourceUrl p v = some u) (h' : sourceUrl q w = some u) :
    p = q ∧ v = w := by
  cases p with
  | nil => simp [sourceUrl] at h
  | cons a p =>
    cases q with
    | nil => simp [sourceUrl] at h'
    | cons b q =>
      simp only [sourceUrl, Option.some.injEq] at h h'
      have h2 := h.trans h'.symm
      simp only [List.append_assoc] at h2
      have h3 := List.append_cancel_left h2
      simp only [List.singleton_append, List.cons_append, List.nil_append, List.cons.injEq] at h3
      obtain ⟨-, -, h3⟩ := h3
      have h4 := append_slash_inj (a := a :: p) (b := b :: q) hp hq (by simpa using h3)
      obtain ⟨h5, h6⟩ := h4
      refine ⟨h5, ?_⟩
      simp only [List.cons.injEq] at h5
      obtain ⟨rfl, rfl⟩ := h5
      have h7 : a :: (p ++ '-' :: (v ++ ".tar.gz".toList)) = a :: (p ++ '-' :: (w ++ ".tar.gz".toList)) := h6
      simp only [List.cons.injEq, true_and] at h7
      have h8 := List.append_cancel_left h7
      simp only [List.cons.injEq, true_and] at h8
      exact List.append_cancel_right h8

/-- Where the URL of an archive points. -/
theorem C290_source_value (a : Char) (p v : Txt) : sourceUrl (a :: p) v =
    some ("https://pypi.org/packages/source/".toList ++ a.toLower :: '/' :: (a :: p) ++ '/' :: (a :: p) ++ '-' :: v ++ ".tar.gz".toList) ∧
    sourceUrl [] v = none := by
  refine ⟨?_, rfl⟩
  simp [sourceUrl]

/-- Violated: the archive hashed for the feedstock is the one these settings name only if the package's name does not begin with a capital
letter. -/
theorem C290_hash_violated (a : Char) (p v : Txt) : hashUrl (a :: p) v = sourceUrl (a :: p) v ↔ a.toLower = a := by
  simp only [hashUrl, sourceUrl, Option.some.injEq, List.append_assoc]
  constructor
  · intro h
    have h2 := List.append_cancel_left h
    simp only [List.singleton_append, List.cons_append, List.cons.injEq] at h2
    exact h2.1.symm
  · intro h
    rw [h]

/-- The URLs of two packages, or of two versions of one, or of a version and of the package, differ, for names and versions without a slash. -/
theorem C290_json (p q : Txt) (v w : Option Txt) (hp : '/' ∉ p) (hq : '/' ∉ q) (hv : '/' ∉ v.getD []) (hw : '/' ∉ w.getD [])
    (h : jsonUrl p v = jsonUrl q w) : p = q ∧ v.getD [] = w.getD [] := by
  have hj : ("/json".toList : Txt) = '/' :: "json".toList := by decide
  unfold jsonUrl at h
  rw [hj] at h
  generalize v.getD [] = v' at *
  generalize w.getD [] = w' at *
  have key : ∀ {x y : Txt}, ("https://pypi.org/pypi/".toList ++ x : Txt) = "https://pypi.org/pypi/".toList ++ y → x = y :=
    fun h => List.append_cancel_left h
  have hns : ∀ {x : Txt}, '/' ∉ ("json".toList : Txt) ∧ ("json".toList : Txt) ≠ x ++ '/' :: "json".toList := by
    intro x
    refine ⟨by decide, fun e => ?_⟩
    have : '/' ∈ ("json".toList : Txt) := by rw [e]; simp
    exact absurd this (by decide)
  by_cases h1 : v' = [] <;> by_cases h2 : w' = []
  · rw [if_pos h1, if_pos h2, List.append_assoc, List.append_assoc] at h
    exact ⟨(append_slash_inj hp hq (key h)).1, by rw [h1, h2]⟩
  · rw [if_pos h1, if_neg h2] at h
    simp only [List.append_assoc] at h
    have := append_slash_inj hp hq (key h)
    exact absurd this.2 hns.2
  · rw [if_neg h1, if_pos h2] at h
    simp only [List.append_assoc] at h
    have := append_slash_inj hp hq (key h)
    exact absurd this.2.symm hns.2
  · rw [if_neg h1, if_neg h2] at h
    simp only [List.append_assoc] at h
    obtain ⟨h3, h4⟩ := append_slash_inj hp hq (key h)
    exact ⟨h3, (append_slash_inj hv hw h4).1⟩

/-! ### C291 -/

/-- The report of a run has its numbers; it says passed exactly if no test failed, and gives the rate exactly if there was a test. -/
theorem C291_report (t : DocS.Totals) :
    report (summary t) = some ⟨t.files, t.tests, t.failed, t.examples, if 0 < t.tests then some (rate t) else none, t.failed == 0⟩ := by
  unfold report summary rate
  simp only [Option.getD_some]
  by_cases h : 0 < t.tests
  · have h1 : ((t.tests : Int) > 0) := by omega
    have h2 : max (t.tests : ℚ) 1 = t.tests := max_eq_left (by exact_mod_cast h)
    simp [h, h1, h2]
  · have h1 : ¬ ((t.tests : Int) > 0) := by omega
    simp [h, h1]

/-- The rate is between 0 and 100, and 100 exactly if no test failed (of some). -/
theorem C291_rate (t : DocS.Totals) (h : t.failed ≤ t.tests) : 0 ≤ rate t ∧ rate t ≤ 100 ∧ (0 < t.tests → (rate t = 100 ↔ t.failed = 0)) := by
  have hf : (t.failed : ℚ) ≤ t.tests := by exact_mod_cast h
  have hf0 : (0 : ℚ) ≤ t.failed := by positivity
  have hm : (0 : ℚ) < max (t.tests : ℚ) 1 := lt_of_lt_of_le one_pos (le_max_right _ _)
  have hle : (t.tests : ℚ) ≤ max (t.tests : ℚ) 1 := le_max_left _ _
  unfold rate
  refine ⟨by have : 0 ≤ ((t.tests : ℚ) - t.failed) := by linarith
             positivity, ?_, ?_⟩
  · have : ((t.tests : ℚ) - t.failed) / max (t.tests : ℚ) 1 ≤ 1 := by
      rw [div_le_one hm]; linarith
    linarith
  · intro hp
    have h2 : max (t.tests : ℚ) 1 = t.tests := max_eq_left (by exact_mod_cast hp)
    have hp' : (0 : ℚ) < t.tests := by exact_mod_cast hp
    rw [h2]
    constructor
    · intro e
      have : ((t.tests : ℚ) - t.failed) / t.tests = 1 := by linarith
      rw [div_eq_one_iff_eq hp'.ne'] at this
      have : (t.failed : ℚ) = 0 := by linarith
      exact_mod_cast this
    · intro e
      rw [e]; simp [hp'.ne']

/-- Violated: without tests the rate of a run is 0, though nothing failed. -/
theorem C291_no_tests_violated (t : DocS.Totals) (h : t.tests = 0) (hf : t.failed = 0) : rate t = 0 := by
  simp [rate, h, hf]

/-- The text cannot be made exactly for a report with tests and no count of failures. -/
theorem C291_key_error (d : Doc) :
    report d = none ↔ 0 < (d.summary.getD d.top).total.getD 0 ∧ (d.summary.getD d.top).failed = none := by
  unfold report
  by_cases h : (d.summary.getD d.top).total.getD 0 > 0
  · simp only [h, if_true, true_and]
    cases (d.summary.getD d.top).failed <;> simp
  · simp only [h, if_false, false_and, reduceCtorEq]

/-- what a missing entry counts as -/
def orZero : Option Int → Int
  | none => 0
  | some n => n

/-- In the text of any report missing counts are 0, and a missing verdict is FAILED; the entries below `summary` are used if there are any. -/
theorem C291_missing (d : Doc) (s : Entries) (hs : d.summary = some s ∨ d.summary = none ∧ d.top = s) (x : Text) (h : report d = some x) :
    x.files = orZero s.files ∧ x.total = orZero s.total ∧ x.failed = orZero s.failed ∧ x.examples = orZero s.examples ∧
      (x.passed = true ↔ s.success = some true) ∧
      x.rate = (if 0 < orZero s.total then some (((orZero s.total : ℚ) - orZero s.failed) / orZero s.total * 100) else none) := by
  have hd : d.summary.getD d.top = s := by
    rcases hs with hs | ⟨hs, ht⟩
    · rw [hs]; rfl
    · rw [hs, ht]; rfl
  unfold report at h
  rw [hd] at h
  obtain ⟨f, t, g, e, v⟩ := s
  have hv : v.getD false = true ↔ v = some true := by
    cases v with
    | none => simp
    | some b => simp
  cases f <;> cases t <;> cases g <;> cases e <;> simp only [Option.getD_none, Option.getD_some, orZero, gt_iff_lt] at h ⊢ <;>
    (split at h) <;> rename_i h0 <;>
    first
    | exact absurd h0 (lt_irrefl _)
    | (simp only [Option.some.injEq] at h; subst h; simp [h0, hv])
    | simp at h
    | simp at h0

/-- The criteria of the results of a run: examples work if no test failed; sustainable if files were processed besides. -/
theorem C291_criteria (t : DocS.Totals) :
    ((criteria (results t)).examplesWork = true ↔ t.failed = 0) ∧ ((criteria (results t)).demonstrated = true ↔ 0 < t.files) ∧
      ((criteria (results t)).sustainable = true ↔ t.failed = 0 ∧ 0 < t.files) := by
  simp [criteria, results]

/-- Violated: the text of the results of a run says failed, whatever the results: they have no verdict. -/
theorem C291_results_violated (t : DocS.Totals) : ∃ x, report (results t) = some x ∧ x.passed = false := by
  unfold report results
  simp only [Option.getD_none, Option.getD_some]
  split
  · exact ⟨_, rfl, rfl⟩
  · exact ⟨_, rfl, rfl⟩

/-- Violated: the criteria of the summary of a run do not depend on the run: examples work, and it is not sustainable. -/
theorem C291_summary_violated (t : DocS.Totals) : criteria (summary t) = ⟨true, false, false⟩ := by
  simp [criteria, summary]

/-- Violated: a run of files none of which could be imported is sustainable, and its report says passed. -/
theorem C291_broken_violated (targeted : Bool) (files : List (DocS.Txt × DocS.Loaded)) (h : DocS.chosen targeted files ≠ [])
    (hb : ∀ f ∈ files, f.2 = .importError) :
    (criteria (results (DocS.runDirectory targeted files .zero))).sustainable = true ∧
      ∃ x, report (summary (DocS.runDirectory targeted files .zero)) = some x ∧ x.passed = true := by
  have hsub : ∀ f ∈ DocS.chosen targeted files, f.2 = .importError := by
    intro f hf
    apply hb
    unfold DocS.chosen at hf
    split at hf
    · rcases List.mem_append.1 hf with hf | hf <;> exact (List.mem_filter.1 hf).1
    · exact hf
  have key : ∀ (l : List (DocS.Txt × DocS.Loaded)) (t : DocS.Totals), (∀ f ∈ l, f.2 = .importError) →
      (l.foldl (fun t f => t.add (DocS.runFile f.2)) t).failed = t.failed ∧
        (l.foldl (fun t f => t.add (DocS.runFile f.2)) t).files = t.files + l.length := by
    intro l
    induction l with
    | nil => intro t _; exact ⟨rfl, rfl⟩
    | cons f l ih =>
      intro t hl
      obtain ⟨h1, h2⟩ := ih (t.add (DocS.runFile f.2)) (fun g hg => hl g (List.mem_cons_of_mem _ hg))
      rw [List.foldl_cons, h1, h2, hl f (by simp)]
      refine ⟨rfl, ?_⟩
      simp only [DocS.Totals.add, List.length_cons]
      omega
  obtain ⟨h1, h2⟩ := key _ DocS.Totals.zero hsub
  have hfail : (DocS.runDirectory targeted files .zero).failed = 0 := h1
  have hfiles : 0 < (DocS.runDirectory targeted files .zero).files := by
    have h3 : (DocS.runDirectory targeted files .zero).files = 0 + (DocS.chosen targeted files).length := h2
    rw [h3, Nat.zero_add]
    exact List.length_pos_iff.2 h
  refine ⟨(C291_criteria _).2.2.2 ⟨hfail, hfiles⟩, _, C291_report _, ?_⟩
  simp [hfail]

/-! ### Examples -/

/-- a timeout of 30 seconds: GitHub's is 30, PyPI's stays 10 -/
example : (imported (fun v => if v = "30".toList then some 30 else none)
    (fun n => if n = "CONDA_AUTOMATION_TIMEOUT" then some "30".toList else none)).githubTimeout = 30 := by decide

/-- debugging on by "0" -/
example : (imported (fun _ => none) (fun n => if n = "CONDA_AUTOMATION_DEBUG" then some "0".toList else none)).level = "DEBUG".toList := by
  decide

/-- dry run by "Yes" -/
example : (imported (fun _ => none) (fun n => if n = "CONDA_AUTOMATION_DRY_RUN" then some "Yes".toList else none)).dryRun = true := by decide

/-- environments that differ in the token only -/
example : imported (fun _ => none) (fun n => if n = "CONDA_AUTOMATION_GITHUB_TOKEN" then some "x".toList else none) =
    imported (fun _ => none) (fun _ => none) := C290_token_violated _ _ _ (by decide)

/-- the archive of a release, of a name without a slash -/
example : sourceUrl "Ab".toList "1.0".toList = some "https://pypi.org/packages/source/a/Ab/Ab-1.0.tar.gz".toList ∧ '/' ∉ "Ab".toList := by
  decide

/-- a capital letter -/
example : hashUrl "Ab".toList "1".toList ≠ sourceUrl "Ab".toList "1".toList := by
  intro h
  exact absurd ((C290_hash_violated 'A' ['b'] ['1']).1 h) (by decide)

/-- a version and the package -/
example : jsonUrl "ab".toList none = "https://pypi.org/pypi/ab/json".toList ∧
    jsonUrl "ab".toList (some "1".toList) = "https://pypi.org/pypi/ab/1/json".toList := by decide

/-- a report without numbers -/
example : (report ⟨⟨none, none, none, none, none⟩, none⟩) = some ⟨0, 0, 0, 0, none, false⟩ := by decide

/-- a run with one failure of four -/
example : rate ⟨2, 4, 1, 4, []⟩ = 75 ∧ (1 : ℕ) ≤ 4 := by
  constructor
  · norm_num [rate]
  · decide

/-- a file that cannot be imported -/
example : (criteria (results (DocS.runDirectory false [("a.py".toList, .importError)] .zero))).sustainable = true :=
  (C291_broken_violated false _ (by simp [DocS.chosen]) (by simp)).1

end Conf
end SW
