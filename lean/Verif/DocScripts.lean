import Verif.Scripts

/-!
# Model: provenance checks, documentation checks and `:no-index:`

`scripts/update_conda_feedstock.py:80-224`, `scripts/simple_doc_validation/doctest_runner.py`, `scripts/simple_doc_validation/ci_integration.py`
and `docs/add_no_index.py`.  Commands, imports and doctests are inputs: what they answered.  Printed text, JSON and GitHub outputs are not modelled.
-/

namespace SW
namespace DocS

open Scripts

abbrev Txt := List Char

/-! ### Provenance -/

/-- a command: it could not be run, or it ended with a code and wrote a text -/
inductive Ran where
  | failed
  | done (code : Nat) (out : Txt)

/-- the answers to the four git commands: scripts/update_conda_feedstock.py:106, 117, 127, 149 -/
structure Git where
  tag : Ran
  rev : Ran
  contains : Ran
  subject : Ran

/-- `[b.strip().lstrip('* ') for b in out.strip().split('\n') if b.strip()]`: scripts/update_conda_feedstock.py:134 -/
def branches (out : Txt) : List Txt :=
  ((Chars.split '\n' (stripWs out)).filter (fun b => stripWs b ≠ [])).map (fun b => (stripWs b).dropWhile (fun c => c == '*' || c == ' '))

/-- `'master' in b` -/
def mentionsMaster (b : Txt) : Bool := (splitFirst "master".toList b).isSome

/-- `verify_git_tag_provenance`: scripts/update_conda_feedstock.py:80-164; every exception gives `(False, None)` -/
def verifyTag (g : Git) (requireMaster : Bool) : Bool × Option Txt :=
  match g.tag with
  | .failed => (false, none)
  | .done _ t =>
    if stripWs t = [] then (false, none)
    else match g.rev with
      | .failed => (false, none)
      | .done code r =>
        if code ≠ 0 then (false, none)
        else match g.contains with
          | .failed => (false, none)
          | .done c bs =>
            if c = 0 && !(branches bs).isEmpty && !(branches bs).any mentionsMaster && requireMaster then (false, some (stripWs r))
            else match g.subject with
              | .failed => (false, none)
              | .done _ _ => (true, some (stripWs r))

/-- the `digest` of an asset: no such key, null, a text -/
inductive Digest where
  | absent
  | null
  | text (t : Txt)

/-- what `gh release view` gave: nothing usable (no release, no `gh`, no JSON, an asset without name), or names and digests -/
inductive Assets where
  | unusable
  | list (l : List (Txt × Digest))

/-- `github_sha256[7:] if github_sha256.startswith('sha256:')`: scripts/update_conda_feedstock.py:204-206 -/
def plainHash (t : Txt) : Txt := if "sha256:".toList.isPrefixOf t then t.drop 7 else t

/-- `verify_github_release_integrity`: scripts/update_conda_feedstock.py:166-224; every exception gives True -/
def releaseMatches (a : Assets) (sha : Txt) : Bool :=
  match a with
  | .unusable => true
  | .list l => match l.filter (fun p => ".tar.gz".toList.isSuffixOf p.1) with
    | [] => true
    | (_, .absent) :: _ => decide (plainHash [] = sha)
    | (_, .null) :: _ => true
    | (_, .text t) :: _ => decide (plainHash t = sha)

/-! ### Documentation checks -/

/-- `{"tests_attempted": …, "tests_failed": …, "examples_run": …, "success": …}` -/
structure Res where
  attempted : Nat
  failed : Nat
  examples : Nat
  success : Bool
  deriving DecidableEq

/-- one doctest that has examples: how many, and what the runner reports; `none` if the runner raised -/
structure Test where
  examples : Nat
  result : Option (Nat × Nat)

/-- what loading a Python file gave -/
inductive Loaded where
  | noLoader
  | importError
  | module (tests : List Test)

/-- the loop over the tests: scripts/simple_doc_validation/doctest_runner.py:62-67 -/
def runTests : List Test → Res → Except Unit Res × Res
  | [], r => (.ok r, r)
  | t :: ts, r =>
    if t.examples = 0 then runTests ts r
    else match t.result with
      | none => (.error (), r)
      | some (a, f) => runTests ts ⟨r.attempted + a, r.failed + f, r.examples + t.examples, r.success⟩

/-- `run_file` of a Python file: scripts/simple_doc_validation/doctest_runner.py:26-76 -/
def runFile : Loaded → Res
  | .noLoader => ⟨0, 0, 0, false⟩
  | .importError => ⟨0, 0, 0, false⟩
  | .module ts =>
    match runTests ts ⟨0, 0, 0, true⟩ with
    | (.ok r, _) => { r with success := r.failed == 0 || r.attempted == 0 }
    | (.error _, r) => { r with success := false }

/-- the totals of a run -/
structure Totals where
  files : Nat
  tests : Nat
  failed : Nat
  examples : Nat
  results : List Res

def Totals.add (t : Totals) (r : Res) : Totals :=
  ⟨t.files + 1, t.tests + r.attempted, t.failed + r.failed, t.examples + r.examples, t.results ++ [r]⟩

def Totals.zero : Totals := ⟨0, 0, 0, 0, []⟩

def mentions (p : Txt) (path : Txt) : Bool := (splitFirst p path).isSome

/-- critical and important paths: scripts/simple_doc_validation/doctest_runner.py:88-96 -/
def critical (path : Txt) : Bool := mentions "core/".toList path || mentions "instabilities/".toList path
def important (path : Txt) : Bool := mentions "plotting/".toList path || mentions "fitfunctions/".toList path

/-- the files to process: scripts/simple_doc_validation/doctest_runner.py:78-107 -/
def chosen (targeted : Bool) (files : List (Txt × Loaded)) : List (Txt × Loaded) :=
  if targeted then files.filter (fun f => critical f.1) ++ files.filter (fun f => important f.1) else files

/-- `run_directory`: scripts/simple_doc_validation/doctest_runner.py:78-130; the results so far are kept -/
def runDirectory (targeted : Bool) (files : List (Txt × Loaded)) (t : Totals) : Totals :=
  (chosen targeted files).foldl (fun t f => t.add (runFile f.2)) t

/-- exit code of `doctest_runner.py`: lines 132-149, 221 -/
def runnerExit (t : Totals) : Nat := if t.failed = 0 then 0 else 1

/-- a file given to the CI check: missing, Python, reStructuredText (`none`: it could not be read), anything else -/
inductive CiFile where
  | missing
  | py (l : Loaded)
  | rst (blocks : Option Nat)
  | other

/-- `validate_rst_examples`: scripts/simple_doc_validation/ci_integration.py:74-93 -/
def rstResult : Option Nat → Res
  | none => ⟨0, 0, 0, false⟩
  | some n => ⟨n, 0, n, true⟩

/-- one file of `run_validation`: scripts/simple_doc_validation/ci_integration.py:54-70 -/
def ciStep (s : Totals × Bool) : CiFile → Totals × Bool
  | .missing => s
  | .other => s
  | .py l => (s.1.add (runFile l), s.2 && (runFile l).success)
  | .rst b => (⟨s.1.files + 1, s.1.tests, s.1.failed, s.1.examples, s.1.results ++ [rstResult b]⟩, s.2)

/-- `run_validation`: scripts/simple_doc_validation/ci_integration.py:40-72 -/
def ciRun (files : List CiFile) : Totals × Bool := files.foldl ciStep (Totals.zero, true)

/-- exit code of `ci_integration.py`: lines 131-143, 160-168 -/
def ciExit (files : List CiFile) : Nat := if (ciRun files).2 then 0 else 1

/-! ### docs/add_no_index.py -/

def automodule : Txt := ".. automodule:: ".toList
def options : Txt := "\n   :members:\n   :show-inheritance:\n   :undoc-members:".toList
def noIndex : Txt := "\n   :no-index:".toList

/-- the pattern at the beginning of the text: the name; docs/add_no_index.py:34 -/
def blockAt (s : Txt) : Option Txt :=
  if automodule.isPrefixOf s then
    let name := (s.drop automodule.length).takeWhile (· ≠ '\n')
    if name ≠ [] ∧ options.isPrefixOf ((s.drop automodule.length).dropWhile (· ≠ '\n')) then some name else none
  else none

/-- `re.sub(pattern, r'\1\n   :no-index:', content)`: docs/add_no_index.py:34-37.  The first argument counts the characters of the current
match still to be copied, after which the line is inserted. -/
def subGo : Nat → Txt → Txt
  | _, [] => []
  | k + 1, c :: cs => if k = 0 then c :: (noIndex ++ subGo 0 cs) else c :: subGo k cs
  | 0, c :: cs =>
    match blockAt (c :: cs) with
    | some name => c :: subGo (automodule.length + name.length + options.length - 1) cs
    | none => c :: subGo 0 cs

/-- one page: docs/add_no_index.py:22-43 -/
def page (isModules : Bool) (content : Txt) : Txt :=
  if isModules then content
  else if (splitFirst ".. automodule::".toList content).isNone then content
  else if (splitFirst ":no-index:".toList content).isSome then content
  else subGo 0 content

end DocS
end SW
