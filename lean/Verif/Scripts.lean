import Mathlib.Data.Rat.Defs
import Mathlib.Algebra.Order.Ring.Rat
import Verif.PyStr
import Verif.Labels

/-!
# Release scripts (`/repo/scripts`)

`bump_version.py`, `wait_for_pypi.py`, `requirements_to_conda_env.py`, `update_conda_feedstock.py`, `update_pr_references.py`,
`compare_feedstock_deps.py`, `check_release_ready.py`.  Text is handled as lists of characters; the regular expressions are modelled by
hand-written readers (`\d` and white space restricted to ASCII).  Printing is not modelled.
-/

namespace SW.Scripts

/-! ### strings -/

/-- ASCII white space, as removed by `str.strip()` -/
def isWs (c : Char) : Bool := [' ', '\t', '\n', '\r', '\x0b', '\x0c', '\x1c', '\x1d', '\x1e', '\x1f'].contains c

/-- `str.strip()` -/
def stripWs (s : List Char) : List Char := ((s.dropWhile isWs).reverse.dropWhile isWs).reverse

/-- `s.split(op, 1)` when `op in s`: the text before and after the first occurrence; `none` when `op not in s`. -/
def splitFirst (op : List Char) : List Char → Option (List Char × List Char)
  | [] => if op = [] then some ([], []) else none
  | c :: cs =>
    if op.isPrefixOf (c :: cs) then some ([], (c :: cs).drop op.length)
    else (splitFirst op cs).map (fun p => (c :: p.1, p.2))

/-! ### bump_version.py -/

/-- The pre-release stages of the pattern, `scripts/bump_version.py:87`. -/
inductive Stage where
  | alpha | beta | rc
  deriving DecidableEq, Repr

def Stage.text : Stage → String
  | .alpha => "alpha" | .beta => "beta" | .rc => "rc"

/-- What `parse_version` returns, `scripts/bump_version.py:75-101`. -/
structure Ver where
  major : Nat
  minor : Nat
  patch : Nat
  pre : Option (Stage × Option Nat)
  deriving DecidableEq, Repr

/-- `(\d+)` followed by the rest -/
def takeNum (s : List Char) : Option (Nat × List Char) :=
  if s.takeWhile Char.isDigit = [] then none
  else some (Nat.ofDigitChars 10 (s.takeWhile Char.isDigit) 0, s.dropWhile Char.isDigit)

/-- a literal character followed by the rest -/
def takeLit (c : Char) : List Char → Option (List Char)
  | [] => none
  | d :: r => if d = c then some r else none

/-- `$`: the end, or just before a final newline -/
def atEnd (s : List Char) : Bool := s = [] || s = ['\n']

/-- `(alpha|beta|rc)` followed by the rest -/
def takeStage (s : List Char) : Option (Stage × List Char) :=
  if "alpha".toList.isPrefixOf s then some (.alpha, s.drop 5)
  else if "beta".toList.isPrefixOf s then some (.beta, s.drop 4)
  else if "rc".toList.isPrefixOf s then some (.rc, s.drop 2)
  else none

/-- `(\d*)$` -/
def takeOptNum (s : List Char) : Option (Option Nat) :=
  if atEnd (s.dropWhile Char.isDigit) then some ((takeNum s).map Prod.fst) else none

/-- `(?:-(alpha|beta|rc)(\d*))?$`, `scripts/bump_version.py:87` -/
def takePre (s : List Char) : Option (Option (Stage × Option Nat)) :=
  if atEnd s then some none
  else do
    let r ← takeLit '-' s
    let (st, r) ← takeStage r
    let n ← takeOptNum r
    pure (some (st, n))

/-- the pattern of `scripts/bump_version.py:87` -/
def parseBody (s : List Char) : Option Ver := do
  let (a, r) ← takeNum s
  let r ← takeLit '.' r
  let (b, r) ← takeNum r
  let r ← takeLit '.' r
  let (c, r) ← takeNum r
  let p ← takePre r
  pure ⟨a, b, c, p⟩

/-- `s[1:] if s.startswith("v") else s`, `scripts/bump_version.py:83-84,140-141` -/
def dropV : List Char → List Char
  | 'v' :: r => r
  | s => s

/-- `parse_version`, `scripts/bump_version.py:75-101` -/
def parseVersion (s : String) : Except PyErr Ver :=
  match parseBody (dropV s.toList) with
  | some v => .ok v
  | none => .error .valueError

/-- `f"v{major}.{minor}.{patch}"` -/
def showRelease (a b c : Nat) : String := "v" ++ toString a ++ "." ++ toString b ++ "." ++ toString c

/-- `f"v{major}.{minor}.{patch}-{bump_type}{num}"` -/
def showPre (a b c : Nat) (t : Stage) (n : Nat) : String := showRelease a b c ++ "-" ++ t.text ++ toString n

/-- The stage named by the command line word. -/
def stageOf (kind : String) : Option Stage :=
  if kind = "rc" then some .rc else if kind = "beta" then some .beta else if kind = "alpha" then some .alpha else none

/-- the pre-release branch, `scripts/bump_version.py:121-131` -/
def bumpPre (v : Ver) (t : Stage) : String :=
  match v.pre with
  | some (st, n) => if st = t then showPre v.major v.minor v.patch t (n.getD 0 + 1) else showPre v.major v.minor v.patch t 1
  | none => showPre v.major v.minor (v.patch + 1) t 1

/-- `bump_version`, `scripts/bump_version.py:104-133` -/
def bump (cur kind : String) : Except PyErr String := do
  let v ← parseVersion cur
  if kind = "major" then pure (showRelease (v.major + 1) 0 0)
  else if kind = "minor" then pure (showRelease v.major (v.minor + 1) 0)
  else if kind = "patch" then
    if v.pre.isSome then pure (showRelease v.major v.minor v.patch) else pure (showRelease v.major v.minor (v.patch + 1))
  else
    match stageOf kind with
    | some t => pure (bumpPre v t)
    | none => throw .valueError

/-- `packaging.version.Version._key`, release part: trailing zeros removed. -/
def relKey (v : Ver) : List Nat := ([v.major, v.minor, v.patch].reverse.dropWhile (· = 0)).reverse

/-- `packaging`'s letter for the stage (`alpha → a`, `beta → b`, `rc → rc`) -/
def preLetter : Stage → List Char
  | .alpha => ['a'] | .beta => ['b'] | .rc => ['r', 'c']

/-- tuple comparison of the release parts -/
def natsLt : List Nat → List Nat → Bool
  | [], [] => false
  | [], _ :: _ => true
  | _ :: _, [] => false
  | a :: as, b :: bs => if a < b then true else if b < a then false else natsLt as bs

/-- comparison of the pre-release parts; no pre-release sorts last (`Infinity`) -/
def preLt : Option (Stage × Option Nat) → Option (Stage × Option Nat) → Bool
  | none, _ => false
  | some _, none => true
  | some (s, n), some (t, m) =>
    if preLetter s = preLetter t then decide (n.getD 0 < m.getD 0) else decide (preLetter s < preLetter t)

/-- `packaging.version` comparison `a < b` for versions with three release components and an optional pre-release -/
def pkgLt (a b : Ver) : Bool :=
  if relKey a = relKey b then preLt a.pre b.pre else natsLt (relKey a) (relKey b)

/-- `validate_version_progression`, `scripts/bump_version.py:136-148`.  `packaging.version.parse` is modelled on the strings of the
script's own pattern, which it reads with the same components (missing pre-release number `0`); other strings count as unreadable. -/
def validateProgression (cur new : String) : Bool :=
  match parseBody (dropV cur.toList), parseBody (dropV new.toList) with
  | some c, some n => pkgLt c n
  | _, _ => false

/-- `get_latest_version`, `scripts/bump_version.py:53-72`: `sorted` is git's answer to `tag -l 'v*' --sort=-version:refname`, `none` when
git fails. -/
def latest (sorted : Option (List String)) : Option String :=
  match sorted with
  | none => none
  | some l =>
    ((l.filter (fun t => !(stripWs t.toList).isEmpty)).filter
      (fun t => decide (t.toList.head? = some 'v') && (splitFirst "compaction".toList t.toList).isNone)).head?

/-- the current version used by `main`, `scripts/bump_version.py:228-241` -/
def currentVersion (fromV : Option String) (sorted : Option (List String)) : String :=
  match fromV with
  | some s => if s = "" then (latest sorted).getD "v0.0.0" else if s.toList.head? = some 'v' then s else "v" ++ s
  | none => (latest sorted).getD "v0.0.0"

/-- the words accepted by `argparse`, `scripts/bump_version.py:204` -/
def choices : List String := ["major", "minor", "patch", "rc", "beta", "alpha"]

/-- `create_tag`, `scripts/bump_version.py:169-194`: git refuses a tag that exists. -/
def createTag (tag : String) (dry : Bool) (tags : List String) : Bool × List String :=
  if dry then (true, tags) else if tag ∈ tags then (false, tags) else (true, tag :: tags)

/-- the steps after the current version is known, `scripts/bump_version.py:243-283` -/
def release (cur kind : String) (dry : Bool) (tags : List String) : Nat × List String :=
  match bump cur kind with
  | .error _ => (1, tags)
  | .ok new =>
    if validateProgression cur new then
      match parseVersion new with
      | .error _ => (1, tags)
      | .ok _ => if (createTag new dry tags).1 then (0, (createTag new dry tags).2) else (1, (createTag new dry tags).2)
    else (1, tags)

/-- `main`, `scripts/bump_version.py:197-283`: exit code and the repository's tags afterwards. -/
def bumpMain (kind : String) (dry : Bool) (fromV : Option String) (clean : Bool) (sorted : Option (List String)) (tags : List String) :
    Nat × List String :=
  if kind ∉ choices then (2, tags)
  else if !dry && !clean then (1, tags)
  else release (currentVersion fromV sorted) kind dry tags

/-! ### wait_for_pypi.py -/

/-- `normalize_version`, `scripts/wait_for_pypi.py:25-38`: `lstrip('v')` -/
def normalizeVersion (s : String) : String := String.ofList (s.toList.dropWhile (· = 'v'))

/-- What the index answers to one request. -/
inductive Reply where
  | failed
  | status (code : Nat) (version : Option String)
  deriving DecidableEq, Repr

/-- `check_pypi_availability`, `scripts/wait_for_pypi.py:41-68` -/
def checkAvailable (want : String) : Reply → Bool
  | .failed => false
  | .status code v => decide (code = 200) && decide (v = some want)

/-- One attempt as seen by the script: the answer, how long the request took, and by how much the sleep overran. -/
structure Attempt where
  reply : Reply
  dur : ℚ
  over : ℚ

/-- How `wait_for_pypi` ended and what it did: result, time, number of requests, sleeps with their start. -/
structure Waited where
  result : Except PyErr Bool
  time : ℚ
  checks : Nat
  sleeps : List (ℚ × ℚ)

def Waited.push (s : ℚ × ℚ) (w : Waited) : Waited := { w with checks := w.checks + 1, sleeps := s :: w.sleeps }

/-- the loop of `wait_for_pypi`, `scripts/wait_for_pypi.py:97-118`, started at time `t` after the start with interval `i`; attempt `k`
of the schedule comes next.  `none` when `fuel` attempts do not finish it.  Times are rational; the clock does not move between two
consecutive reads except in requests and sleeps; `time.sleep` refuses a negative duration. -/
def waitLoop (want : String) (maxWait : ℚ) (sched : Nat → Attempt) : Nat → Nat → ℚ → ℚ → Option Waited
  | 0, _, t, _ => if t < maxWait then none else some ⟨.ok false, t, 0, []⟩
  | fuel + 1, k, t, i =>
    if t < maxWait then
      if checkAvailable want (sched k).reply then some ⟨.ok true, t + (sched k).dur, 1, []⟩
      else if maxWait - (t + (sched k).dur) ≤ 0 then some ⟨.ok false, t + (sched k).dur, 1, []⟩
      else if min i (maxWait - (t + (sched k).dur)) < 0 then some ⟨.error .valueError, t + (sched k).dur, 1, []⟩
      else
        (waitLoop want maxWait sched fuel (k + 1)
          (t + (sched k).dur + min i (maxWait - (t + (sched k).dur)) + (sched k).over) (min (i * (3 / 2)) 60)).map
          (Waited.push (t + (sched k).dur, min i (maxWait - (t + (sched k).dur))))
    else some ⟨.ok false, t, 0, []⟩

/-- `wait_for_pypi`, `scripts/wait_for_pypi.py:71-118` -/
def wait (want : String) (maxWait interval : ℚ) (sched : Nat → Attempt) (fuel : Nat) : Option Waited :=
  waitLoop want maxWait sched fuel 0 0 interval

/-- `validate_version`, `scripts/wait_for_pypi.py:121-143`, on the versions of the bump script's pattern; any other string is treated as
unreadable (simplification: `packaging` reads more). -/
def validateVersion (s : String) : Bool :=
  match parseBody (dropV s.toList) with
  | some v => v.pre.isNone
  | none => false

/-- `main`, `scripts/wait_for_pypi.py:146-208`: the exit code (1 also for the traceback of an exception) -/
def waitMain (arg : String) (noRc : Bool) (maxWait interval : ℚ) (sched : Nat → Attempt) (fuel : Nat) : Option Nat :=
  if !noRc && !validateVersion (normalizeVersion arg) then some 1
  else (wait (normalizeVersion arg) maxWait interval sched fuel).map
    (fun w => if w.result.toOption = some true then 0 else 1)

/-! ### requirements_to_conda_env.py -/

/-- `PIP_TO_CONDA_NAMES`, `scripts/requirements_to_conda_env.py:40-46` -/
def condaNames : List (String × String) := [
  ("tables", "pytables"), ("blosc2", "python-blosc2"), ("msgpack", "msgpack-python"),
  ("mypy-extensions", "mypy_extensions"), ("restructuredtext-lint", "restructuredtext_lint")]

/-- `PIP_TO_CONDA_NAMES.get(p, p)` -/
def condaName (p : List Char) : List Char := ((condaNames.lookup (String.ofList p)).getD (String.ofList p)).toList

/-- `INCOMPATIBLE_VERSION_SCHEMES`, `scripts/requirements_to_conda_env.py:56-58` -/
def incompatible : List String := ["tzdata"]

/-- the operators in the order tried, `scripts/requirements_to_conda_env.py:103,159` -/
def operators : List String := [">=", "<=", "==", "!=", ">", "<", "~="]

/-- what is returned once an operator splits the line, `scripts/requirements_to_conda_env.py:105-130` -/
def translated (op : String) (p v : List Char) : List Char :=
  if String.ofList p ∈ incompatible then condaName p
  else if op = "==" then condaName p
  else condaName p ++ op.toList ++ v

/-- the loop over the operators, `scripts/requirements_to_conda_env.py:103-133` -/
def translateGo (s : List Char) : List String → List Char
  | [] => condaName (stripWs s)
  | op :: ops =>
    match splitFirst op.toList s with
    | some (p, v) => translated op (stripWs p) (stripWs v)
    | none => translateGo s ops

/-- `translate_package_name`, `scripts/requirements_to_conda_env.py:68-133` -/
def translate (s : List Char) : List Char := translateGo s operators

/-- `generate_environment`, `scripts/requirements_to_conda_env.py:136-226`: the dependency list written, or the refusal (`FileExistsError`);
`PIP_ONLY_PACKAGES` is empty. -/
def generateEnv (lines : List (List Char)) (exists_ overwrite : Bool) : Except PyErr (List (List Char)) :=
  if exists_ && !overwrite then .error .other
  else .ok (((lines.map stripWs).filter (fun l => !l.isEmpty && decide (l.head? ≠ some '#'))).map translate)

/-! ### update_conda_feedstock.py -/

/-- one line of `update_meta_yaml`, `scripts/update_conda_feedstock.py:331-337` -/
def metaLine (ver sha : String) (line : List Char) : List Char :=
  if "{% set version =".toList.isPrefixOf (stripWs line) then ("{% set version = \"" ++ ver ++ "\" %}").toList
  else if "sha256:".toList.isPrefixOf (stripWs line) then ("  sha256: " ++ sha).toList
  else line

/-- `update_meta_yaml`, `scripts/update_conda_feedstock.py:300-348`: the new file content (it always reports success when the file
exists). -/
def metaYaml (ver sha : String) (content : List Char) : List Char :=
  Chars.join '\n' ((Chars.split '\n' content).map (metaLine ver sha))

/-- What the outside world answers in one run of `update_feedstock`. -/
structure World where
  index : Reply
  provenance : Bool × Option String
  sha : Option String
  githubMatches : Bool
  issue : Option String

/-- the first part of the issue text, `scripts/update_conda_feedstock.py:431-443` -/
def issueHead (pkg ver sha : String) (commit : Option String) : String :=
  "## Automated Conda Feedstock Update\n\n**Version**: `" ++ ver ++ "`\n**Package**: `" ++ pkg ++ "`\n**PyPI URL**: https://pypi.org/project/"
    ++ pkg ++ "/" ++ ver ++ "/\n**SHA256**: `" ++ sha ++ "`" ++
    (match commit with
     | some c => if c = "" then "" else "\n**Git Commit**: `" ++ c ++ "`\n**GitHub Release**: https://github.com/blalterman/SolarWindPy/releases/tag/v"
        ++ ver ++ "\n**Source Provenance**: ✅ Verified"
     | none => "")

/-- the second part, a plain string literal without the `f` prefix: the fields stay as written,
`scripts/update_conda_feedstock.py:445-517`.  Simplified: only the part up to the checklist. -/
def issueTail : String := "\n\n\n---\n\n{comparison_output}\n\n---\n\n### Update Checklist\n"

/-- the issue text of `create_tracking_issue`; `comparison` is the output of `_get_dependency_comparison`,
`scripts/update_conda_feedstock.py:429-517` -/
def issueBody (pkg ver sha : String) (commit : Option String) (_comparison : String) : String :=
  issueHead pkg ver sha commit ++ issueTail

/-- `validate_pypi_release`, `scripts/update_conda_feedstock.py:226-268` (versions of the bump script's pattern) -/
def validateRelease (ver : String) (r : Reply) : Bool := validateVersion ver && checkAvailable ver r

/-- `update_feedstock`, `scripts/update_conda_feedstock.py:582-649`: success and the issues created (title version, commit) -/
def updateFeedstock (ver : String) (dry : Bool) (w : World) : Bool × List (String × Option String) :=
  if !validateRelease ver w.index then (false, [])
  else
    match w.sha with
    | none => (false, [])
    | some h =>
      if h = "" then (false, [])
      else if dry then (true, [])
      else (true, if w.issue.isSome then
        [(ver, if w.provenance.1 && (w.provenance.2.getD "") ≠ "" then w.provenance.2 else none)] else [])

/-- `main`, `scripts/update_conda_feedstock.py:657-721`: `--no-issue` is read and never used. -/
def feedstockMain (arg : String) (dry _noIssue : Bool) (w : World) : Nat × List (String × Option String) :=
  ((if (updateFeedstock (normalizeVersion arg) dry w).1 then 0 else 1), (updateFeedstock (normalizeVersion arg) dry w).2)

/-! ### update_pr_references.py -/

/-- `re.subn("#PR_NUMBER", f"#{pr_number}", content)`, `scripts/update_pr_references.py:51`; `none` when nothing was replaced -/
def replacePlaceholder (n : Nat) (content : List Char) : Option (List Char) :=
  if (splitFirst "#PR_NUMBER".toList content).isNone then none
  else some (Labels.replGo "#PR_NUMBER".toList ('#' :: (toString n).toList) 0 content)

/-- `re.subn(rf"#{n}(?! \(closed\))", f"#{n} (closed)", content)`, `scripts/update_pr_references.py:76-77`; `ref` is `#n`.  The first
argument counts the characters of the current match still to be skipped. -/
def closeGo (ref : List Char) : Nat → List Char → List Char
  | _, [] => []
  | k + 1, _ :: cs => closeGo ref k cs
  | 0, c :: cs =>
    if ref.isPrefixOf (c :: cs) && !" (closed)".toList.isPrefixOf ((c :: cs).drop ref.length) then
      ref ++ " (closed)".toList ++ closeGo ref (ref.length - 1) cs
    else c :: closeGo ref 0 cs

/-- Is there a match of the pattern? -/
def openRef (ref : List Char) : List Char → Bool
  | [] => false
  | c :: cs => (ref.isPrefixOf (c :: cs) && !" (closed)".toList.isPrefixOf ((c :: cs).drop ref.length)) || openRef ref cs

def refText (n : Nat) : List Char := '#' :: (toString n).toList

/-- `mark_closed`, `scripts/update_pr_references.py:58-81`; `none` when nothing was replaced -/
def markClosed (n : Nat) (content : List Char) : Option (List Char) :=
  if openRef (refText n) content then some (closeGo (refText n) 0 content) else none

/-- `main`, `scripts/update_pr_references.py:84-102`: exit code and file afterwards (`none` = no such file) -/
def prMain (n : Nat) (action : String) (file : Option (List Char)) : Nat × Option (List Char) :=
  match file with
  | none => (if action = "reopened" then 0 else 1, none)
  | some c =>
    if action = "closed" then
      match markClosed n c with
      | some c' => (0, some c')
      | none => (1, some c)
    else
      match replacePlaceholder n c with
      | some c' => (0, some c')
      | none => (if action = "opened" then 1 else 0, some c)

/-! ### compare_feedstock_deps.py -/

/-- `s.split(op)[0]` -/
def before (op : String) (s : List Char) : List Char :=
  match splitFirst op.toList s with
  | some (p, _) => p
  | none => s

/-- `get_pkg_name`, `scripts/compare_feedstock_deps.py:109-111` -/
def pkgName (dep : List Char) : List Char := stripWs (before "==" (before "<" (before ">=" dep)))

/-- `{get_pkg_name(dep): dep for dep in deps}[name]`, `scripts/compare_feedstock_deps.py:113-114`: the last one wins; `""` when absent -/
def specOf (deps : List (List Char)) (name : List Char) : List Char :=
  (deps.reverse.find? (fun d => decide (pkgName d = name))).getD []

inductive Marker where
  | same | different | added | onlyFeedstock
  deriving DecidableEq, Repr

/-- the marker of one row, `scripts/compare_feedstock_deps.py:121-132` -/
def marker (left right : List Char) : Marker :=
  if left ≠ [] ∧ right ≠ [] then (if left ≠ right then .different else .same)
  else if left ≠ [] ∧ right = [] then .added
  else if right ≠ [] ∧ left = [] then .onlyFeedstock
  else .same

/-- the rows of `display_side_by_side`, `scripts/compare_feedstock_deps.py:117-134`, without the sorting: (name, marker, left, right) -/
def rows (py feed : List (List Char)) : List (List Char × Marker × List Char × List Char) :=
  ((py.map pkgName ++ feed.map pkgName).dedup).map
    (fun n => (n, marker (specOf py n) (specOf feed n), specOf py n, specOf feed n))

/-! ### check_release_ready.py -/

/-- exit code and (stripped) standard output of a command, `scripts/check_release_ready.py:30-41` -/
abbrev Cmd := Nat × String

/-- `check_git_status`, `scripts/check_release_ready.py:44-53` -/
def checkStatus (r : Cmd) : Bool := decide (r.1 = 0) && decide (r.2 = "")

/-- `check_branch`, `scripts/check_release_ready.py:56-71` -/
def checkBranch (r : Cmd) : Bool :=
  decide (r.1 = 0) && (decide (r.2 = "master" ∨ r.2 = "main") || !"feature/".toList.isPrefixOf r.2.toList)

/-- `check_setuptools_scm`, `scripts/check_release_ready.py:74-89`; `none` when the version cannot be found -/
def checkScm (v : Option String) : Bool :=
  match v with
  | some s => (splitFirst "dev".toList s.toList).isNone
  | none => false

/-- the pattern `\s*\n` followed by `(.*?)(?=## \[)` at the text after the heading, `scripts/check_release_ready.py:109-111`: the white
space up to the last newline of the leading white space, then the text up to the next `## [`.  `none` when it does not match.  Since only
`group(1).strip()` is used, the white space skipped need not be tracked. -/
def unreleasedText (afterHeading : List Char) : Option (List Char) :=
  if '\n' ∈ afterHeading.takeWhile isWs then (splitFirst "## [".toList afterHeading).map Prod.fst else none

/-- `re.search` over all headings: the first place where the pattern matches -/
def searchUnreleased : List Char → Option (List Char)
  | [] => none
  | c :: cs =>
    if "## [Unreleased]".toList.isPrefixOf (c :: cs) then
      match unreleasedText ((c :: cs).drop 15) with
      | some t => some t
      | none => searchUnreleased cs
    else searchUnreleased cs

/-- `check_changelog`, `scripts/check_release_ready.py:92-118` -/
def checkChangelog (file : Option (List Char)) : Bool :=
  match file with
  | none => false
  | some c =>
    if (splitFirst "## [Unreleased]".toList c).isNone then false
    else match searchUnreleased c with
      | some t => (stripWs t).isEmpty
      | none => true

/-- `check_github_access`, `scripts/check_release_ready.py:151-161` -/
def checkGithub (r : Cmd) : Bool := decide (r.1 = 0) && (splitFirst "github.com".toList r.2.toList).isSome

/-- What the checks see. -/
structure Repo where
  status : Cmd
  branch : Cmd
  scm : Option String
  changelog : Option (List Char)
  tests : Cmd
  flake8 : Cmd
  build : Cmd
  remote : Cmd

/-- the table of `main`, `scripts/check_release_ready.py:235-245`, evaluated (`check_tests`, `check_linting`, `check_build_system` look at
the exit code only, `check_pypi_tokens` always passes) -/
def checks (r : Repo) : List (String × Bool) := [
  ("Git Status", checkStatus r.status), ("Branch Check", checkBranch r.branch), ("Version Detection", checkScm r.scm),
  ("Changelog", checkChangelog r.changelog), ("Tests", decide (r.tests.1 = 0)), ("Code Quality", decide (r.flake8.1 = 0)),
  ("Build System", decide (r.build.1 = 0)), ("GitHub Access", checkGithub r.remote), ("PyPI Tokens", true)]

/-- the exit code, `scripts/check_release_ready.py:263-264` -/
def readyExit (r : Repo) : Nat := ((checks r).filter (fun c => !c.2)).length

end SW.Scripts
