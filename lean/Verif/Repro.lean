import Verif.PyStr
import Verif.Scripts

/-!
# `solarwindpy/reproducibility.py`

`get_git_info` runs `git` three times.  The machine may change between two commands, so the model takes one `World` per command.  A world
says whether `git` is installed, what each path is, and which directories hold a repository; paths are lists of names, innermost first.

Simplifications: a repository is its branches, tags, commits, index and working files (contents stand for content and mode); no submodules,
no intent-to-add entries, no `GIT_DIR` in the environment, no `safe.directory` refusal; names are text (a name that is not UTF-8 would
raise while decoding).  Exit statuses are those of `git`: `rev-parse` fails (128) outside a repository and before the first commit,
`diff --quiet` answers 1 when a tracked file differs from the index and fails (129) outside a repository.
-/

namespace SW.Repro

abbrev Text := List Char
abbrev Path := List Text
/-- files with their contents -/
abbrev Tree := List (Text × Text)

/-- what `HEAD` names -/
inductive Head where
  | onBranch (name : Text)
  | detached (sha : Text)
  deriving DecidableEq, Repr

/-- a git repository with its working files -/
structure Repo where
  /-- tips of the branches; a branch that is not listed has no commit yet -/
  branches : List (Text × Text)
  tags : List Text
  commits : List (Text × Tree)
  head : Head
  index : Tree
  work : Tree
  deriving DecidableEq, Repr

/-- what is found at a path -/
inductive Entry where
  | missing | file | dir | locked
  deriving DecidableEq, Repr

/-- the machine when a command is run -/
structure World where
  git : Bool
  entry : Path → Entry
  repo : Path → Option Repo

/-! ### git -/

/-- the repository `git` uses when started in a directory: that of the nearest directory upwards which holds one -/
def nearest (w : World) : Path → Option Repo
  | [] => w.repo []
  | d :: ds => match w.repo (d :: ds) with
    | some r => some r
    | none => nearest w ds

/-- the commit `HEAD` resolves to; none before the first commit -/
def Repo.tip (r : Repo) : Option Text :=
  match r.head with
  | .detached s => some s
  | .onBranch b => r.branches.lookup b

/-- the commands of `reproducibility.py:31,42,51` -/
inductive Cmd where
  | revParse | diffQuiet | abbrevRef
  deriving DecidableEq, Repr

/-- exit status and standard output of a command that was started -/
def exec (w : World) (p : Path) : Cmd → Nat × Text
  | .revParse => match (nearest w p).bind Repo.tip with
    | some s => (0, s ++ ['\n'])
    | none => (128, [])
  | .diffQuiet => match nearest w p with
    | none => (129, [])
    | some r => (if r.index.any (fun e => r.work.lookup e.1 != r.index.lookup e.1) then 1 else 0, [])
  | .abbrevRef => match nearest w p with
    | none => (128, [])
    | some r => match r.tip, r.head with
      | none, _ => (128, [])
      | some _, .detached _ => (0, "HEAD".toList ++ ['\n'])
      | some _, .onBranch b => (0, (if r.tags.contains b then "heads/".toList ++ b else b) ++ ['\n'])

/-! ### subprocess -/

/-- errors of the three calls -/
inductive Fail where
  | called        -- subprocess.CalledProcessError
  | noFile        -- FileNotFoundError
  | notDir        -- NotADirectoryError
  | denied        -- PermissionError
  deriving DecidableEq, Repr

/-- starting a child: first into `cwd`, then the executable -/
def spawn (w : World) (p : Path) (c : Cmd) : Except Fail (Nat × Text) :=
  match w.entry p with
  | .missing => .error .noFile
  | .file => .error .notDir
  | .locked => .error .denied
  | .dir => if w.git then .ok (exec w p c) else .error .noFile

/-- `subprocess.check_output(...).decode().strip()`, `reproducibility.py:29-37,49-57` -/
def checkOutput (w : World) (p : Path) (c : Cmd) : Except Fail Text :=
  match spawn w p c with
  | .error e => .error e
  | .ok (rc, out) => if rc = 0 then .ok (Scripts.stripWs out) else .error .called

/-- `subprocess.call(...) != 0`, `reproducibility.py:41-48` -/
def callFailed (w : World) (p : Path) (c : Cmd) : Except Fail Bool :=
  match spawn w p c with
  | .error e => .error e
  | .ok (rc, _) => .ok (rc != 0)

/-! ### get_git_info -/

/-- the returned dictionary, `reproducibility.py:65-71` -/
structure GitInfo where
  sha : Text
  shortSha : Text
  dirty : Option Bool
  branch : Text
  path : Path
  deriving DecidableEq, Repr

/-- `reproducibility.py:59-63` -/
def unknownInfo (p : Path) : GitInfo := ⟨"unknown".toList, "unknown".toList, none, "unknown".toList, p⟩

/-- The `try` body, `reproducibility.py:28-57`: three commands, each in the world of its moment. -/
def gitBody (w1 w2 w3 : World) (p : Path) : Except Fail GitInfo := do
  let sha ← checkOutput w1 p .revParse
  let shortSha := sha.take 7
  let dirty ← callFailed w2 p .diffQuiet
  let branch ← checkOutput w3 p .abbrevRef
  pure ⟨sha, shortSha, some dirty, branch, p⟩

/-- `get_git_info(repo_path)`, `reproducibility.py:9-71`. -/
def gitInfo (w1 w2 w3 : World) (p : Path) : Except Fail GitInfo :=
  match gitBody w1 w2 w3 p with
  | .ok r => .ok r
  | .error .called => .ok (unknownInfo p)
  | .error .noFile => .ok (unknownInfo p)
  | .error e => .error e

/-- `Path(solarwindpy.__file__).parent.parent`, `reproducibility.py:22-25` -/
def defaultPath (initFile : Path) : Path := (initFile.drop 1).drop 1

/-! ### get_info, get_citation_string, print_info -/

/-- `__import__(pkg)` and `.__version__`: a version, an `ImportError`, or anything else -/
inductive Module where
  | found (version : Text)
  | importError
  | broken (e : PyErr)
  deriving DecidableEq, Repr

/-- the interpreter `get_info` runs in -/
structure Env where
  now : Text
  sysVersion : Text
  packageVersion : Text
  initFile : Path
  module : Text → Module

/-- `get_info()`'s answer, `reproducibility.py:97-103` -/
structure Info where
  timestamp : Text
  python : Text
  version : Text
  git : GitInfo
  deps : List (Text × Text)
  deriving DecidableEq, Repr

/-- the errors of `get_info` -/
inductive InfoErr where
  | git (e : Fail)
  | py (e : PyErr)
  deriving DecidableEq, Repr

/-- `reproducibility.py:90` -/
def depNames : List Text := ["numpy", "scipy", "pandas", "matplotlib", "astropy"].map String.toList

/-- the loop of `reproducibility.py:89-95` -/
def readDeps (m : Text → Module) : List Text → Except PyErr (List (Text × Text))
  | [] => .ok []
  | n :: ns => match m n with
    | .broken e => .error e
    | .found v => (readDeps m ns).map ((n, v) :: ·)
    | .importError => (readDeps m ns).map ((n, "not installed".toList) :: ·)

/-- `sys.version.split()[0]`, `reproducibility.py:99`, for a version text that does not start with white space -/
def firstWord (s : Text) : Text := s.takeWhile (fun c => !Scripts.isWs c)

/-- `get_info()`, `reproducibility.py:74-103` -/
def getInfo (w1 w2 w3 : World) (e : Env) : Except InfoErr Info :=
  match gitInfo w1 w2 w3 (defaultPath e.initFile) with
  | .error x => .error (.git x)
  | .ok g => match readDeps e.module depNames with
    | .error x => .error (.py x)
    | .ok d => .ok ⟨e.now, firstWord e.sysVersion, e.packageVersion, g, d⟩

/-- `" (with local modifications)" if git["dirty"] else ""`, `reproducibility.py:139`: `None` counts as false -/
def dirtyNote (d : Option Bool) : Text := if d = some true then " (with local modifications)".toList else []

/-- the text of `get_citation_string`, `reproducibility.py:137-143` -/
def citation (i : Info) : Text :=
  "Analysis performed with solarwindpy ".toList ++ i.version ++ " (commit ".toList ++ i.git.shortSha ++ dirtyNote i.git.dirty
    ++ ") using Python ".toList ++ i.python ++ ".".toList

/-- `str(Path)` of an absolute path -/
def pathText (p : Path) : Text := if p = [] then ['/'] else p.reverse.flatMap (fun d => '/' :: d)

/-- the lines of `print_info`, `reproducibility.py:106-126` -/
def printed (i : Info) : List Text :=
  [List.replicate 60 '=', "REPRODUCIBILITY INFO".toList, List.replicate 60 '=',
   "Timestamp: ".toList ++ i.timestamp, "Python: ".toList ++ i.python, "solarwindpy: ".toList ++ i.version,
   "  SHA: ".toList ++ i.git.sha, "  Branch: ".toList ++ i.git.branch]
  ++ (if i.git.dirty = some true then ["  WARNING: Uncommitted changes present!".toList] else [])
  ++ ["  Path: ".toList ++ pathText i.git.path, List.replicate 60 '-', "Key dependencies:".toList]
  ++ i.deps.map (fun d => "  ".toList ++ d.1 ++ ": ".toList ++ d.2)
  ++ [List.replicate 60 '=']

end SW.Repro
