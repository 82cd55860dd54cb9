import Verif.Scripts

/-!
# Issues from plans

Models `/repo/plans/issues_from_plans.py`: reading a plan, the title of its issue, listing the existing issues page by page, and the
run that creates the missing ones.  Text is a list of characters; letters and digits are the ASCII ones.  The YAML parser is a
parameter (`Yaml` is what the code can see of its result); the walk through the directory is the list of files it returns.  The log and the
summary table are the list of outcomes.
-/

namespace SW
namespace Plans

abbrev Txt := List Char

/-- a field of the front matter: absent, text, or something else -/
inductive Field where
  | absent
  | text (t : Txt)
  | other
  deriving DecidableEq

/-- `yaml.safe_load`: not YAML, not a mapping (for instance empty), or a mapping with these fields -/
inductive Yaml where
  | invalid
  | noMapping
  | mapping (name about : Field) (labels : List Txt)

/-- `meta.get(key, "").strip()`: issues_from_plans.py:56-57 -/
def Field.strip : Field → Except PyErr Txt
  | .absent => .ok []
  | .text t => .ok (Scripts.stripWs t)
  | .other => .error .attributeError

structure Plan where
  name : Txt
  about : Txt
  labels : List Txt
  body : Txt
  deriving DecidableEq

def dashes : Txt := ['-', '-', '-']

/-- `## 🧠 Context` -/
def context : Txt := ['#', '#', ' ', '🧠', ' ', 'C', 'o', 'n', 't', 'e', 'x', 't']

/-- `rest[rest.find(context):].lstrip()` or `rest.lstrip("\n")`: issues_from_plans.py:52-53 -/
def bodyOf (rest : Txt) : Txt :=
  match Scripts.splitFirst context rest with
  | some (_, after) => context ++ after
  | none => rest.dropWhile (· == '\n')

/-- `load_markdown_plan`: issues_from_plans.py:31-60 -/
def load (yaml : Txt → Yaml) (text : Txt) : Except PyErr Plan :=
  if dashes.isPrefixOf text then
    match Scripts.splitFirst dashes (text.drop 3) with
    | none => .error .valueError
    | some (fm, rest) =>
      match yaml fm with
      | .invalid => .error .other
      | .noMapping => .error .attributeError
      | .mapping name about labels => do
        let n ← name.strip
        let a ← about.strip
        .ok ⟨n, a, labels, bodyOf rest⟩
  else .error .valueError

/-! ### Titles -/

/-- `re.split(r"[-_]", s)`: issues_from_plans.py:202, 205 -/
def splitName (s : Txt) : List Txt := Chars.split '-' (s.map fun c => if c = '_' then '-' else c)

/-- `part.capitalize()`: issues_from_plans.py:202 -/
def capitalize : Txt → Txt
  | [] => []
  | c :: r => c.toUpper :: r.map Char.toLower

def lower (s : Txt) : Txt := s.map Char.toLower

/-- issues_from_plans.py:200-203 -/
def dirTitle (dir : Txt) : Txt := Chars.join ' ' (((splitName dir).filter fun p => p ≠ []).map capitalize)

/-- issues_from_plans.py:205-206: the first part of the file name if it is a number -/
def number (stem : Txt) : Txt :=
  match splitName stem with
  | p :: _ => if p ≠ [] ∧ p.all Char.isDigit then p else []
  | [] => []

/-- the part after the last dash: issues_from_plans.py:209-214 -/
def lastPart (n : Txt) : Txt :=
  if '–' ∈ n then Scripts.stripWs ((Chars.split '–' n).getLast?.getD [])
  else if '-' ∈ n then Scripts.stripWs ((Chars.split '-' n).getLast?.getD [])
  else n

/-- issues_from_plans.py:216-217 -/
def dropDir (dt n : Txt) : Txt :=
  if (lower dt).isPrefixOf (lower n) then (n.drop dt.length).dropWhile (fun c => c == ' ' || c == '-' || c == '–') else n

/-- `infer_issue_title(path, name)`: issues_from_plans.py:181-222, for the directory and the stem of the file -/
def title (dir stem name : Txt) : Txt :=
  let dt := dirTitle dir
  let part := if name ≠ [] then
      let n := dropDir dt (lastPart (Scripts.stripWs name))
      if number stem ≠ [] then Scripts.stripWs (number stem ++ ' ' :: n) else n
    else Chars.join ' ' (splitName stem)
  Scripts.stripWs (dt ++ [' ', '–', ' '] ++ part)

/-! ### The issues of a repository -/

/-- the loop of `fetch_existing_issue_titles`: issues_from_plans.py:83-94.  `L k` are the titles in the tracker when page `k` is asked for;
a page holds `n` (100) of them.  `none`: still running after `fuel` requests. -/
def fetch (n : Nat) (L : Nat → List Txt) : Nat → Nat → Option (List Txt)
  | 0, _ => none
  | fuel + 1, page =>
    match ((L page).drop ((page - 1) * n)).take n with
    | [] => some []
    | t :: ts => (fetch n L fuel (page + 1)).map ((t :: ts) ++ ·)

/-- what happens to a request to create an issue: done, refused, or done although an error is reported (a lost answer) -/
inductive Reply where
  | done
  | refused
  | lost
  deriving DecidableEq

structure Issue where
  title : Txt
  body : Txt
  labels : List Txt
  deriving DecidableEq

/-- a file below the plans: directory, stem and text -/
structure File where
  dir : Txt
  stem : Txt
  text : Txt

inductive Outcome where
  | created (t : Txt)
  | exists_ (t : Txt)
  | error
  deriving DecidableEq

/-- the issue of a file: issues_from_plans.py:316-319 -/
def issueOf (yaml : Txt → Yaml) (f : File) : Except PyErr Issue := do
  let p ← load yaml f.text
  .ok ⟨title f.dir f.stem p.name, p.body, p.labels⟩

/-- one turn of the loop: issues_from_plans.py:314-332.  `known`: the titles fetched before the loop -/
def step (yaml : Txt → Yaml) (known : List Txt) (reply : Reply) (f : File) (tracker : List Issue) : List Issue × Outcome :=
  match issueOf yaml f with
  | .error _ => (tracker, .error)
  | .ok i =>
    if i.title ∈ known then (tracker, .exists_ i.title)
    else match reply with
      | .done => (i :: tracker, .created i.title)
      | .refused => (tracker, .error)
      | .lost => (i :: tracker, .error)

/-- the loop; the answer to the `k`-th file is `replies k` -/
def loop (yaml : Txt → Yaml) (known : List Txt) (replies : Nat → Reply) : Nat → List File → List Issue → List Issue × List Outcome
  | _, [], tracker => (tracker, [])
  | k, f :: fs, tracker =>
    let (t1, o) := step yaml known (replies k) f tracker
    let (t2, os) := loop yaml known replies (k + 1) fs t1
    (t2, o :: os)

/-- `main` once the files are listed and the titles fetched: issues_from_plans.py:302-332 -/
def run (yaml : Txt → Yaml) (replies : Nat → Reply) (files : List File) (tracker : List Issue) : List Issue × List Outcome :=
  loop yaml (tracker.map Issue.title) replies 0 files tracker

/-! ### The repository -/

def stripSlash (s : Txt) : Txt := ((s.dropWhile (· == '/')).reverse.dropWhile (· == '/')).reverse

def gitAt : Txt := ['g', 'i', 't', '@']
def github : Txt := ['g', 'i', 't', 'h', 'u', 'b', '.', 'c', 'o', 'm', '/']
def dotGit : Txt := ['.', 'g', 'i', 't']

/-- `infer_owner_repo` for the URL of the remote: issues_from_plans.py:124-154; the outer error is an exception -/
def ownerRepo (url : Txt) : Except PyErr (Option (Txt × Txt)) := do
  let path ← if gitAt.isPrefixOf url then
      match Scripts.splitFirst [':'] url with
      | some (_, p) => .ok (some p)
      | none => .error .valueError
    else match Scripts.splitFirst github url with
      | some (_, p) => .ok (some p)
      | none => .ok none
  match path with
  | none => .ok none
  | some p =>
    let p := if dotGit.isSuffixOf p then p.take (p.length - 4) else p
    match Chars.split '/' (stripSlash p) with
    | [o, r] => .ok (some (o, r))
    | _ => .ok none

end Plans
end SW
