import Mathlib.Data.List.Infix
import Mathlib.Data.List.Lex

/-!
# Model: `scripts/test_dynamic_imports.py`

Imports are run by the interpreter, so what an import does is a parameter: given the names of the loaded modules (`sys.modules`) and a
name, the outcome and the loaded modules afterwards.  Times, tracebacks and the garbage collector are left out; text is a list of characters.
-/

namespace SW
namespace DynImp

abbrev Name := List Char

/-- how `importlib.import_module` ends: 72-99.  `ImportError` (with subclasses) by its text, any other exception by class and text. -/
inductive Outcome where
  | ok
  | importError (msg : Name)
  | other (cls msg : Name)
  deriving DecidableEq

/-- the interpreter: loaded names and a module to import give an outcome and the names loaded afterwards -/
abbrev Py := List Name → Name → Outcome × List Name

/-- `x in s` for text -/
def has (w s : Name) : Bool := decide (w <:+: s)

/-- 85 and 188-189, 244-247: `str(e).lower()` has one of the two phrases.  Lower case of ASCII letters: no other letter has one of these
phrases' letters as its whole lower case. -/
def isCircular (msg : Name) : Bool :=
  let s := msg.map Char.toLower
  has ['c', 'i', 'r', 'c', 'u', 'l', 'a', 'r'] s || has "cannot import name".toList s

/-- 59-65 without the time -/
structure Result where
  module : Name
  success : Bool
  error : Option Name
  circular : Bool
  deriving DecidableEq

/-- the text of any other exception: 98 -/
def otherText (cls msg : Name) : Name := cls ++ ':' :: ' ' :: msg

/-- the result of one import: 59-65, 72-99 -/
def resultOf (m : Name) : Outcome → Result
  | .ok => ⟨m, true, none, false⟩
  | .importError msg => ⟨m, false, some msg, isCircular msg⟩
  | .other cls msg => ⟨m, false, some (otherText cls msg), false⟩

/-- what is appended to `self.circular_imports`: 84-93 -/
def foundOf (m : Name) : Outcome → List (Name × Name)
  | .importError msg => if isCircular msg then [(m, msg)] else []
  | _ => []

/-- 101-111: names loaded by the test that begin with the name of the package are unloaded -/
def cleanUp (pkg : Name) (before after : List Name) : List Name :=
  after.filter (fun n => ! (decide (n ∉ before) && pkg.isPrefixOf n))

/-- `_clear_package_modules`: 161-169 -/
def clear (pkg : Name) (loaded : List Name) : List Name := loaded.filter (fun n => ! pkg.isPrefixOf n)

/-- `test_individual_import` for each module: 57-113 with 293-296 -/
def individual (py : Py) (pkg : Name) : List Name → List Name → List Result × List (Name × Name) × List Name
  | [], loaded => ([], [], loaded)
  | m :: ms, loaded =>
    let o := py loaded m
    let rest := individual py pkg ms (cleanUp pkg loaded o.2)
    (resultOf m o.1 :: rest.1, foundOf m o.1 ++ rest.2.1, rest.2.2)

/-- 173-179 -/
structure Seq where
  tested : Nat
  successful : Nat
  failed : Nat
  circular : Nat
  errors : List (Name × Name × Bool)
  deriving DecidableEq

/-- one module of the sequence: 181-206 -/
def seqStep (m : Name) (s : Seq) : Outcome → Seq
  | .ok => { s with successful := s.successful + 1 }
  | .importError msg =>
    { s with failed := s.failed + 1, circular := if isCircular msg then s.circular + 1 else s.circular,
             errors := s.errors ++ [(m, msg, isCircular msg)] }
  | .other cls msg => { s with failed := s.failed + 1, errors := s.errors ++ [(m, otherText cls msg, false)] }

/-- `_test_sequential_imports`: 171-208; nothing is unloaded between the imports -/
def sequential (py : Py) (ms : List Name) (loaded : List Name) : Seq × List Name :=
  ms.foldl (fun s m => let o := py s.2 m; (seqStep m s.1 o.1, o.2)) (⟨ms.length, 0, 0, 0, []⟩, loaded)

/-- `sorted`: by code point -/
def sorted (ms : List Name) : List Name := ms.mergeSort (fun a b => decide (a ≤ b))

/-- `sorted(reverse=True)` -/
def sortedRev (ms : List Name) : List Name := ms.mergeSort (fun a b => decide (b ≤ a))

/-- 134-138 -/
def isBase (m : Name) : Bool := ["base", "core", "__init__"].any (fun x => has x.toList m)

/-- 134-140; `m not in base_modules` for a member of `modules` is `not isBase` -/
def dependencyFirst (ms : List Name) : List Name :=
  sorted (ms.filter isBase) ++ sorted (ms.filter (fun m => decide (m ∉ ms.filter isBase)))

/-- the four orders: 122-149; `shuffle` is what `random.shuffle` does to the copy -/
def orders (shuffle : List Name → List Name) (ms : List Name) : List (List Name) :=
  [sorted ms, sortedRev ms, dependencyFirst ms, (shuffle ms).take (min 10 ms.length)]

/-- `test_import_order_variations`: 115-159 -/
def orderTests (py : Py) (pkg : Name) : List (List Name) → List Name → List Seq × List Name
  | [], loaded => ([], loaded)
  | t :: ts, loaded =>
    let r := sequential py t (clear pkg loaded)
    let rest := orderTests py pkg ts r.2
    (r.1 :: rest.1, rest.2)

/-- 223-229 -/
def isKey (m : Name) : Bool := ["core", "__init__", "plotting", "fitfunctions", "base"].any (fun x => has x.toList m)

/-- the two loops: 231-232 -/
def pairs (key : List Name) : List (Name × Name) :=
  (key.take 5).zipIdx.flatMap (fun p => ((key.take 6).drop (p.2 + 1)).map (fun b => (p.1, b)))

/-- 214-220 -/
structure Cross where
  total : Nat
  successful : Nat
  failed : Nat
  circular : List (Name × Name × Name)
  other : List (Name × Name × Name)
  deriving DecidableEq

/-- the two imports of a pair: 237-241; the second only if the first succeeds -/
def importBoth (py : Py) (p : Name × Name) (loaded : List Name) : Outcome × List Name :=
  match py loaded p.1 with
  | (.ok, l) => py l p.2
  | r => r

/-- 235, 243-271 -/
def crossStep (p : Name × Name) (c : Cross) : Outcome → Cross
  | .ok => { c with total := c.total + 1, successful := c.successful + 1 }
  | .importError msg =>
    if isCircular msg then { c with total := c.total + 1, failed := c.failed + 1, circular := c.circular ++ [(p.1, p.2, msg)] }
    else { c with total := c.total + 1, failed := c.failed + 1, other := c.other ++ [(p.1, p.2, msg)] }
  | .other cls msg => { c with total := c.total + 1, failed := c.failed + 1, other := c.other ++ [(p.1, p.2, otherText cls msg)] }

/-- `test_cross_imports`: 210-273 -/
def cross (py : Py) (pkg : Name) (ms : List Name) (loaded : List Name) : Cross × List Name :=
  (pairs (ms.filter isKey)).foldl
    (fun c p => let o := importBoth py p (clear pkg c.2); (crossStep p c.1 o.1, o.2)) (⟨0, 0, 0, [], []⟩, loaded)

/-- a file: the directories of the absolute path of the package (the last is the package), those below it, and its name without `.py` -/
structure File where
  root : List Name
  dirs : List Name
  stem : Name
  deriving DecidableEq

/-- 35-40: tests and caches are skipped; `str(py_file)` is the absolute path -/
def skipped (f : File) : Bool :=
  decide ("tests".toList ∈ f.root ++ f.dirs) || "test_".toList.isPrefixOf f.stem || decide ("__pycache__".toList ∈ f.root ++ f.dirs)

/-- `'.'.join(parts)` -/
def dotted : List Name → Name
  | [] => []
  | [a] => a
  | a :: b :: t => a ++ '.' :: dotted (b :: t)

/-- 42-51 -/
def moduleName (f : File) : Name :=
  let pkg := f.root.getLast?.getD []
  let parts := if f.stem = "__init__".toList then f.dirs else f.dirs ++ [f.stem]
  if parts = [] then pkg else pkg ++ '.' :: dotted parts

/-- `discover_modules`: 30-55; `files` in the order of `rglob` -/
def discover (files : List File) : List Name := sorted ((files.filter (fun f => ! skipped f)).map moduleName)

/-- 284-290 with the summary: 308-330 -/
structure Report where
  total : Nat
  individual : List Result
  orders : List Seq
  cross : Cross
  found : List (Name × Name)
  successful : Nat
  failed : Nat
  circularIndividual : Nat
  crossCircular : Nat
  circularTotal : Nat

/-- `run_comprehensive_test`: 275-330 -/
def run (py : Py) (pkg : Name) (shuffle : List Name → List Name) (ms : List Name) (loaded : List Name) : Report :=
  let i := individual py pkg ms loaded
  let o := orderTests py pkg (orders shuffle ms) i.2.2
  let c := (cross py pkg ms o.2).1
  let succ := (i.1.filter (fun r => r.success)).length
  { total := ms.length, individual := i.1, orders := o.1, cross := c, found := i.2.1, successful := succ,
    failed := i.1.length - succ, circularIndividual := (i.1.filter (fun r => r.circular)).length,
    crossCircular := c.circular.length, circularTotal := i.2.1.length }

/-- the verdict printed and written: 411-416, 352-363.  `true`: "No circular imports detected" -/
def clean (r : Report) : Bool := ! decide (r.circularTotal > 0)

/-- how `main` ends: 419-442 -/
inductive Exit where
  | missing
  | attributeError
  | ran (clean : Bool)
  deriving DecidableEq

/-- `main`: 419-442.  With an argument the directory is text, which has no attribute `parent` (434). -/
def main (argument : Bool) (exists_ : Bool) (r : Report) : Exit :=
  if ! exists_ then .missing else if argument then .attributeError else .ran (clean r)

end DynImp
end SW
