import Verif.PyStr
import Mathlib.Order.Defs.LinearOrder

/-!
# Import analysis scripts

Models `/repo/scripts/analyze_imports_simple.py` and `/repo/scripts/analyze_imports_fixed.py`: names of modules, resolution of imports, the
dependency graph and the search for circular dependencies.  Text is a list of characters; dotted names and file paths are lists of
parts where the code splits and joins them.  The set of dependencies of a module is a list in whatever order the set is iterated.  Python's
recursion limit, the parser and the report text are not modelled.
-/

namespace SW
namespace Imp

abbrev Txt := List Char

/-! ### The search -/

/-- the variables shared by the recursive calls: simple 158-161, fixed 198-201.  `visited` and `stack` (rec_stack) are sets. -/
structure St (α : Type) where
  visited : List α
  stack : List α
  path : List α
  cycles : List (List α)

/-- simple 164-169 (`long = false`), fixed 204-213 (`long = true`: only cycles of more than one module) -/
def addCycle {α} [DecidableEq α] (long : Bool) (v : α) (s : St α) : St α :=
  let c := s.path.drop (s.path.idxOf v)
  if long && decide (c.length ≤ 1) then s else { s with cycles := s.cycles ++ [c] }

/-- `dfs(node)`: simple 163-182, fixed 203-227.  The first argument bounds the depth of the recursion; one more than the number of modules
is enough (theorem `C172_terminates`). -/
def dfs {α} [DecidableEq α] (adj : α → List α) (long : Bool) : Nat → α → St α → St α
  | 0, _, s => s
  | f + 1, v, s =>
    if v ∈ s.stack then addCycle long v s
    else if v ∈ s.visited then s
    else
      let s' := (adj v).foldl (fun s w => dfs adj long f w s) ⟨v :: s.visited, v :: s.stack, s.path ++ [v], s.cycles⟩
      ⟨s'.visited, s'.stack.erase v, s'.path.dropLast, s'.cycles⟩

/-- all modules: simple 184-186, fixed 229-231 -/
def search {α} [DecidableEq α] (adj : α → List α) (long : Bool) (f : Nat) (mods : List α) : St α :=
  mods.foldl (fun s m => if m ∈ s.visited then s else dfs adj long f m s) ⟨[], [], [], []⟩

/-- simple 193-194, fixed 238-239: rotated to begin with the smallest name -/
def normalise {α} [LinearOrder α] (c : List α) : List α :=
  match c with
  | [] => []
  | a :: t =>
    let i := (a :: t).idxOf (t.foldl min a)
    (a :: t).drop i ++ (a :: t).take i

/-- simple 188-196, fixed 233-241 -/
def unique {α} [LinearOrder α] (cs : List (List α)) : List (List α) :=
  cs.foldl (fun u c => if c = [] then u else if normalise c ∈ u then u else u ++ [normalise c]) []

/-- `find_circular_dependencies_dfs` -/
def cycles {α} [LinearOrder α] (adj : α → List α) (long : Bool) (mods : List α) : List (List α) :=
  unique (search adj long (mods.length + 1) mods).cycles

/-! ### Names and imports -/

/-- an import statement: the module named (parts of the dotted name; for a `from` import without a module, `[]`), and the number of dots -/
structure Imp where
  name : List Txt
  level : Nat
  deriving DecidableEq

/-- one file: the parts of its path below the root without the suffix, and its import statements -/
structure File where
  parts : List Txt
  imports : List Imp

def pkg : Txt := ['s', 'o', 'l', 'a', 'r', 'w', 'i', 'n', 'd', 'p', 'y']
def initW : Txt := ['_', '_', 'i', 'n', 'i', 't', '_', '_']

/-- `s.startswith(p)` for dotted names given by their parts: the text of the first part starts with the text `p`, which has no dot
(or `p` is empty). -/
def startsWith (p : Txt) : List Txt → Bool
  | [] => p.isEmpty
  | a :: _ => p.isPrefixOf a

/-- simple 71-72: the path below the root, dotted -/
def nameSimple (f : File) : List Txt := f.parts

/-- fixed 72-85; `root` is the name of the root directory -/
def nameFixed (root : Txt) (f : File) : List Txt :=
  let parts := if f.parts.getLast? = some initW then f.parts.dropLast else f.parts
  if parts = [] then [root] else if parts = [root] then [root] else root :: parts

/-- the relative part of `_resolve_import`: simple 136-146, fixed 155-171.  `None` if it leads out of the package. -/
def relative (i : Imp) (cur : List Txt) : Option (List Txt) :=
  if 0 < i.level then
    if cur.length ≤ i.level then none else some (cur.take (cur.length - i.level) ++ i.name)
  else some i.name

/-- `_resolve_import`: simple 131-152 -/
def resolveSimple (i : Imp) (cur : List Txt) : Option (List Txt) :=
  match relative i cur with
  | none => none
  | some r => if startsWith pkg r then some r else none

/-- `_resolve_import`: fixed 150-192; `mods`: the modules in the order scanned.  A name that is not a module but the beginning of one is
resolved to the first module it begins. -/
def resolveFixed (root : Txt) (mods : List (List Txt)) (i : Imp) (cur : List Txt) : Option (List Txt) :=
  match relative i cur with
  | none => none
  | some r =>
    if startsWith root r then
      if r ∈ mods then some r else mods.find? (fun m => decide (r <+: m ∧ r ≠ m))
    else none

/-- `visit_ImportFrom`, simple 38-52, fixed 36-50: `from . import x` has no module and is not recorded; `import x` always names one -/
def recorded (f : File) : List Imp := f.imports.filter (fun i => decide (i.name ≠ []))

/-- `dependencies[module]`: simple 109-127, fixed 128-146, for a resolution `res` -/
def deps (mods : List (List Txt)) (res : Imp → List Txt → Option (List Txt)) (cur : List Txt) (f : File) : List (List Txt) :=
  ((recorded f).filterMap (fun i => res i cur)).filter (fun t => decide (t ∈ mods))

end Imp
end SW
