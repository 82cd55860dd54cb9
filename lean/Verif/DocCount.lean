import Mathlib.Data.List.Infix
import Mathlib.Algebra.BigOperators.Group.List.Basic

/-!
# Model: `count_documentation_examples` of `scripts/simple_doc_validation/validation_utils.py`

The files below the directory are given with their path, name and text (`none`: it could not be read).
-/

namespace SW
namespace DocCount

abbrev Txt := List Char

/-- `s.count(w)`, from left to right without overlap, for a text `w` that is not empty -/
def count (w : Txt) : Txt → Nat
  | [] => 0
  | c :: t => if w.isPrefixOf (c :: t) then count w (t.drop (w.length - 1)) + 1 else count w t
termination_by s => s.length
decreasing_by all_goals simp only [List.length_drop, List.length_cons]; omega

structure File where
  path : Txt
  name : Txt
  content : Option Txt
  deriving DecidableEq

/-- validation_utils.py:11 -/
structure Counts where
  rst : Nat
  py : Nat
  scanned : Nat
  deriving DecidableEq

def cached (f : File) : Bool := decide ("__pycache__".toList <:+: f.path)

/-- validation_utils.py:14-22 -/
def addRst (c : Counts) (f : File) : Counts :=
  if cached f then c
  else match f.content with
    | none => c
    | some s => { c with rst := c.rst + count ".. code-block:: python".toList s, scanned := c.scanned + 1 }

/-- validation_utils.py:25-33 -/
def addPy (c : Counts) (f : File) : Counts :=
  if cached f || ['.'].isPrefixOf f.name then c
  else match f.content with
    | none => c
    | some s => { c with py := c.py + count ">>>".toList s, scanned := c.scanned + 1 }

/-- `count_documentation_examples`: validation_utils.py:9-35; `rst` and `py` are what `rglob` finds -/
def examples (rst py : List File) : Counts := py.foldl addPy (rst.foldl addRst ⟨0, 0, 0⟩)

end DocCount
end SW
