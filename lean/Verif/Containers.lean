import Verif.Vector
import Verif.Orbit

/-!
# Vectors and tensors as containers

Models `/repo/solarwindpy/core/vector.py`, `core/tensor.py` and `core/base.py` (`set_data`): which frames are accepted, how the
components are selected, and how two vectors measured at different times are combined.
-/

namespace SW
namespace Box

noncomputable section
open Classical

/-- columns of a `pd.DataFrame` of strings: plain or a `MultiIndex` -/
inductive Cols where
  | flat (names : List String)
  | multi (names : List (List String))

/-- a frame: columns and rows of values, one per column -/
structure Frame where
  cols : Cols
  rows : List (List Fl)

def Cols.size : Cols → Nat
  | .flat n => n.length
  | .multi n => n.length

/-- `new.empty`: core/base.py:239 -/
def Frame.empty (f : Frame) : Prop := f.rows = [] ∨ f.cols.size = 0

/-- names `["x", "y", "z"]` all among the columns: `required_columns.isin(new.columns).all()`; the labels of a MultiIndex are
tuples, never strings. -/
def Cols.hasAll (req : List String) : Cols → Prop
  | .flat n => ∀ s ∈ req, s ∈ n
  | .multi _ => False

/-- `isinstance(new.columns, pd.MultiIndex)`: core/vector.py:64 -/
def Cols.isMulti : Cols → Prop
  | .flat _ => False
  | .multi _ => True

/-- `Vector(data)` and `Vector.set_data`: core/vector.py:24-33, 48-70, core/base.py:226-242 (the index warnings are only logged) -/
def mkVector (f : Frame) : Except PyErr Frame :=
  if f.empty then .error .valueError
  else if ¬ f.cols.isMulti ∧ ¬ f.cols.hasAll ["x", "y", "z"] then .error .valueError
  else .ok f

/-- `Tensor(data)`: core/tensor.py:19-28, 51-84 -/
def mkTensor (f : Frame) : Except PyErr Frame :=
  if f.empty then .error .valueError
  else if ¬ f.cols.hasAll ["per", "par", "scalar"] then .error .valueError
  else .ok f

/-- values of a row in the columns with the given name, left to right -/
def pick (names : List String) (row : List Fl) (s : String) : List Fl :=
  ((names.zip row).filter (fun p => decide (p.1 = s))).map Prod.snd

/-- `data.loc[:, ["x", "y", "z"]].pow(2).sum(axis=1, skipna=False).pow(0.5)`: core/vector.py:72-84, for plain columns: a name that
occurs in several columns selects all of them. -/
def vectorMag (names : List String) (row : List Fl) : Fl :=
  Fl.sqrt (Fl.sumAll ((pick names row "x" ++ pick names row "y" ++ pick names row "z").map Fl.sq))

/-- `Tensor.magnitude`: core/tensor.py:86-90: multiplying a frame by a dictionary, which pandas turns into a Series with one entry
per column: ValueError unless the frame has as many columns as the dictionary has entries (two). -/
def tensorMagnitude (f : Frame) : Except PyErr Unit :=
  if f.cols.size ≠ 2 then .error .valueError else .ok ()

/-! ### Vectors measured at different times -/

/-- a vector series with distinct times -/
abbrev LVec := List (Int × V3)

/-- the row at a time, all missing without one (alignment) -/
def LVec.at (v : LVec) (k : Int) : V3 :=
  match v.find? (fun p => decide (p.1 = k)) with
  | some p => p.2
  | none => ⟨.nan, .nan, .nan⟩

/-- the times of a binary operation: the common index, else the sorted union -/
def times (a b : LVec) : List Int := Orb.unionIdx (a.map Prod.fst) (b.map Prod.fst)

/-- `Vector.project(other)` with a `Vector`: core/vector.py:228-266; other types raise NotImplementedError -/
def project (a : LVec) : Option LVec → Except PyErr (List (Int × Fl × Fl))
  | none => .error .notImplemented
  | some b => .ok ((times a b).map (fun k => (k, V3.projPar (a.at k) (b.at k), V3.projPer (a.at k) (b.at k))))

/-- `Vector.cos_theta(other)`: core/vector.py:268-293 -/
def cosTheta (a : LVec) : Option LVec → Except PyErr (List (Int × Fl))
  | none => .error .notImplemented
  | some b => .ok ((times a b).map (fun k => (k, V3.cosTheta (a.at k) (b.at k))))

end
end Box
end SW
