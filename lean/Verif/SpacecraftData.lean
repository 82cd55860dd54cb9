import Verif.Spacecraft

/-!
# Model: the data of a `Spacecraft` and histories of its setters (core/spacecraft.py)

A frame has a time index (`dt`: it is a `DatetimeIndex`) and columns labelled `(M, C)`; the level names are `("M", "C")`.  A column is the list of
its values; the rows of a frame stay as they are in everything below.  `sort_index(axis=1)` on the few labels that can be kept is written out.
-/

namespace SW
namespace Sc

abbrev Column := List Fl

structure Frame2 where
  dt : Bool
  idx : List ℤ
  cols : List ((String × String) × Column)

/-- `data.xs(m, axis=1, level="M")`: KeyError without such a column -/
def xs (f : Frame2) (m : String) : Except PyErr (List (String × Column)) :=
  match f.cols.filterMap (fun p => if p.1.1 = m then some (p.1.2, p.2) else none) with
  | [] => .error .keyError
  | l => .ok l

/-- `frame.loc[:, labels]` for distinct labels: KeyError if one is missing, all columns of that name otherwise -/
def loc (g : List (String × Column)) (labels : List String) : Except PyErr (List (String × Column)) :=
  if labels.all (fun c => (g.map Prod.fst).contains c) then .ok (labels.flatMap fun c => g.filter (fun p => p.1 = c))
  else .error .keyError

/-- one measurement with its components, `assert p.shape[1] == 3`: core/spacecraft.py:227-231, 236-240, 245-249 -/
def part (f : Frame2) (m : String) (labels : List String) : Except PyErr (List ((String × String) × Column)) :=
  match xs f m with
  | .error e => .error e
  | .ok g => match loc g labels with
    | .error e => .error e
    | .ok l => if l.length = labels.length then .ok (l.map fun p => ((m, p.1), p.2)) else .error .assertionError

/-- the same inside `try … except KeyError: pass`: core/spacecraft.py:235-242, 244-251 -/
def optPart (f : Frame2) (m : String) (labels : List String) : Except PyErr (List ((String × String) × Column)) :=
  match part f m labels with
  | .error .keyError => .ok []
  | r => r

/-- `Spacecraft.set_data`: core/spacecraft.py:217-256 with core/base.py:236.  The frame that is stored. -/
def build (f : Frame2) : Except PyErr Frame2 :=
  if f.idx = [] ∨ f.cols = [] then .error .valueError
  else match part f "pos" ["x", "y", "z"] with
    | .error e => .error e
    | .ok p => match optPart f "v" ["x", "y", "z"] with
      | .error e => .error e
      | .ok v => match optPart f "carr" ["lat", "lon"] with
        | .error e => .error e
        | .ok c => if f.dt then .ok ⟨f.dt, f.idx, c ++ p ++ v⟩ else .error .assertionError

/-- a spacecraft -/
structure Craft where
  data : Frame2
  frame : String
  name : String

/-- `Spacecraft(data, name, frame)`: core/spacecraft.py:75-80; the data are set before and after frame and name -/
def construct (f : Frame2) (name frame : String) : Except PyErr Craft :=
  match build f with
  | .error e => .error e
  | .ok _ => match setFrameName frame name with
    | .error e => .error e
    | .ok (fr, nm) => match build f with
      | .error e => .error e
      | .ok d => .ok ⟨d, fr, nm⟩

/-- `data.xs(m, axis=1, level="M").loc[:, labels]` -/
def readCols (f : Frame2) (m : String) (labels : List String) : Except PyErr (List (String × Column)) :=
  match xs f m with
  | .error e => .error e
  | .ok g => loc g labels

/-- `Spacecraft.position`: core/spacecraft.py:93-102 -/
def Craft.position (s : Craft) : Except PyErr (List (String × Column)) := readCols s.data "pos" ["x", "y", "z"]

/-- `Spacecraft.velocity`: core/spacecraft.py:122-139; the KeyError is raised again with another text -/
def Craft.velocity (s : Craft) : Except PyErr (List (String × Column)) := readCols s.data "v" ["x", "y", "z"]

/-- `Spacecraft.carrington`: core/spacecraft.py:147-152 -/
def Craft.carrington (s : Craft) : Except PyErr (List (String × Column)) := readCols s.data "carr" ["lat", "lon"]

/-- `Spacecraft.distance2sun` row by row: core/spacecraft.py:155-184; a row beyond the end of a column (there is none) counts as missing -/
noncomputable def Craft.distance (K : SCConst) (s : Craft) : Except PyErr (List Fl) :=
  match s.position with
  | .error e => .error e
  | .ok g =>
    let at' := fun (c : String) (i : Nat) => (((g.lookup c).getD [])[i]?).getD .nan
    (List.range s.data.idx.length).mapM fun i => distance2sun K s.frame ⟨at' "x" i, at' "y" i, at' "z" i⟩

/-- what a user may call on a spacecraft -/
inductive Op where
  | setData (f : Frame2)
  | setFrameName (frame name : String)

/-- one call: its error, if any, and the spacecraft afterwards -/
def step (s : Craft) : Op → Except PyErr Unit × Craft
  | .setData f => match build f with
    | .error e => (.error e, s)
    | .ok d => (.ok (), { s with data := d })
  | .setFrameName frame name => match setFrameName frame name with
    | .error e => (.error e, s)
    | .ok (fr, nm) => (.ok (), { s with frame := fr, name := nm })

end Sc
end SW
