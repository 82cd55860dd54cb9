import Verif.Labels3

/-!
# Model: label objects that refer to one another, and their setters

`/repo/solarwindpy/plotting/labels/special.py`, `base.py:443-530, 666-731`, `datetime.py:9-69, 182-235`.  A heap of label objects; an
object has settings and, for most classes, texts stored by `build_label` (called by the constructor, and by nobody else).  Descriptions
(C137), line breaks before units and explicit comparison patterns are left out; the texts of the leaves are data.
-/

namespace SW
namespace Labels

/-- what a label says: text, save path, and units if it has any -/
structure Say where
  tex : String
  path : String
  units : Option String
  deriving DecidableEq

/-- a constituent: plain text or another label (its place in the heap) -/
inductive Ref
  | str (s : String)
  | obj (i : Nat)
  deriving DecidableEq

/-- class and settings of a label -/
inductive Cls
  /-- classes that compute everything when asked: `ManualLabel`, `Vsw`, `CarringtonRotation`, `Power`, `Distance2Sun`, `SSN`, `Timedelta`,
  `DateTime`, `Epoch`, `January1st`, `Ion`, `ElementalAbundance` -/
  | live (p : Say)
  /-- `TeXlabel` (base.py:666-731) and `Count` (special.py:126-191) store text, path and units -/
  | stored (p : Say)
  /-- `Probability`, special.py:218-292 -/
  | prob (o : Ref) (cmp : String)
  /-- `CountOther`, special.py:295-386 -/
  | cnt (o : Ref) (cmp : String)
  /-- `MathFcn`, special.py:389-487 -/
  | fcn (f : String) (o : Ref) (dimless : Bool)
  /-- `AbsoluteValue`, special.py:490-563 -/
  | abs (o : Ref)
  /-- `ComparisonLable`, special.py:651-789 -/
  | cmp (a b : Ref) (name : String)
  /-- `Xcorr`, special.py:792-909 -/
  | xcorr (a b : Ref) (method : String) (short : Bool)
  /-- `Frequency`, datetime.py:182-235; `o`: its `Timedelta` (made by the constructor if another thing is given) -/
  | freq (o : Ref)
  deriving DecidableEq

/-- an object: settings, stored text and path, stored units -/
structure Node where
  cls : Cls
  tex : String
  path : String
  units : Option String

abbrev Heap := List Node

/-- `obj.tex` -/
def texOf (h : Heap) (i : Nat) : Except PyErr String :=
  match h[i]? with
  | none => .error .attributeError
  | some n => match n.cls with
    | .live p => .ok p.tex
    | .freq _ => .ok "\\mathrm{Frequency}"
    | _ => .ok n.tex

/-- `obj.path` -/
def pathOf (h : Heap) (i : Nat) : Except PyErr String :=
  match h[i]? with
  | none => .error .attributeError
  | some n => match n.cls with
    | .live p => .ok p.path
    | _ => .ok n.path

/-- units as an attribute that may be missing -/
def unitsAttr (o : Option String) : Except PyErr String :=
  match o with
  | none => .error .attributeError
  | some u => .ok u

/-- `obj.units`: special.py:144-145, 239-240, 324-325, 420-424, 526-528, 671-672, 814-815, datetime.py:213-214; `fuel`: Python's recursion
limit (`RecursionError`) -/
def unitsAt : Nat → Heap → Nat → Except PyErr String
  | 0, _, _ => .error .runtimeError
  | f + 1, h, i =>
    match h[i]? with
    | none => .error .attributeError
    | some n => match n.cls with
      | .live p => unitsAttr p.units
      | .stored _ => unitsAttr n.units
      | .prob _ _ => .ok "\\%"
      | .cnt _ _ => .ok "\\#"
      | .xcorr _ _ _ _ => .ok "\\#"
      | .cmp _ _ _ => unitsAttr n.units
      | .fcn g o d => if d then .ok "\\mathrm{\\#}" else
          match o with
          | .str _ => .error .attributeError
          | .obj j => (unitsAt f h j).map (fun u => "\\mathrm{" ++ g ++ "}\\left(" ++ u ++ "\\right)")
      | .abs o => match o with
          | .str _ => .error .attributeError
          | .obj j => unitsAt f h j
      | .freq o => match o with
          | .str _ => .error .attributeError
          | .obj j => (unitsAt f h j).map frequencyUnits

/-- a constituent as `build_label` sees it (text and path only) -/
def partOf (h : Heap) : Ref → Except PyErr Part
  | .str s => .ok (.str s)
  | .obj i => do
    let t ← texOf h i
    let p ← pathOf h i
    .ok (.label t p none)

/-- `hasattr(label, "units")` and its value: an `AttributeError` while computing the units counts as not having them -/
def hasUnits (f : Nat) (h : Heap) : Ref → Except PyErr (Option String)
  | .str _ => .ok none
  | .obj i => match unitsAt f h i with
    | .ok u => .ok (some u)
    | .error .attributeError => .ok none
    | .error e => .error e

/-- units of a comparison, special.py:695-720 -/
def setConstituentsUnits (f : Nat) (h : Heap) (a b : Ref) : Except PyErr String := do
  match ← hasUnits f h a with
  | none => .ok "???"
  | some u => match ← hasUnits f h b with
    | none => .ok "???"
    | some v => if u ≠ v then .error .valueError else .ok u

/-- `Frequency._build_path`, datetime.py:226-232 -/
def freqPath (units : String) : String := "frequency_of_" ++ (if ['?', '?'] <:+: units.toList then "UNK" else units)

/-- `build_label` on settings `c` (classes without one: nothing happens): (text, path) to store -/
def built (f : Nat) (h : Heap) (c : Cls) (old : String × String) : Except PyErr (String × String) :=
  match c with
  | .live _ => .ok old
  | .stored p => .ok (p.tex, p.path)
  | .prob o k => do probability (← partOf h o) (some k)
  | .cnt o k => do countOther (← partOf h o) (some k)
  | .fcn g o _ => do mathFcn g (← partOf h o)
  | .abs o => do absoluteValue (← partOf h o)
  | .cmp a b name => do
    let a ← partOf h a
    let b ← partOf h b
    let op ← comparisonPattern name
    let t := "{" ++ a.anyTex ++ "}" ++ op ++ "{" ++ b.anyTex ++ "}"
    .ok (squeeze t.length t, comparisonPath a b name)
  | .xcorr a b m s => do
    let a ← partOf h a
    let b ← partOf h b
    SW.Labels.xcorr (some a) (some b) m s
  | .freq o => match o with
    | .str _ => .error .attributeError
    | .obj j => do
      let u ← unitsAt f h j
      .ok (old.1, freqPath (frequencyUnits u))

/-- units stored by the setters of the constructor (`ComparisonLable`) or by `build_label` (`TeXlabel`) -/
def storedUnits (f : Nat) (h : Heap) (c : Cls) : Except PyErr (Option String) :=
  match c with
  | .stored p => .ok p.units
  | .cmp a b name => do
    let u ← setConstituentsUnits f h a b
    let _ ← comparisonPattern name
    .ok (some u)
  | _ => .ok none

/-- a new label -/
def mk (f : Nat) (h : Heap) (c : Cls) : Except PyErr Node := do
  let u ← storedUnits f h c
  let tp ← built f h c ("", "")
  .ok ⟨c, tp.1, tp.2, u⟩

/-- what can be done with labels -/
inductive LOp
  /-- a constructor -/
  | new (c : Cls)
  /-- setters of one object (same class).  For a comparison only the name of the function; its constituents are set by `setParts`. -/
  | set (i : Nat) (c : Cls)
  /-- `ComparisonLable.set_constituents` -/
  | setParts (i : Nat) (a b : Ref)
  /-- `build_label` -/
  | build (i : Nat)

/-- the settings after a setter; `none`: not the same class -/
def withSettings : Cls → Cls → Option Cls
  | .live _, .live p => some (.live p)
  | .stored _, .stored p => some (.stored p)
  | .prob _ _, .prob o k => some (.prob o k)
  | .cnt _ _, .cnt o k => some (.cnt o k)
  | .fcn _ _ _, .fcn g o d => some (.fcn g o d)
  | .abs _, .abs o => some (.abs o)
  | .cmp a b _, .cmp _ _ n => some (.cmp a b n)
  | .xcorr _ _ _ _, .xcorr a b m s => some (.xcorr a b m s)
  | .freq _, .freq o => some (.freq o)
  | _, _ => none

/-- does the setter accept? `ComparisonLable.set_function`, special.py:722-740 -/
def setterOk : Cls → Except PyErr Unit
  | .cmp _ _ n => do let _ ← comparisonPattern n; .ok ()
  | _ => .ok ()

/-- the units `build_label` stores -/
def builtUnits (n : Node) : Option String :=
  match n.cls with
  | .stored p => p.units
  | _ => n.units

/-- one step: the heap afterwards and what was raised -/
def lstep (f : Nat) (h : Heap) : LOp → Heap × Except PyErr Unit
  | .new c => match mk f h c with
    | .error e => (h, .error e)
    | .ok n => (h ++ [n], .ok ())
  | .set i c => match h[i]? with
    | none => (h, .error .attributeError)
    | some n => match withSettings n.cls c with
      | none => (h, .error .attributeError)
      | some c => match setterOk c with
        | .error e => (h, .error e)
        | .ok _ => (h.set i { n with cls := c }, .ok ())
  | .setParts i a b => match h[i]? with
    | none => (h, .error .attributeError)
    | some n => match n.cls with
      | .cmp _ _ name => (match setConstituentsUnits f h a b with
        | .error e => (h, .error e)
        | .ok u => (h.set i { n with cls := .cmp a b name, units := some u }, .ok ()))
      | _ => (h, .error .attributeError)
  | .build i => match h[i]? with
    | none => (h, .error .attributeError)
    | some n => match built f h n.cls (n.tex, n.path) with
      | .error e => (h, .error e)
      | .ok tp => (h.set i { n with tex := tp.1, path := tp.2, units := builtUnits n }, .ok ())

/-- a history, up to the first exception -/
def lrun (f : Nat) : Heap → List LOp → Except PyErr Heap
  | h, [] => .ok h
  | h, o :: os => match lstep f h o with
    | (_, .error e) => .error e
    | (h, .ok _) => lrun f h os

/-- `Timedelta.path`, datetime.py:47-51; `none`: not a pandas offset -/
def timedeltaPath (freqstr : Option String) : String := "dt-" ++ freqstr.getD "UNK"

end Labels
end SW
