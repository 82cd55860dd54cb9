import Verif.PyStr

/-!
# Labels, logarithmic axes and save paths of the plots

Models the state that `/repo/solarwindpy/plotting/base.py` keeps for every plot (labels, `log`, `path`) with the overrides of `Hist1D`,
`Hist2D`, `Scatter` and `SpiralPlot2D`, and the `Count` label of `labels/special.py`, a mutable object shared by reference.  Text is a
list of characters.  Other label objects are immutable and known by their `path`.  Data, bins and drawing are elsewhere.
-/

namespace SW
namespace Plt

abbrev Txt := List Char

/-- `pathlib.PurePosixPath`: whether rooted, and the components (a leading `//` is read as `/`). -/
structure PPath where
  abs : Bool
  parts : List Txt
  deriving DecidableEq

/-- `Path(s)`: split at "/", empty and "." components dropped. -/
def parsePath (s : Txt) : PPath :=
  ⟨decide (s.head? = some '/'), (Chars.split '/' s).filter (fun p => decide (p ≠ [] ∧ p ≠ ['.']))⟩

/-- `p / q`: an absolute right operand replaces the left one. -/
def PPath.div (p q : PPath) : PPath := if q.abs then q else ⟨p.abs, p.parts ++ q.parts⟩

/-- the plot classes -/
inductive Kind where
  | hist1d | hist2d | scatter | spiral
  deriving DecidableEq

/-- `self.__class__.__name__`: base.py:133 -/
def Kind.name : Kind → Txt
  | .hist1d => ['H', 'i', 's', 't', '1', 'D']
  | .hist2d => ['H', 'i', 's', 't', '2', 'D']
  | .scatter => ['S', 'c', 'a', 't', 't', 'e', 'r']
  | .spiral => ['S', 'p', 'i', 'r', 'a', 'l', 'P', 'l', 'o', 't', '2', 'D']

/-- a label: nothing, text, an immutable label object with its `path`, or a reference to a `Count` label. -/
inductive Lbl where
  | none
  | str (s : Txt)
  | obj (p : PPath)
  | count (id : Nat)
  deriving DecidableEq

/-- The `Count` objects: the normalisation each was last built with (`set_axnorm` and `build_label` always follow each other in the
plot classes: hist1d.py:129-132, 211-213, hist2d.py:114-119, 156-159). -/
abbrev Heap := Nat → Option Txt

def Heap.put (h : Heap) (i : Nat) (n : Option Txt) : Heap := fun j => if j = i then n else h j

/-- keys of `_trans_axnorm`: labels/base.py:65-73 (besides `None`) -/
def norms : List Txt := [['c'], ['r'], ['t'], ['d'], ['r', 'd'], ['c', 'd']]

/-- `Count.set_axnorm`: labels/special.py:155-160 -/
def countNorm : Option Txt → Except PyErr (Option Txt)
  | none => .ok none
  | some s => if s.map Char.toLower ∈ norms then .ok (some (s.map Char.toLower)) else .error .assertionError

/-- `Count._build_path`: labels/special.py:180-187 -/
def countPath : Option Txt → PPath
  | none => ⟨false, [['c', 'o', 'u', 'n', 't']]⟩
  | some n => ⟨false, [['c', 'o', 'u', 'n', 't'], n.map Char.toUpper ++ ['n', 'o', 'r', 'm']]⟩

/-- the state of one plot; `axnorm = none`: the attribute does not exist yet (or never, for scatter and spiral plots) -/
structure Plot where
  kind : Kind
  x : Lbl
  y : Lbl
  z : Lbl
  logx : Bool
  logy : Bool
  axnorm : Option (Option Txt)
  path : PPath

/-- base.py:107-131: the piece of the path for one label; `d` is "x", "y" or "z". -/
def lblPath (h : Heap) (d : Txt) : Lbl → PPath
  | .none => parsePath d
  | .str s => if s = ['N', 'o', 'n', 'e'] then parsePath d else parsePath (s.map (fun c => if c = ' ' then '-' else c))
  | .obj p => p
  | .count i => countPath (h i)

/-- base.py:143-147 -/
def scaleX (log : Bool) : Txt := if log then ['l', 'o', 'g', 'X'] else ['l', 'i', 'n', 'X']
def scaleY (log : Bool) : Txt := if log then ['l', 'o', 'g', 'Y'] else ['l', 'i', 'n', 'Y']

/-- the argument `new` of `set_path` -/
inductive NewPath where
  | auto
  | none
  | to (s : Txt)

/-- the path before the scales: `Base.set_path` base.py:107-141 with hist1d.py:90-96 / base.py:284-291 -/
def pathStem (h : Heap) (p : Plot) : NewPath → PPath
  | .auto =>
    let q := (PPath.div (PPath.div (parsePath p.kind.name) (lblPath h ['x'] p.x)) (lblPath h ['y'] p.y))
    if p.kind = .hist1d then q else q.div (lblPath h ['z'] p.z)
  | .none => parsePath []
  | .to s => parsePath s

/-- `"norm"` ends the last component: base.py:298 -/
def endsNorm (s : Txt) : Bool := ['m', 'r', 'o', 'n'].isPrefixOf s.reverse

/-- base.py:293-305: the scales become the last component, or are put in front of it if it ends with "norm" -/
def addScaleZ (sc : Txt) (q : PPath) : PPath :=
  match q.parts.getLast? with
  | some l => if endsNorm l then ⟨q.abs, q.parts.dropLast ++ [sc ++ '-' :: l]⟩ else ⟨q.abs, q.parts ++ [sc]⟩
  | none => ⟨q.abs, [sc]⟩

/-- `set_path`: hist1d.py:87-102 (only the x scale), base.py:280-307 -/
def newPath (h : Heap) (p : Plot) (new : NewPath) (addScale : Bool) : PPath :=
  let q := pathStem h p new
  if addScale then
    if p.kind = .hist1d then ⟨q.abs, q.parts ++ [scaleX p.logx]⟩ else addScaleZ (scaleX p.logx ++ '-' :: scaleY p.logy) q
  else q

/-- the keyword arguments of `set_labels`; `extra`: an unknown keyword is present -/
structure Kw where
  x : Option Lbl := .none
  y : Option Lbl := .none
  z : Option Lbl := .none
  extra : Bool := false
  autoPath : Bool := true

/-- `Base.set_labels`: base.py:76-95 (`PlotWithZdata.set_labels`, 311-313, only passes `z` on) -/
def baseSetLabels (kw : Kw) (h : Heap) (p : Plot) : Plot × Option PyErr :=
  if kw.extra then (p, some .keyError)
  else
    let p' := { p with x := kw.x.getD p.x, y := kw.y.getD p.y, z := kw.z.getD p.z }
    (if kw.autoPath then { p' with path := newPath h p' .auto true } else p', none)

/-- `set_labels` of each class: hist1d.py:205-215, hist2d.py:111-121, base.py:76-95 -/
def setLabels (kw : Kw) (h : Heap) (p : Plot) : (Heap × Plot) × Option PyErr :=
  match p.kind with
  | .hist1d =>
    if kw.z.isSome then ((h, p), some .valueError)
    else
      match kw.y.getD p.y with
      | .count i =>
        match p.axnorm with
        | none => ((h, p), some .attributeError)
        | some n =>
          let r := baseSetLabels { kw with y := some (.count i) } (h.put i n) p
          ((h.put i n, r.1), r.2)
      | y =>
        let r := baseSetLabels { kw with y := some y } h p
        ((h, r.1), r.2)
  | .hist2d =>
    match kw.z.getD p.z with
    | .count i =>
      let h' := match p.axnorm with
        | none => h
        | some n => h.put i n
      let r := baseSetLabels { kw with z := some (.count i) } h' p
      ((h', r.1), r.2)
    | z =>
      let r := baseSetLabels { kw with z := some z } h p
      ((h, r.1), r.2)
  | _ =>
    let r := baseSetLabels kw h p
    ((h, r.1), r.2)

/-- `set_log`: base.py:67-74 -/
def setLog (x y : Option Bool) (p : Plot) : Plot := { p with logx := x.getD p.logx, logy := y.getD p.logy }

/-- the check of the argument of `set_axnorm`: hist1d.py:125-127, hist2d.py:145-154 -/
def checkNorm : Kind → Option Txt → Except PyErr (Option Txt)
  | .hist1d, none => .ok none
  | .hist1d, some s =>
    match s with
    | [] => .error .indexError
    | c :: _ => if c.toLower = 'd' then .ok (some ['d']) else .error .assertionError
  | .hist2d, none => .ok none
  | .hist2d, some s => if s.map Char.toLower ∈ norms then .ok (some (s.map Char.toLower)) else .error .assertionError
  | _, _ => .error .attributeError

/-- the label that carries the counts: `labels.y` in 1-D (hist1d.py:129), `labels.z` in 2-D (hist2d.py:156) -/
def Plot.countLbl (p : Plot) : Lbl := if p.kind = .hist1d then p.y else p.z

/-- `set_axnorm`: hist1d.py:116-134, hist2d.py:132-161 -/
def setAxnorm (new : Option Txt) (h : Heap) (p : Plot) : (Heap × Plot) × Option PyErr :=
  match checkNorm p.kind new with
  | .error e => ((h, p), some e)
  | .ok n =>
    match p.countLbl with
    | .count i => ((h.put i n, { p with axnorm := some n }), none)
    | _ => ((h, { p with axnorm := some n }), none)

/-- the calls a user can make on a finished plot -/
inductive Op where
  | labels (kw : Kw)
  | log (x y : Option Bool)
  | path (new : NewPath) (addScale : Bool)
  | axnorm (n : Option Txt)

/-- one call, with the exception it raises -/
def step (o : Op) (s : Heap × Plot) : (Heap × Plot) × Option PyErr :=
  match o with
  | .labels kw => setLabels kw s.1 s.2
  | .log x y => ((s.1, setLog x y s.2), none)
  | .path new sc => ((s.1, { s.2 with path := newPath s.1 s.2 new sc }), none)
  | .axnorm n => setAxnorm n s.1 s.2

/-- a history of calls; exceptions are caught by the user, who goes on with the object -/
def run : List Op → Heap × Plot → Heap × Plot
  | [], s => s
  | o :: os, s => run os (step o s).1

/-! ### Construction -/

/-- `Base.__init__`: base.py:33-38 (`z` defaults to `None`: base.py:16; `set_path("auto")` adds the scales by default) -/
def base0 (k : Kind) (h : Heap) : Plot :=
  let p : Plot := ⟨k, .str ['x'], .str ['y'], .none, false, false, none, ⟨false, []⟩⟩
  { p with path := newPath h p .auto true }

/-- `Hist1D.__init__` without data and bins: hist1d.py:73-78; `id` is the new `Count` object made if `y is None` -/
def mkHist1d (h : Heap) (id : Nat) (logx : Bool) (axnorm : Option Txt) (yNone : Bool) : Except PyErr (Heap × Plot) :=
  let p := setLog (some logx) none (base0 .hist1d h)
  match setAxnorm axnorm h p with
  | (_, some e) => .error e
  | ((h, p), none) =>
    if yNone then
      match countNorm axnorm with
      | .error e => .error e
      | .ok n =>
        match setLabels { x := some (.str ['x']), y := some (.count id) } (h.put id n) p with
        | (s, none) => .ok s
        | (_, some e) => .error e
    else
      match setLabels { x := some (.str ['x']), y := some (.str ['y']) } h p with
      | (s, none) => .ok s
      | (_, some e) => .error e

/-- `Hist2D.__init__` without data and bins: hist2d.py:86-93 -/
def mkHist2d (h : Heap) (id : Nat) (logx logy : Bool) (axnorm : Option Txt) (zNone : Bool) : Except PyErr (Heap × Plot) :=
  let p := setLog (some logx) (some logy) (base0 .hist2d h)
  match (if zNone then (countNorm axnorm).map (fun n => (h.put id n, Lbl.count id)) else .ok (h, .str ['z'])) with
  | .error e => .error e
  | .ok (h, z) =>
    match setLabels { x := some (.str ['x']), y := some (.str ['y']), z := some z } h p with
    | (_, some e) => .error e
    | ((h, p), none) =>
      match setAxnorm axnorm h p with
      | (s, none) => .ok s
      | (_, some e) => .error e

/-- `Scatter.__init__`: scatter.py:36-40 -/
def mkScatter (h : Heap) (zNone : Bool) : Plot :=
  let p := { base0 .scatter h with x := .str ['x'], y := .str ['y'], z := if zNone then .none else .str ['z'], logx := false, logy := false }
  { p with path := newPath h p .none true }

/-- `SpiralPlot2D.__init__` without data and bins: spiral.py:436-439 -/
def mkSpiral (h : Heap) (id : Nat) (logx logy : Bool) (zNone : Bool) : (Heap × Plot) × Option PyErr :=
  let p := setLog (some logx) (some logy) (base0 .spiral h)
  let h := if zNone then h.put id none else h
  setLabels { x := some (.str ['x']), y := some (.str ['y']), z := some (if zNone then .count id else .str ['z']) } h p

end Plt
end SW
