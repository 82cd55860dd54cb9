import Verif.FitCore
import Verif.PlotState
import Mathlib.Analysis.SpecialFunctions.Log.Base

/-!
# The plotter of a fit

Models `/repo/solarwindpy/fitfunctions/plots.py`: the save path and the setters it follows, the marker spacing, the residual curves and
the window around the data.  Text is a list of characters (ASCII).  What matplotlib does with a curve is not modelled.
-/

namespace SW
namespace FFP

open Plt (Txt PPath parsePath)

/-- a label: nothing, text, or a label object with its `path` -/
inductive Lab where
  | none
  | str (s : Txt)
  | obj (p : PPath)
  deriving DecidableEq

/-- the state of an `FFPlot` its path depends on: plots.py:39-44 -/
structure St where
  name : Txt
  x : Lab
  y : Lab
  z : Lab
  logx : Bool
  logy : Bool
  deriving DecidableEq

/-- `FFPlot.__init__`: plots.py:22-44, AxesLabels("x", "y") with z = None -/
def init (name : Txt) : St := ⟨name, .str ['x'], .str ['y'], .none, false, false⟩

/-- plots.py:74-82: `label.path`, or the text of the label if it has no path (`str(None)` is "None") -/
def labPath : Lab → PPath
  | .none => parsePath ['N', 'o', 'n', 'e']
  | .str s => parsePath s
  | .obj p => p

/-- plots.py:84-88: no z label, no component -/
def withZ (q : PPath) : Lab → PPath
  | .none => q
  | l => q.div (labPath l)

/-- plots.py:90 -/
def xScale (log : Bool) : Txt := if log then ['l', 'o', 'g', 'X'] else ['l', 'i', 'n', 'X']
/-- plots.py:91, as written -/
def yScale (log : Bool) : Txt := if log then ['l', 'o', 'g', 'Y'] else ['l', 'o', 'g', 'Y']

/-- `FFPlot.path`: plots.py:70-95 (computed on every access) -/
def path (s : St) : PPath :=
  let base := (parsePath ['F', 'F', 'P', 'l', 'o', 't']).div (parsePath s.name)
  let base := base.div (labPath s.x)
  let base := base.div (labPath s.y)
  let base := withZ base s.z
  base.div (parsePath (xScale s.logx ++ '_' :: yScale s.logy))

/-- a setter call with its keyword arguments; `extra`: an unknown keyword is present -/
inductive Op where
  | labels (x y z : Option Lab) (extra : Bool)
  | log (x y : Option Bool) (extra : Bool)
  | rename (name : Txt)

/-- `set_labels` plots.py:737-752, `set_log` 754-763 (an unknown key reaches the constructor of `LogAxes`), `set_fitfunction_name` 105-108 -/
def step (s : St) : Op → St × Option PyErr
  | .labels x y z extra =>
    if extra then (s, some .keyError) else ({ s with x := x.getD s.x, y := y.getD s.y, z := z.getD s.z }, none)
  | .log x y extra =>
    if extra then (s, some .typeError) else ({ s with logx := x.getD s.logx, logy := y.getD s.logy }, none)
  | .rename n => ({ s with name := n }, none)

def run (s : St) : List Op → St
  | [] => s
  | o :: os => run (step s o).1 os

/-! ### Marker spacing -/

/-- `int(10.0 ** np.floor(np.log10(n) - 1))`, `None` if zero: plots.py:122-139.  `np.log10(0)` is -inf and `10.0 ** -inf` is 0; the
`OverflowError` branch is not reached for a finite number of points. -/
noncomputable def markevery (n : Nat) : Option Nat :=
  let v : Nat := if n = 0 then 0 else ⌊(10 : ℝ) ^ ⌊Real.logb 10 n - 1⌋⌋₊
  if v = 0 then none else some v

/-! ### Residual curves -/

/-- the colour, marker and line style given as keyword arguments of a curve -/
structure Style where
  color : Option Txt := none
  marker : Option Txt := none
  linestyle : Option Txt := none
  deriving DecidableEq

/-- one call of `ax.plot` -/
structure Curve where
  ys : List Fl
  label : Txt
  color : Txt
  marker : Txt
  linestyle : Txt

/-- `FFPlot.residuals`: plots.py:716-735.  `fun`: `fit_result.fun`, absent if there is no fit result (`None.fun`: AttributeError);
as many values as observations used. -/
noncomputable def residuals (y fit : List Fl) (fn : Option (List Fl)) (pct robust : Bool) : Except PyErr (List Fl) :=
  if robust then
    match fn with
    | none => .error .attributeError
    | some r => .ok (if pct then (List.zipWith (· / ·) r fit).map (fun q => .fin 100 * q) else r)
  else .ok (plotResiduals y fit pct)

/-- `s.lstrip(chars)` -/
def lstrip (chars s : Txt) : Txt := s.dropWhile (fun c => decide (c ∈ chars))
/-- `s.strip(chars)` -/
def strip (chars s : Txt) : Txt := (lstrip chars (lstrip chars s).reverse).reverse

/-- the text `" \; "` -/
def sep : Txt := [' ', '\\', ';', ' ']
def simpleW : Txt := ['s', 'i', 'm', 'p', 'l', 'e']
def robustW : Txt := ['r', 'o', 'b', 'u', 's', 't']
def bothW : Txt := ['b', 'o', 't', 'h']
def simpleT : Txt := ['S', 'i', 'm', 'p', 'l', 'e']
def robustT : Txt := ['R', 'o', 'b', 'u', 's', 't']

/-- `r"$\mathrm{%s}$" % label` -/
def mathrm (s : Txt) : Txt := ['$', '\\', 'm', 'a', 't', 'h', 'r', 'm', '{'] ++ s ++ ['}', '$']

/-- label of the curve for `kind="simple"` or `"robust"` (title-cased word `t`): plots.py:574-581 -/
def singleLabel (label t : Txt) : Txt :=
  if label = [] then mathrm (sep ++ t) else mathrm (lstrip sep (label ++ sep ++ t))

/-- label of a curve for `kind="both"`: plots.py:599-608 -/
def bothLabel (label t : Txt) : Txt :=
  if label = [] then mathrm (sep ++ t) else mathrm (label ++ sep ++ t)

def green : Txt := ['f', 'o', 'r', 'e', 's', 't', 'g', 'r', 'e', 'e', 'n']
def orange : Txt := ['d', 'a', 'r', 'k', 'o', 'r', 'a', 'n', 'g', 'e']

/-- `kind in ("simple", "robust")`: plots.py:565-595 -/
noncomputable def drawSingle (y fit : List Fl) (fn : Option (List Fl)) (pct robust : Bool) (label : Txt) (st : Style) : Except PyErr (List Curve) :=
  match residuals y fit fn pct robust with
  | .error e => .error e
  | .ok r => .ok [⟨r, singleLabel label (if robust then robustT else simpleT), st.color.getD green, st.marker.getD ['P'],
      st.linestyle.getD ['-']⟩]

/-- `kind == "both"`: plots.py:597-644.  A colour, marker or line style among the keyword arguments is a repeated keyword for `ax.plot`:
TypeError.  An AttributeError of the second curve is swallowed (whatever its message: there is no `raise`). -/
noncomputable def drawBoth (y fit : List Fl) (fn : Option (List Fl)) (pct : Bool) (label : Txt) (st : Style) : Except PyErr (List Curve) :=
  if st ≠ {} then .error .typeError
  else
    let c := ⟨plotResiduals y fit pct, bothLabel label simpleT, green, ['P'], ['-']⟩
    match residuals y fit fn pct true with
    | .ok r => .ok [c, ⟨r, bothLabel label robustT, orange, ['X'], ['-']⟩]
    | .error .attributeError => .ok [c]
    | .error e => .error e

/-- `FFPlot.plot_residuals`: plots.py:524-650; the curves it draws -/
noncomputable def plotResid (y fit : List Fl) (fn : Option (List Fl)) (pct : Bool) (kind label : Txt) (st : Style) : Except PyErr (List Curve) :=
  let label := strip ['$'] label
  let kind := kind.map Char.toLower
  if kind = simpleW then drawSingle y fit fn pct false label st
  else if kind = robustW then drawSingle y fit fn pct true label st
  else if kind = bothW then drawBoth y fit fn pct label st
  else .ok []

/-- `plot_raw_used_fit_resid`: plots.py:704-709, the percentage switch: taken out of the caller's dictionary. The dictionary is known by
its "resid_pct" entry: (value used, dictionary afterwards). -/
def popPct (d : Option Bool) : Bool × Option Bool := (d.getD true, none)

/-- the switches used by `n` calls with the same dictionary -/
def callsPct : Nat → Option Bool → List Bool
  | 0, _ => []
  | n + 1, d => (popPct d).1 :: callsPct n (popPct d).2

/-! ### The window -/

/-- the band drawn around the data, `(y - w, y + w)`, `w = 0` if there are no weights: plots.py:261-283, 346-381 -/
def window (y : List Fl) (w : Option (List Fl)) : List Fl × List Fl :=
  match w with
  | none => (y.map (fun a => a - .fin 0), y.map (fun a => a + .fin 0))
  | some w => (List.zipWith (fun a b => a - b) y w, List.zipWith (fun a b => a + b) y w)

end FFP
end SW
