import Verif.HistPlot
import Verif.DrawOpts
import Verif.Spiral

/-!
# Model: contour plots

`Hist2D.plot_contours` (`/repo/solarwindpy/plotting/hist2d.py:784-965`) and `SpiralPlot2D.plot_contours` (`/repo/solarwindpy/plotting/spiral.py:812-1074`): colour norm,
labelled levels, text of the labels, options of the labels, and the points handed to the interpolation.  matplotlib draws the levels it is given (which it requires to be
increasing) or chooses its own; `auto` stands for those.  Interpolation and smoothing are not modelled.
-/

namespace SW
namespace Contour

open Draw (Kw Val pop)

/-- colour norms: the caller's own, the fixed steps of 0.1, steps at the levels, or matplotlib's default -/
inductive Norm where
  | own (name : String)
  | tenths
  | steps (levels : List ℝ)
  | auto

/-- the default of `kwargs.pop("norm", ...)`: hist2d.py:840-847; an explicit None is `some none` -/
def firstNorm (axnorm : Option String) (norm : Option (Option String)) : Norm :=
  match norm with
  | some (some n) => .own n
  | some none => .auto
  | none => if axnorm = some "c" ∨ axnorm = some "r" then .tenths else .auto

/-- hist2d.py:924-925 -/
def lateNorm (n : Norm) (levels : Option (List ℝ)) : Norm :=
  match n, levels with
  | .auto, some l => if 2 ≤ l.length then .steps l else .auto
  | n, _ => n

/-- levels handed to `ax.clabel`: hist2d.py:938-942, spiral.py:1040-1043.  None cannot be sliced: then all levels of the plot. -/
def labelArg (skipMax : Bool) (levels : Option (List ℝ)) : Option (List ℝ) := levels.map fun l => if skipMax then l.dropLast else l

/-- `clabel` labels those levels of the plot that are in the list, all of them without one -/
noncomputable def labelled (drawn : List ℝ) (arg : Option (List ℝ)) : List ℝ :=
  match arg with
  | none => drawn
  | some l => drawn.filter fun v => decide (v ∈ l)

/-- the options of the labels, taken out of the caller's dictionary: hist2d.py:874-876, spiral.py:960-962.  (inline, inline_spacing, fmt), and the dictionary as left, which
is handed to `clabel` too. -/
def labelOpts (d : Kw) : (Val × Val × Val) × Kw :=
  let (inline, d) := pop "inline" (some "True") d
  let (spacing, d) := pop "inline_spacing" (some "-3") d
  let (fmt, d) := pop "fmt" (some "%s") d
  ((inline, spacing, fmt), d)

/-- what a contour plot leaves: drawn levels, colour norm, labelled levels and options of the labels -/
structure Plot where
  drawn : List ℝ
  norm : Norm
  labels : List ℝ
  opts : (Val × Val × Val) × Kw

/-- `Hist2D.plot_contours` -/
noncomputable def hist2d (axnorm : Option String) (norm : Option (Option String)) (levels : Option (List ℝ)) (auto : List ℝ) (labelLevels skipMax : Bool) (ckw : Kw) :
    Except PyErr Plot :=
  match Hist.contourLevels axnorm levels with
  | .error e => .error e
  | .ok lv =>
    let drawn := lv.getD auto
    .ok ⟨drawn, lateNorm (firstNorm axnorm norm) lv, if labelLevels then labelled drawn (labelArg skipMax lv) else [], labelOpts ckw⟩

/-- `SpiralPlot2D.plot_contours`: spiral.py:935-937, 986-1062; its norm is the caller's or none, its levels the caller's or matplotlib's -/
noncomputable def spiral (norm : Option String) (levels : Option (List ℝ)) (auto : List ℝ) (labelLevels skipMax : Bool) (ckw : Kw) : Plot :=
  let drawn := levels.getD auto
  ⟨drawn, match norm with
    | some n => .own n
    | none => .auto, if labelLevels ∧ drawn ≠ [] then labelled drawn (labelArg skipMax levels) else [], labelOpts ckw⟩

/-! ### The text of a label: `"%s" % nf(level)` is `float.__repr__` stripped -/

/-- `s.rstrip(c)` -/
def rstrip (c : Char) (s : List Char) : List Char := (s.reverse.dropWhile (· = c)).reverse

/-- hist2d.py:916-920 -/
def labelHist (repr : List Char) : List Char := rstrip '0' repr

/-- spiral.py:1045-1050 -/
def labelSpiral (repr : List Char) : List Char := rstrip '.' (rstrip '0' repr)

/-! ### The adaptive mesh -/

/-- centre of a cell, 10 to it on a logarithmic axis: spiral.py:972-978 -/
noncomputable def centre (logx logy : Bool) (c : Spiral.Cell) : ℝ × ℝ :=
  let x := (c.x0 + c.x1) / 2
  let y := (c.y0 + c.y1) / 2
  (if logx then (10 : ℝ) ^ x else x, if logy then (10 : ℝ) ^ y else y)

/-- the points handed to the interpolation: spiral.py:928-984: cells with a finite value -/
noncomputable def points (method : String) (logx logy : Bool) (mesh : List Spiral.Cell) (vals : List Fl) : Except PyErr (List ((ℝ × ℝ) × ℝ)) :=
  if method ∉ ["rbf", "grid", "tricontour"] then .error .valueError
  else if vals.length ≠ mesh.length then .error .valueError
  else .ok ((mesh.zip vals).filterMap fun p => match p.2 with
    | .fin v => some (centre logx logy p.1, v)
    | _ => none)

/-- the interpolation grid along one axis, `np.linspace(x.min(), x.max(), resolution)`: spiral.py:752-754, 804-806; the minimum of nothing is a ValueError -/
noncomputable def gridAxis (xs : List ℝ) (n : Nat) : Except PyErr (List ℝ) :=
  match xs.min?, xs.max? with
  | some a, some b => .ok ((List.range n).map fun (i : Nat) => if n = 1 then a else a + i * ((b - a) / (n - 1 : ℝ)))
  | _, _ => .error .valueError

end Contour
end SW
