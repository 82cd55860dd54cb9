import Verif.Hist

/-!
# Model: the drawn borders of a 2-D histogram

`get_border` for the whole histogram, `_plot_one_edge` and `plot_edges`: `/repo/solarwindpy/plotting/hist2d.py:632-743`.  scipy's Savitzky-Golay filter is an
arbitrary function that keeps the number of points; its two refusals are modelled.  Only the coordinates handed to `ax.plot` are modelled, not the drawing.
-/

namespace SW
namespace Hist

noncomputable section
open Classical

/-- the caller's `sg_kwargs` dictionary: the two keywords read here; `interp` tells whether its `mode` is the default `"interp"` -/
structure SgKw where
  window : Option ℤ
  order : Option ℤ
  interp : Bool

/-- `get_border`: hist2d.py:640-660: for each column with a displayed cell its number and the number of its last / first such cell.  Without any, naming the two
levels of the index of an empty series is a ValueError (658). -/
def border (nx ny : Nat) (g : Grid) : Except PyErr (List (Nat × Nat) × List (Nat × Nat)) :=
  let top := (List.range nx).filterMap fun i => (borderCol ny (g i)).1.map fun c => (i, c.1)
  let bottom := (List.range nx).filterMap fun i => (borderCol ny (g i)).2.map fun c => (i, c.1)
  if top = [] then .error .valueError else .ok (top, bottom)

/-- centre of bin `i`: `get_level_values(...).mid`, hist2d.py:673-674 -/
def mid (e : List ℝ) (i : Nat) : ℝ := (e.getD i 0 + e.getD (i + 1) 0) / 2

/-- the window actually used, `if not wlength % 2: wlength -= 1`: hist2d.py:683-684 -/
def oddWindow (w : ℤ) : ℤ := if w % 2 = 0 then w - 1 else w

/-- `savgol_filter(y, wlength, polyorder, **sg_kwargs)`: hist2d.py:686.  scipy refuses an order not less than the window, and in mode "interp" a window longer than
the data (both ValueError). -/
def savgol (F : ℤ → ℤ → List ℝ → List ℝ) (interp : Bool) (w k : ℤ) (y : List ℝ) : Except PyErr (List ℝ) :=
  if w ≤ k then .error .valueError else if interp ∧ (y.length : ℤ) < w then .error .valueError else .ok (F w k y)

/-- the smoothing of `_plot_one_edge`: hist2d.py:676-686.  The two keywords are popped from the caller's dictionary, which is returned as it is left. -/
def smoothEdge (F : ℤ → ℤ → List ℝ → List ℝ) (smooth : Bool) (kw : SgKw) (y : List ℝ) : Except PyErr (List ℝ) × SgKw :=
  if smooth then
    let w := kw.window.getD ((y.length / 10 : Nat) : ℤ)
    let k := kw.order.getD 3
    (savgol F kw.interp (oddWindow w) k y, { kw with window := none, order := none })
  else (.ok y, kw)

/-- a limit that may be None: hist2d.py:697-704 -/
def above (lo : Option ℝ) (v : ℝ) : Prop := ∀ l, lo = some l → l ≤ v
def below (hi : Option ℝ) (v : ℝ) : Prop := ∀ h, hi = some h → v ≤ h

/-- how the borders are drawn: bin edges, logarithmic axes, limits -/
structure Frame2 where
  ex : List ℝ
  ey : List ℝ
  logx : Bool
  logy : Bool
  x0 : Option ℝ
  x1 : Option ℝ
  y0 : Option ℝ
  y1 : Option ℝ

/-- 10 to a coordinate on a logarithmic axis: hist2d.py:688-691 -/
def unlog (log : Bool) (v : ℝ) : ℝ := if log then (10 : ℝ) ^ v else v

/-- the points handed to `ax.plot` by `_plot_one_edge`, given the smoothed heights: hist2d.py:688-710 -/
def edgePoints (f : Frame2) (xs ys : List ℝ) : List (ℝ × ℝ) :=
  ((xs.map (unlog f.logx)).zip (ys.map (unlog f.logy))).filter fun q =>
    decide (above f.x0 q.1 ∧ below f.x1 q.1 ∧ above f.y0 q.2 ∧ below f.y1 q.2)

/-- `_plot_one_edge`: hist2d.py:663-710 -/
def oneEdge (F : ℤ → ℤ → List ℝ → List ℝ) (smooth : Bool) (kw : SgKw) (f : Frame2) (edge : List (Nat × Nat)) :
    Except PyErr (List (ℝ × ℝ)) × SgKw :=
  let s := smoothEdge F smooth kw (edge.map fun c => mid f.ey c.2)
  (s.1.map (edgePoints f (edge.map fun c => mid f.ex c.1)), s.2)

/-- `plot_edges`: hist2d.py:731-743; the same dictionary goes to the top and then to the bottom border.  Returns the two curves and the dictionary as left. -/
def plotEdges (F : ℤ → ℤ → List ℝ → List ℝ) (smooth : Bool) (kw : SgKw) (f : Frame2) (nx ny : Nat) (g : Grid) :
    Except PyErr (List (ℝ × ℝ) × List (ℝ × ℝ)) × SgKw :=
  match border nx ny g with
  | .error e => (.error e, kw)
  | .ok b =>
    match oneEdge F smooth kw f b.1 with
    | (.error e, kw1) => (.error e, kw1)
    | (.ok t, kw1) =>
      match oneEdge F smooth kw1 f b.2 with
      | (.error e, kw2) => (.error e, kw2)
      | (.ok l, kw2) => (.ok (t, l), kw2)

end
end Hist
end SW
