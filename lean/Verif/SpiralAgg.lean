import Verif.Spiral
import Verif.Hist
import Verif.HistPlot

/-!
# Aggregation and drawing of adaptive mesh plots

Models `/repo/solarwindpy/plotting/spiral.py:139-161, 459-512, 572-640` and `PlotWithZdata.set_data`
(`/repo/solarwindpy/plotting/base.py:263-278`).  Dependent values are `Fl`.
-/

namespace SW
namespace Spiral

noncomputable section
open Classical

/-- `set_cell_filter_thresholds(**kwargs)`: spiral.py:139-161; keywords in the order given.  Every call replaces both thresholds. -/
def setThresholds (kw : List (String × ℝ)) : Except PyErr (Option ℝ × Option ℝ) :=
  if ∃ k ∈ kw, k.1 ≠ "density" ∧ k.1 ≠ "size" then .error .keyError
  else .ok ((kw.find? (fun k => k.1 = "density")).map (·.2), (kw.find? (fun k => k.1 = "size")).map (·.2))

/-- one row of the plot's data -/
structure Row where
  x : Fl
  y : Fl
  z : Fl

/-- `PlotWithZdata.set_data`, base.py:263-278, followed by `SpiralPlot2D.set_data`, spiral.py:580-587: rows with a missing entry are dropped,
logarithmic axes hold log10 of the modulus; `z = none` is the default column of ones.  `clip` is stored only: spiral.py never reads it. -/
def setData (logx logy : Bool) (xy : List (Fl × Fl)) (z : Option (List Fl)) (_clip : Bool) : Except PyErr (List Row) :=
  let rows := (xy.zip (z.getD (xy.map (fun _ => .fin 1)))).map (fun q => (⟨q.1.1, q.1.2, q.2⟩ : Row))
  let kept := rows.filter (fun r => !(r.x.isNaN || r.y.isNaN || r.z.isNaN))
  if kept = [] then .error .valueError
  else .ok (kept.map (fun r => ⟨Hist.stored logx r.x, Hist.stored logy r.y, r.z⟩))

/-- aggregation functions -/
inductive Fcn where
  | count
  | mean

/-- the default function: spiral.py:463-467 -/
def pickFcn (fcn : Option Fcn) (zs : List Fl) : Fcn :=
  match fcn with
  | some f => f
  | none => if zs.dedup.length = 1 then .count else .mean

/-- pandas' value of one group; the data have no missing values -/
def groupVal (f : Fcn) (g : List Fl) : Fl :=
  match f with
  | .count => .fin g.length
  | .mean => Fl.sumAll g / .fin g.length

/-- `set_clim`, spiral.py:572-578, as used in `agg`, spiral.py:472-482 -/
def inClim (clim : Option ℝ × Option ℝ) (n : Nat) : Prop :=
  (∀ c ∈ clim.1, c ≤ (n : ℝ)) ∧ (∀ c ∈ clim.2, (n : ℝ) ≤ c)

/-- `build_grouped` and `agg`: spiral.py:459-512; `ids` are the categories, one per datum; result per mesh cell.  A cell without data has
no group and is missing after the reindexing. -/
def agg (mesh : List Cell) (ids : List Int) (zs : List Fl) (fcn : Option Fcn) (clim : Option ℝ × Option ℝ) (size density : Option ℝ) :
    Except PyErr (List Fl) :=
  if ids.length ≠ zs.length then .error .valueError
  else
    match cellFilter mesh ids size density with
    | .error e => .error e
    | .ok flt =>
      .ok ((List.range mesh.length).map (fun i : Nat =>
        let g := ((ids.zip zs).filter (fun p => decide (p.1 = (i : Int)))).map (·.2)
        if g = [] then .nan
        else if ¬ inClim clim g.length then .nan
        else if flt.getD i false then groupVal (pickFcn fcn zs) g else .nan))

/-- `make_plot`: the rectangle of a cell, spiral.py:624-640: lower left corner, width and height -/
def rectangle (logx logy : Bool) (c : Cell) : (ℝ × ℝ) × ℝ × ℝ :=
  let f := fun (log : Bool) (t : ℝ) => if log then (10 : ℝ) ^ t else t
  ((f logx c.x0, f logy c.y0), f logx c.x1 - f logx c.x0, f logy c.y1 - f logy c.y0)

/-- `_limit_color_norm`: spiral.py:589-597; changes the caller's norm (lower, upper limit, clipping) -/
def limitNorm (zs : List ℝ) (norm : Option ℝ × Option ℝ) : ℝ × ℝ :=
  (norm.1.getD (quantile (zs.insertionSort (· ≤ ·)) 0.01), norm.2.getD (quantile (zs.insertionSort (· ≤ ·)) 0.99))

/-- the opacity of a cell: spiral.py:686-697, with `v` the aggregated value of the cell (`none`: masked) and `lo`, `hi` the least and
largest of all; `mpl.colors.Normalize` gives 0 if they coincide -/
def alpha (lo hi : ℝ) (v : Option ℝ) : ℝ :=
  match v with
  | none => 0
  | some a => (1 - (if lo = hi then 0 else (a - lo) / (hi - lo))) ^ (0.25 : ℝ)

end
end Spiral
end SW
