import Verif.Hist

/-!
# Histograms: binning argument, projection, drawn geometry, contour levels

Models `/repo/solarwindpy/plotting/agg_plot.py:205-287`, `hist2d.py:103-109, 272-318, 364-377, 745-766, 870-885, 967-1030`,
`hist1d.py:257-306`.  matplotlib's drawing is not modelled, only the coordinates and values handed to it.
-/

namespace SW
namespace Hist

noncomputable section
open Classical

/-- an entry of the `nbins` argument: a Python/numpy integer, a float, or a sequence of edges (bin-rule strings are not modelled) -/
inductive BinItem where
  | int (n : ℤ)
  | float (r : ℝ)
  | edges (e : List ℝ)

/-- the `nbins` argument -/
inductive NBins where
  | int (n : ℤ)
  | seq (l : List BinItem)

/-- `np.histogram_bin_edges(d, b)` with a scalar: `operator.index`, at least one bin: agg_plot.py:260-261 -/
def itemSpec : BinItem → Except PyErr BinSpec
  | .int n => if n < 1 then .error .valueError else .ok (.num n.toNat)
  | .float _ => .error .typeError
  | .edges e => .ok (.edges e)

/-- `np.asarray` of a sequence used as edges: nested sequences are refused (`bins` must be 1d) -/
def seqEdges : List BinItem → Except PyErr (List ℝ)
  | [] => .ok []
  | .int n :: l => do let e ← seqEdges l; .ok ((n : ℝ) :: e)
  | .float r :: l => do let e ← seqEdges l; .ok (r :: e)
  | .edges _ :: _ => .error .valueError

/-- one specification per axis: agg_plot.py:227-241; `k` axes -/
def axisSpecs (k : Nat) : NBins → Except PyErr (List BinSpec)
  | .int n => do let s ← itemSpec (.int n); .ok (List.replicate k s)
  | .seq l => if l.length ≠ k then do let e ← seqEdges l; .ok (List.replicate k (.edges e)) else l.mapM itemSpec

/-- `calc_bins_intervals` on all axes: agg_plot.py:243-287 -/
def calcAll (rnd : ℝ → ℝ) (nb : NBins) (axes : List (List Fl)) : Except PyErr (List (List ℝ)) := do
  let specs ← axisSpecs axes.length nb
  (specs.zip axes).mapM (fun p => calcEdges rnd p.1 p.2)

/-! ### projection -/

inductive Ax where
  | x
  | y
  deriving DecidableEq

/-- a 2-D histogram: stored rows (log10 taken on logarithmic axes) and edges (`edges`, agg_plot.py:52-53, are the given ones when they ascend strictly) -/
structure H2 where
  rows : List (Fl × Fl × Fl)
  ex : List ℝ
  ey : List ℝ
  logx : Bool
  logy : Bool

def H2.edges (h : H2) : Ax → List ℝ
  | .x => h.ex
  | .y => h.ey
def H2.log (h : H2) : Ax → Bool
  | .x => h.logx
  | .y => h.logy
def H2.coord (a : Ax) (r : Fl × Fl × Fl) : Fl :=
  match a with
  | .x => r.1
  | .y => r.2.1

/-- the bins of the rows: agg_plot.py:289-306, no clipping -/
def H2.cuts (h : H2) : List (Option Nat × Option Nat) := h.rows.map (fun r => (cutIdx h.ex r.1, cutIdx h.ey r.2.1))

/-- the independent value handed to `Hist1D` and stored there: hist2d.py:1000-1004, hist1d.py:107 -/
def projX (h : H2) (a : Ax) (r : Fl × Fl × Fl) : Fl :=
  if h.log a then log10abs (pow10 (H2.coord a r)) else H2.coord a r

/-- the dependent value handed to `Hist1D`: hist2d.py:990-998, 1006-1014; only the y axis is limited and transformed back -/
def projY (h : H2) (a : Ax) (r : Fl × Fl × Fl) : Fl :=
  if 2 ≤ (h.rows.map (fun r => r.2.2)).dedup.length then r.2.2
  else
    match a with
    | .x =>
        let y := if Fl.le (.fin (h.ey.headD 0)) r.2.1 ∧ Fl.le r.2.1 (.fin (h.ey.getLastD 0)) then r.2.1 else .nan
        if h.logy then pow10 y else y
    | .y => r.1

/-- the rows of the `Hist1D`: hist2d.py:1016-1020; `mark` is `get_plotted_data_boolean_series()` when `only_plotted` -/
def projRows (h : H2) (a : Ax) (counts : Bool) (mark : Option (List Bool)) : List (Fl × Fl) :=
  let rows := match mark with
    | none => h.rows
    | some m => ((h.rows.zip m).filter (fun (p : (Fl × Fl × Fl) × Bool) => p.2)).map Prod.fst
  rows.map (fun r => (projX h a r, if counts then .fin 1 else projY h a r))

/-- `project_1d` followed by `Hist1D.agg`: hist2d.py:1022-1029; gives the edges and the bin values -/
def project1d (rnd : ℝ → ℝ) (h : H2) (a : Ax) (counts : Bool) (mark : Option (List Bool)) : Except PyErr (List ℝ × List Fl) := do
  let rows := projRows h a counts mark
  let e ← calcEdges rnd (.edges (h.edges a)) (rows.map Prod.fst)
  let v ← agg1 e (h.log a) none (rows.map Prod.snd) (rows.map (fun r => cutIdx e r.1)) none none none
  .ok (e, v)

/-- the axis argument: hist2d.py:987-988 -/
def projAxis (s : String) : Except PyErr Ax :=
  if s.toLower = "x" then .ok .x else if s.toLower = "y" then .ok .y else .error .assertionError

/-! ### drawn geometry -/

/-- the stored coordinate of a datum: hist1d.py:107, hist2d.py:126-129 -/
def stored (log : Bool) (v : Fl) : Fl := if log then log10abs v else v

/-- `_maybe_convert_to_log_scale` of the edges: hist2d.py:103-109, 295-296, 311 -/
def drawnEdges (log : Bool) (e : List ℝ) : List ℝ := e.map (fun t => if log then (10 : ℝ) ^ t else t)

/-- bin centres as drawn: hist2d.py:299-300, 870-879; hist1d.py:258, 281-282 -/
def drawnCentres (log : Bool) (e : List ℝ) : List ℝ :=
  (ivls e).map (fun p => let m := (p.1 + p.2) / 2; if log then (10 : ℝ) ^ m else m)

/-- `agg.unstack("x").values`, reindexed to all bins: rows of the array are y bins: hist2d.py:292, 305-308, 313 -/
def drawnGrid (nx ny : Nat) (g : Grid) : List (List Fl) :=
  (List.range ny).map (fun j => (List.range nx).map (fun i => g i j))

/-- `np.ma.masked_invalid`: hist2d.py:315 -/
def masked : Fl → Option ℝ
  | .fin r => some r
  | _ => none

/-- `_get_contour_levels`: hist2d.py:745-766 -/
def contourLevels (axnorm : Option String) (levels : Option (List ℝ)) : Except PyErr (Option (List ℝ)) :=
  match levels, axnorm with
  | some l, _ => .ok (some l)
  | none, none => .ok none
  | none, some s =>
      if s = "t" then .ok (some [0.01, 0.1, 0.3, 0.7, 0.99])
      else if s = "d" then .ok (some [3e-5, 1e-4, 3e-4, 1e-3, 1.7e-3, 2.3e-3])
      else if s = "r" ∨ s = "c" then .ok (some [0, 0.1, 0.2, 0.3, 0.4, 0.5, 0.6, 0.7, 0.8, 0.9, 1])
      else if s = "cd" ∨ s = "rd" then .ok none
      else .error .valueError

/-- the curve of `Hist1D.make_plot` with a value and an uncertainty per bin, and its window: hist1d.py:258-279, 293-340;
each entry is (horizontal, vertical) -/
def curve1 (log transpose : Bool) (e : List ℝ) (y : List Fl) : List (Fl × Fl) :=
  ((drawnCentres log e).zip y).map (fun p => if transpose then (p.2, .fin p.1) else (.fin p.1, p.2))

end
end Hist
end SW
