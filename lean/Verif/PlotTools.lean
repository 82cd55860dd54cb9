import Verif.Fl
import Verif.PyStr
import Mathlib.Analysis.SpecialFunctions.Log.Base

/-!
# Plotting helpers

Models `/repo/solarwindpy/plotting/tools.py` (grid layout, shared colour bar, legends, NaN-aware smoothing) and the sampling of
`/repo/solarwindpy/plotting/select_data_from_figure.py`.  Matplotlib objects are represented by their grid positions or labels.
-/

namespace SW
namespace PlotTools

/-! ## Grid layout -/

/-- `while n % root: root -= 1`: tools.py:407-408 (`n % 0` is a ZeroDivisionError). -/
def downTo (n : Nat) : Nat → Except PyErr Nat
  | 0 => .error .other
  | r + 1 => if n % (r + 1) = 0 then .ok (r + 1) else downTo n r

/-- one more place for primes: tools.py:411-415; returns the number of places and the root. -/
def grow (n root : Nat) : Except PyErr (Nat × Nat) :=
  if (n / root = 1 ∨ root = 1) ∧ n > 4 then (downTo (n + 1) (n + 1).sqrt).map (fun r => (n + 1, r)) else .ok (n, root)

/-- `calculate_nrows_ncols`: tools.py:385-423.  `int(np.fix(np.sqrt(n)))` is the integer root (exact for n < 2^52). -/
def nrowsNcols (n : Nat) : Except PyErr (Nat × Nat) := do
  let root ← downTo n n.sqrt
  let (n, root) ← grow n root
  let other := n / root
  let nrows := max root other
  let ncols := min root other
  if nrows < 4 then .ok (ncols, nrows) else .ok (nrows, ncols)

/-! ## Shared colour bar -/

inductive Loc | top | bottom | left | right
  deriving DecidableEq, Repr

/-- `cbar_loc.lower()` and the check: tools.py:277-279 (ASCII). -/
def parseLoc (s : String) : Except PyErr Loc :=
  let l := s.map Char.toLower
  if l = "top" then .ok .top else if l = "bottom" then .ok .bottom else if l = "left" then .ok .left
  else if l = "right" then .ok .right else .error .valueError

/-- The grid: relative sizes of its rows and columns (in 1/1000), the rows × columns of the colour bar, and the grid cell of each panel
in `axes[row, col]`. -/
structure Layout where
  heights : List Nat
  widths : List Nat
  caxRows : List Nat
  caxCols : List Nat
  panels : List (List (Nat × Nat))

/-- `build_ax_array_with_common_colorbar`: tools.py:292-356. -/
def layout (nrows ncols : Nat) (loc : Loc) : Layout :=
  let heights := match loc with
    | .right | .left => List.replicate nrows 1000
    | .top => [75, 50] ++ List.replicate nrows 1000
    | .bottom => ([75, 50] ++ List.replicate nrows 1000).reverse
  let widths := match loc with
    | .right => List.replicate ncols 1000 ++ [50, 75]
    | .left => (List.replicate ncols 1000 ++ [50, 75]).reverse
    | .top | .bottom => List.replicate ncols 1000
  let caxRows := match loc with
    | .left | .right => List.range heights.length
    | .top => [0]
    | .bottom => [heights.length - 1]
  let caxCols := match loc with
    | .left => [0]
    | .right => [widths.length - 1]
    | .top | .bottom => List.range widths.length
  let colRange := match loc with
    | .left => (List.range ncols).map (· + 2)
    | _ => List.range ncols
  let rowRange := match loc with
    | .top => (List.range nrows).map (· + 2)
    | _ => List.range nrows
  { heights := heights, widths := widths, caxRows := caxRows, caxCols := caxCols,
    panels := rowRange.map (fun i => colRange.map (fun j => (i, j))) }

/-- shape of the returned array, `axes.squeeze()` / `.item()`: tools.py:379-382 -/
def squeezeShape (nrows ncols : Nat) : List Nat := [nrows, ncols].filter (· ≠ 1)

/-! ## Joint legend -/

/-- the collection loop: tools.py:192-211; entries are (label, handle) of all axes in order. -/
def legendCollect {H : Type} : List (String × H) → List (String × H) → List (String × H)
  | [], acc => acc
  | (l, h) :: rest, acc => if l ∈ acc.map Prod.fst then legendCollect rest acc else legendCollect rest (acc ++ [(l, h)])

/-- `joint_legend`: tools.py:162-221 (labels sorted; they are distinct, so the kind of sort is immaterial). -/
def jointLegend {H : Type} (axes : List (List (String × H))) : List (String × H) :=
  (legendCollect axes.flatten []).insertionSort (fun a b => a.1 ≤ b.1)

/-! ## NaN-aware smoothing -/

noncomputable section
open Classical

/-- `gaussian_filter` as a linear operator on the flattened array: cell `i` is the sum of `w i j * a_j` over the cells `j` of its kernel
(those with non-zero weight).  The kernel, including the treatment of boundaries, is arbitrary. -/
def linFilter (w : Nat → Nat → ℝ) (a : List Fl) : List Fl :=
  (List.range a.length).map (fun i : Nat =>
    Fl.sumAll (((List.range a.length).filter (fun j => decide (w i j ≠ 0))).map (fun j => Fl.fin (w i j) * a.getD j .nan)))

/-- `nan_gaussian_filter`: tools.py:426-505.  `isInt`: an integer array; the filtered data are integers too and `np.divide(…, out=…)`, tools.py:495-500, refuses to
write quotients into an integer array (TypeError). -/
def nanFilter (w : Nat → Nat → ℝ) (isInt : Bool) (a : List Fl) : Except PyErr (List Fl) :=
  if isInt then .error .typeError else
  let arr := a.map (fun x => if x.isNaN then Fl.fin 0 else x)
  let weights := a.map (fun x => if x.isNaN then Fl.fin 0 else .fin 1)
  let fd := linFilter w arr
  let fw := linFilter w weights
  let res := List.zipWith (fun d v => if Fl.lt (.fin 0) v then d / v else .nan) fd fw
  .ok (List.zipWith (fun (r x : Fl) => if x.isNaN then .nan else r) res a)

/-! ## Sampling selected patches -/

/-- one datum: index label, x, y (already logarithmic on logarithmic axes) -/
structure Datum where
  label : Nat
  x : Fl
  y : Fl

/-- a selected rectangle `(x0, x1, y0, y1)` in axis coordinates -/
structure Patch where
  x0 : ℝ
  x1 : ℝ
  y0 : ℝ
  y1 : ℝ

/-- select_data_from_figure.py:230-233 -/
def axisVal (log : Bool) (v : ℝ) : Fl :=
  if log then (if v < 0 then .nan else if v = 0 then .ninf else .fin (Real.logb 10 v)) else .fin v

/-- `tk`: select_data_from_figure.py:228-237 -/
def inPatch (logx logy : Bool) (c : Patch) (d : Datum) : Prop :=
  Fl.lt (axisVal logx c.x0) d.x ∧ Fl.le d.x (axisVal logx c.x1) ∧
  Fl.lt (axisVal logy c.y0) d.y ∧ Fl.le d.y (axisVal logy c.y1)

/-- pandas' random sampling, as arbitrary functions of population and size -/
structure Sampler where
  /-- without replacement -/
  draw : List Nat → Nat → List Nat
  /-- with replacement -/
  drawR : List Nat → Nat → List Nat

/-- `drop(already_selected)` on both columns; one missing label raises KeyError, which is swallowed:
select_data_from_figure.py:213-223. -/
def dropSelected (data : List Datum) (sel : List Nat) : List Datum :=
  if ∀ l ∈ sel, l ∈ data.map Datum.label then data.filter (fun d => decide (d.label ∉ sel)) else data

/-- sampling of one patch: select_data_from_figure.py:227-261; `none`: no data -/
def samplePatch (S : Sampler) (n : Nat) (logx logy : Bool) (data : List Datum) (c : Patch) : Option (List Nat) :=
  let idx := (data.filter (fun d => decide (inPatch logx logy c d))).map Datum.label
  if idx = [] then none
  else if n ≤ idx.length then some (S.draw idx n)
  else some (S.drawR idx n).dedup

/-- `sample_data`: select_data_from_figure.py:186-265: (sampled indices, failed patches). -/
def sampleData (S : Sampler) (n : Nat) (logx logy : Bool) (data : List Datum) (others : Option (List (List Nat)))
    (corners : List Patch) : List Nat × List Patch :=
  let data := match others with
    | none => data
    | some os => dropSelected data os.flatten
  ((corners.flatMap (fun c => (samplePatch S n logx logy data c).getD [])).insertionSort (· ≤ ·),
   corners.filter (fun c => decide (samplePatch S n logx logy data c = none)))

end
end PlotTools
end SW
