import Verif.Activity
import Mathlib.Analysis.SpecialFunctions.Pow.Real

/-!
# 1-D and 2-D histograms

Models `/repo/solarwindpy/plotting/agg_plot.py`, `hist1d.py`, `hist2d.py` (binning, aggregation, normalisation, selection); drawing
is not modelled.  A row is an abscissa (already `log10|x|` on a logarithmic axis, `hist1d.py:107`) and the aggregated value.
Bin edges are exact reals; `np.round(precision)` is any function `rnd` (the theorems say which facts about it they use).
-/

namespace SW
namespace Hist

noncomputable section
open Classical

/-- `pd.Interval(l, r, closed="right")` contains `v`: agg_plot.py:278. -/
def inIvl (l r : ℝ) (v : Fl) : Prop := Fl.lt (.fin l) v ∧ Fl.le v (.fin r)

/-- `pd.cut(d, intervals)` at agg_plot.py:302: the position of the interval `(e_i, e_{i+1}]` holding the value, or missing. -/
def cutIdx : List ℝ → Fl → Option Nat
  | l :: r :: e, v => if inIvl l r v then some 0 else (cutIdx (r :: e) v).map (· + 1)
  | _, _ => none

/-- the `nbins` argument: a number of bins or explicit edges (the `"knuth"`/`"fd"`… string rules are not modelled). -/
inductive BinSpec where
  | num (n : Nat)
  | edges (e : List ℝ)

/-- `np.histogram_bin_edges(d, b)`: agg_plot.py:260-261.  `d` holds the finite values only (agg_plot.py:246). -/
def rawEdges (b : BinSpec) (d : List ℝ) : Except PyErr (List ℝ) :=
  match b with
  | .edges e => if e.Pairwise (· ≤ ·) then .ok e else .error .valueError
  | .num 0 => .error .valueError
  | .num (n + 1) =>
      let lo := match d with | [] => 0 | a :: t => t.foldl min a
      let hi := match d with | [] => 1 | a :: t => t.foldl max a
      let (lo, hi) := if lo = hi then (lo - 1 / 2, hi + 1 / 2) else (lo, hi)
      .ok ((List.range (n + 2)).map (fun i : Nat => lo + i * (hi - lo) / (n + 1)))

/-- the intervals between consecutive edges: agg_plot.py:277-278. -/
def ivls (e : List ℝ) : List (ℝ × ℝ) := e.zip e.tail

/-- `calc_bins_intervals` for one axis: agg_plot.py:205-287 (edges must be distinct, then are rounded), followed by the categories of
`pd.cut` at agg_plot.py:302, which must be distinct (pandas raises ValueError otherwise). -/
def calcEdges (rnd : ℝ → ℝ) (b : BinSpec) (xs : List Fl) : Except PyErr (List ℝ) := do
  let raw ← rawEdges b (Act.vals xs)
  if ¬ raw.Nodup then .error .assertionError
  else
    let e := raw.map rnd
    if (ivls e).Nodup then .ok e else .error .valueError

/-- The `clip_data` argument as the two classes store it: `Hist1D` as given (hist1d.py:114), `Hist2D` as a bool (base.py:278). -/
inductive Clip where
  | off
  | on
  | str (s : String)

/-- `bool(clip_data)`: base.py:278. -/
def Clip.toBool : Clip → Clip
  | .off => .off
  | .on => .on
  | .str s => if s = "" then .off else .on

/-- `Series.clip(lo, up)`. -/
def clipVal (lo up : ℝ) : Fl → Fl
  | .nan => .nan
  | .pinf => .fin up
  | .ninf => .fin lo
  | .fin a => .fin (min (max a lo) up)

/-- `make_cut` for one axis with `clip_data`: agg_plot.py:145-165, 289-306; `lo`, `up` are the 0.0001 and 0.9999 quantiles of the
data.  `Series.clip_lower`/`clip_upper` were removed in pandas 1.0: AttributeError. -/
def makeCut (clip : Clip) (lo up : ℝ) (e : List ℝ) (xs : List Fl) : Except PyErr (List (Option Nat)) :=
  match clip with
  | .off => .ok (xs.map (cutIdx e))
  | .on => .ok (xs.map (fun x => cutIdx e (clipVal lo up x)))
  | .str s =>
      match s.toList with
      | [] => .ok (xs.map (cutIdx e))
      | c :: _ => if c.toLower = 'l' ∨ c.toLower = 'u' then .error .attributeError
                  else .ok (xs.map (fun x => cutIdx e (clipVal lo up x)))

/-! ### Aggregation -/

/-- the aggregated values of the rows in bin `k`: `grouped`, agg_plot.py:111-132 (`joint` puts the cut in the index). -/
def grp {κ : Type} (zs : List Fl) (cuts : List κ) (k : κ) : List Fl :=
  ((zs.zip cuts).filter (fun p => decide (p.2 = k))).map Prod.fst

/-- `gb.agg("count")`: the number of present values. -/
def count (g : List Fl) : Nat := (g.filter (fun v => decide (¬ v.isNaN))).length

inductive Fcn where
  | count
  | mean
  deriving DecidableEq

/-- one aggregate (`"mean"` of infinite values is not modelled: `Act.gmean` averages the finite values). -/
def aggVal : Fcn → List Fl → Fl
  | .count, g => .fin (count g)
  | .mean, g => Act.gmean g

/-- the default aggregation: agg_plot.py:316-321 (`other.dropna().unique().size == 1`). -/
def chooseFcn (fcn : Option Fcn) (zs : List Fl) : Fcn :=
  match fcn with
  | some f => f
  | none => if ((zs.filter (fun v => decide (¬ v.isNaN))).dedup).length = 1 then .count else .mean

/-- `clim`: agg_plot.py:325-337. -/
def climKeep (c0 c1 : Option ℝ) (c : Nat) : Prop :=
  (∀ a ∈ c0, a ≤ (c : ℝ)) ∧ (∀ b ∈ c1, (c : ℝ) ≤ b)

/-- the value of bin `k` after `_agg_runner` and `_agg_reindexer` (agg_plot.py:308-360): unobserved bins and bins outside `clim`
are missing. -/
def binVal {κ : Type} (zs : List Fl) (cuts : List κ) (fcn : Option Fcn) (c0 c1 : Option ℝ) (k : κ) : Fl :=
  if grp zs cuts k = [] then .nan
  else if climKeep c0 c1 (count (grp zs cuts k)) then aggVal (chooseFcn fcn zs) (grp zs cuts k) else .nan

/-! ### 1-D normalisation -/

/-- width of bin `i`. -/
def width (e : List ℝ) (i : Nat) : ℝ := e.getD (i + 1) 0 - e.getD i 0

/-- `if self.log.x: dx = 10.0**dx`: hist1d.py:181-182, hist2d.py:191-194. -/
def dens (log : Bool) (w : ℝ) : ℝ := if log then (10 : ℝ) ^ w else w

/-- `Hist1D.set_axnorm`: hist1d.py:116-134. -/
def setAxnorm1 : Option String → Except PyErr (Option String)
  | none => .ok none
  | some s =>
      match s.toList with
      | [] => .error .indexError
      | c :: _ => if c.toLower = 'd' then .ok (some "d") else .error .assertionError

/-- `Hist1D._axis_normalizer` for `"d"`: hist1d.py:178-183. -/
def density1 (log : Bool) (e : List ℝ) (a : List Fl) : List Fl :=
  (List.range a.length).map (fun i => a.getD i .nan / (.fin (dens log (width e i)) * Fl.sumSkip a))

/-- `Hist1D.agg`: hist1d.py:193-203. -/
def agg1 (e : List ℝ) (log : Bool) (axnorm : Option String) (ys : List Fl) (cuts : List (Option Nat)) (fcn : Option Fcn)
    (c0 c1 : Option ℝ) : Except PyErr (List Fl) :=
  let a := (List.range (e.length - 1)).map (fun i => binVal ys cuts fcn c0 c1 (some i))
  match axnorm with
  | none => .ok a
  | some s =>
      if s = "d" then
        if fcn = some .mean then .error .valueError else .ok (density1 log e a)
      else .error .valueError

/-! ### 2-D normalisation -/

/-- A 2-D aggregate: the value of cell `(i, j)`, `i` the x bin and `j` the y bin; `nx × ny` bins. -/
abbrev Grid := Nat → Nat → Fl

/-- `Hist2D.set_axnorm`: hist2d.py:132-161. -/
def setAxnorm2 : Option String → Except PyErr (Option String)
  | none => .ok none
  | some s => if s.toLower ∈ ["c", "r", "t", "d", "cd", "rd"] then .ok (some s.toLower) else .error .assertionError

/-- the values of column `i`. -/
def col (a : Grid) (ny i : Nat) : List Fl := (List.range ny).map (fun j => a i j)
/-- the values of row `j`. -/
def row (a : Grid) (nx j : Nat) : List Fl := (List.range nx).map (fun i => a i j)
/-- all values. -/
def cells (a : Grid) (nx ny : Nat) : List Fl := (List.range nx).flatMap (fun i => col a ny i)

/-- `Hist2D._axis_normalizer`: hist2d.py:163-232 (the undocumented `(kind, fcn)` pairs cannot pass `set_axnorm`). -/
def norm2 (ex ey : List ℝ) (logx logy : Bool) (axnorm : Option String) (a : Grid) : Except PyErr Grid :=
  let nx := ex.length - 1
  let ny := ey.length - 1
  match axnorm with
  | none => .ok a
  | some s =>
      if s = "c" then .ok (fun i j => a i j / Act.gmax (col a ny i))
      else if s = "r" then .ok (fun i j => a i j / Act.gmax (row a nx j))
      else if s = "t" then .ok (fun i j => a i j / Act.gmax (cells a nx ny))
      else if s = "d" then
        .ok (fun i j => a i j / .fin (dens logx (width ex i)) / .fin (dens logy (width ey j)) / Fl.sumSkip (cells a nx ny))
      else if s = "cd" then .ok (fun i j => a i j / Fl.sumSkip (col a ny i) / .fin (width ey j))
      else if s = "rd" then .ok (fun i j => a i j / Fl.sumSkip (row a nx j) / .fin (width ex i))
      else .error .valueError

/-- `alim`: hist2d.py:239-247. -/
def alimMask (a0 a1 : Option ℝ) (v : Fl) : Fl :=
  if (∀ a ∈ a0, Fl.le (.fin a) v) ∧ (∀ b ∈ a1, Fl.le v (.fin b)) then v else .nan

/-- `Hist2D.agg`: hist2d.py:234-250. -/
def agg2 (ex ey : List ℝ) (logx logy : Bool) (axnorm : Option String) (zs : List Fl) (cuts : List (Option Nat × Option Nat))
    (fcn : Option Fcn) (c0 c1 a0 a1 : Option ℝ) : Except PyErr Grid := do
  let g ← norm2 ex ey logx logy axnorm (fun i j => binVal zs cuts fcn c0 c1 (some i, some j))
  .ok (fun i j => alimMask a0 a1 (g i j))

/-- `PlotWithZdata.set_data` + `Hist2D.set_data`: base.py:264-278, hist2d.py:123-130 on linear axes. -/
def setData2 (rows : List (Fl × Fl × Fl)) : Except PyErr (List (Fl × Fl × Fl)) :=
  let d := rows.filter (fun r => decide (¬ r.1.isNaN ∧ ¬ r.2.1.isNaN ∧ ¬ r.2.2.isNaN))
  if d = [] then .error .valueError else .ok d

/-! ### Selection -/

/-- `get_plotted_data_boolean_series` in 1-D: agg_plot.py:383-412. -/
def plotted1 (a : List Fl) (cuts : List (Option Nat)) : List Bool :=
  cuts.map (fun c => decide (∃ i, c = some i ∧ i < a.length ∧ ¬ (a.getD i .nan).isNaN))

/-- `get_plotted_data_boolean_series` in 2-D: agg_plot.py:394-406: the axes are tested one after the other. -/
def plotted2 (nx ny : Nat) (a : Grid) (cuts : List (Option Nat × Option Nat)) : List Bool :=
  cuts.map (fun c =>
    decide (∃ i, c.1 = some i ∧ i < nx ∧ ∃ j', j' < ny ∧ ¬ (a i j').isNaN) &&
    decide (∃ j, c.2 = some j ∧ j < ny ∧ ∃ i', i' < nx ∧ ¬ (a i' j).isNaN))

/-- `get_subset_above_threshold`, the boolean part: agg_plot.py:419-426, 1-D and 2-D. -/
def above1 (thr : ℝ) (a : List Fl) (cuts : List (Option Nat)) : List Bool :=
  cuts.map (fun c => decide (∃ i, c = some i ∧ i < a.length ∧ Fl.le (.fin thr) (a.getD i .nan)))

def above2 (nx ny : Nat) (thr : ℝ) (a : Grid) (cuts : List (Option Nat × Option Nat)) : List Bool :=
  cuts.map (fun c =>
    decide (∃ i, c.1 = some i ∧ i < nx ∧ ∃ j', j' < ny ∧ Fl.le (.fin thr) (a i j')) &&
    decide (∃ j, c.2 = some j ∧ j < ny ∧ ∃ i', i' < nx ∧ Fl.le (.fin thr) (a i' j)))

/-- `np.log10(np.abs(x))`: hist1d.py:107, hist2d.py:126-129. -/
def log10abs (x : Fl) : Fl := Fl.log (Fl.abs x) / .fin (Real.log 10)

/-- `10 ** x`: agg_plot.py:429-431, hist1d.py:160. -/
def pow10 : Fl → Fl
  | .nan => .nan
  | .pinf => .pinf
  | .ninf => .fin 0
  | .fin a => .fin ((10 : ℝ) ^ a)

/-- `Hist1D.construct_cdf`: hist1d.py:136-165; rows are (stored x, cut, marked).  Returns (value, position). -/
def cdf (log : Bool) (xs ys : List Fl) (cuts : List (Option Nat)) (mark : List Bool) : Except PyErr (List (Fl × Fl)) :=
  if ¬ (ys.dedup.length ≤ 2) then .error .valueError
  else
    let sel := ((xs.zip cuts).zip mark).filter (fun p => decide (p.1.2 ≠ none) && p.2)
    let v := (Act.vals (sel.map (fun p => p.1.1))).insertionSort (· ≤ ·)
    .ok ((List.range v.length).map (fun i : Nat =>
      ((if log then Fl.fin ((10 : ℝ) ^ v.getD i 0) else Fl.fin (v.getD i 0)), Fl.fin i / Fl.fin ((v.length : ℝ) - 1))))

/-- `get_border`: hist2d.py:632-663, one column: the last and the first valid cell. -/
def borderCol (ny : Nat) (a : Nat → Fl) : Option (Nat × Fl) × Option (Nat × Fl) :=
  let ok := (List.range ny).filter (fun j => decide (¬ (a j).isNaN))
  (ok.getLast?.map (fun j => (j, a j)), ok.head?.map (fun j => (j, a j)))

/-- The loop of `take_data_in_yrange_across_x`: hist1d.py:388-404, hist2d.py:1185-1200.  A range is `((l, r), (b, t))`, a datum
`(label, x, y)`. -/
def takeLoop (data : List (Int × Fl × Fl)) : List ((ℝ × ℝ) × (ℝ × ℝ)) → Except PyErr (List Int)
  | [] => .ok []
  | ((l, r), (b, t)) :: rest =>
      if l < r ∧ b < t then do
        let out ← takeLoop data rest
        .ok (((data.filter (fun d => decide (inIvl l r d.2.1 ∧ inIvl b t d.2.2))).map Prod.fst) ++ out)
      else .error .assertionError

/-- `np.sort(np.concatenate(taken))`; concatenating nothing is a ValueError. -/
def takeData (data : List (Int × Fl × Fl)) (ranges : List ((ℝ × ℝ) × (ℝ × ℝ))) : Except PyErr (List Int) := do
  let out ← takeLoop data ranges
  if ranges = [] then .error .valueError else .ok (out.insertionSort (· ≤ ·))

end
end Hist
end SW
