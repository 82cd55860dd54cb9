import Verif.Orbit
import Verif.HistPlot

/-!
# Histograms of labelled rows

The rows of a histogram carry the labels (times) of the Series they were built from.  Models how
`/repo/solarwindpy/plotting/hist1d.py`, `base.py` line the columns up by label, and how `agg_plot.py` looks the aggregated values
up by label again before grouping; the values of the groups are those of `Hist`.  Also the 1-D histogram of an orbit
(`orbits.py`).  Labels are integers (times).
-/

namespace SW
namespace Hist

noncomputable section
open Classical

/-- a `pd.Series` with integer labels, which may repeat -/
abbrev LSer := List (Int × Fl)

/-- value of a column at a label, missing without one (`Series.reindex`) -/
def LSer.at (s : LSer) (k : Int) : Fl :=
  match s.find? (fun p => decide (p.1 = k)) with
  | some p => p.2
  | none => .nan

/-- `data.loc[:, "y"] = y` for a Series `y` and rows labelled `idx` (not empty): hist1d.py:111, base.py:270.  Equal labels: by
position; otherwise `y.reindex(idx)`, which raises ValueError when `y` repeats a label. -/
def setCol (idx : List Int) (s : LSer) : Except PyErr (List Fl) :=
  if s.map Prod.fst = idx then .ok (s.map Prod.snd)
  else if (s.map Prod.fst).Nodup then .ok (idx.map s.at)
  else .error .valueError

/-- a row: label, coordinates `x` (and `y`), value -/
structure LRow (α : Type) where
  k : Int
  c : α
  v : Fl

/-- `Hist1D.set_data`: hist1d.py:106-114.  An empty `x` takes over the labels of `y` (pandas fills the frame). -/
def setData1 (log : Bool) (x : LSer) (y : Option LSer) : Except PyErr (List (LRow Fl)) :=
  match y with
  | none => .ok (x.map (fun p => ⟨p.1, stored log p.2, .fin 1⟩))
  | some y =>
      if x = [] then .ok (y.map (fun p => ⟨p.1, .nan, p.2⟩))
      else
        match setCol (x.map Prod.fst) y with
        | .error e => .error e
        | .ok vs => .ok ((x.zip vs).map (fun p => ⟨p.1.1, stored log p.1.2, p.2⟩))

/-- `pd.DataFrame({"x": x, "y": y})`: base.py:265: equal labels by position, otherwise over the sorted union, which raises
ValueError when a label repeats. -/
def frame2 (x y : LSer) : Except PyErr (List (Int × Fl × Fl)) :=
  if x.map Prod.fst = y.map Prod.fst then .ok ((x.zip y).map (fun p => (p.1.1, p.1.2, p.2.2)))
  else if (x.map Prod.fst).Nodup ∧ (y.map Prod.fst).Nodup then
    .ok ((((x.map Prod.fst ++ y.map Prod.fst).dedup).insertionSort (· ≤ ·)).map (fun k => (k, x.at k, y.at k)))
  else .error .valueError

/-- `PlotWithZdata.set_data` and `Hist2D.set_data`: base.py:264-278, hist2d.py:123-130 (`x`, `y` not both empty) -/
def setDataZ (logx logy : Bool) (x y : LSer) (z : Option LSer) : Except PyErr (List (LRow (Fl × Fl))) := do
  let f ← frame2 x y
  let zs ← (match z with
    | none => .ok (f.map (fun _ => Fl.fin 1))
    | some z => setCol (f.map (fun r => r.1)) z : Except PyErr (List Fl))
  let d := (f.zip zs).filter (fun p => decide (¬ p.1.2.1.isNaN ∧ ¬ p.1.2.2.isNaN ∧ ¬ p.2.isNaN))
  if d = [] then .error .valueError
  else .ok (d.map (fun p => ⟨p.1.1, (stored logx p.1.2.1, stored logy p.1.2.2), p.2⟩))

/-- `self.data.loc[cut.index, tko]` with the labels of the rows themselves: agg_plot.py:102: for every row, the values of all rows
with its label. -/
def locAll {α : Type} (rows : List (LRow α)) : List Fl :=
  rows.flatMap (fun r => (rows.filter (fun r' => decide (r'.k = r.k))).map LRow.v)

/-- `joint`: agg_plot.py:85-107: assigning the bins as the index of the values raises ValueError unless there are as many. -/
def joint {α κ : Type} (rows : List (LRow α)) (cuts : List κ) : Except PyErr (List Fl) :=
  if (locAll rows).length = cuts.length then .ok (locAll rows) else .error .valueError

/-- `Hist1D.agg` on labelled rows with bin edges `e`: hist1d.py:193-203, agg_plot.py:362-381 (no clipping).  The refusal of a
density of anything but counts comes first. -/
def aggL1 (e : List ℝ) (log : Bool) (axnorm : Option String) (rows : List (LRow Fl)) (fcn : Option Fcn) (c0 c1 : Option ℝ) :
    Except PyErr (List Fl) :=
  if axnorm = some "d" ∧ fcn = some .mean then .error .valueError
  else
    match joint rows (rows.map (fun r => cutIdx e r.c)) with
    | .error er => .error er
    | .ok vs => agg1 e log axnorm vs (rows.map (fun r => cutIdx e r.c)) fcn c0 c1

/-- `Hist2D.agg` on labelled rows: hist2d.py:234-250, agg_plot.py:362-381. -/
def aggL2 (ex ey : List ℝ) (logx logy : Bool) (axnorm : Option String) (rows : List (LRow (Fl × Fl))) (fcn : Option Fcn)
    (c0 c1 a0 a1 : Option ℝ) : Except PyErr Grid :=
  match joint rows (rows.map (fun r => (cutIdx ex r.c.1, cutIdx ey r.c.2))) with
  | .error er => .error er
  | .ok vs => agg2 ex ey logx logy axnorm vs (rows.map (fun r => (cutIdx ex r.c.1, cutIdx ey r.c.2))) fcn c0 c1 a0 a1

/-! ### The beta-anisotropy plot -/

/-- `BetaRPlot(beta, ani, species)` and its `agg()`: instabilities/beta_ani.py:46-61: a 2-D histogram of counts, both axes
logarithmic unless told otherwise, cells with fewer than 5 measurements left out (`set_clim(5, None)`); `ex`, `ey` the bin edges. -/
def betaR (logx logy : Option Bool) (beta ani : LSer) (ex ey : List ℝ) : Except PyErr Grid :=
  match setDataZ (logx.getD true) (logy.getD true) beta ani none with
  | .error er => .error er
  | .ok rows => aggL2 ex ey (logx.getD true) (logy.getD true) none rows none (some 5) none none none

/-- the labels: beta_ani.py:52-57; `strip` is `species.replace("_bimax", "")` -/
def betaRLabels (strip : String → String) (species : String) : (String × String × String) × (String × String × String) :=
  (("beta", "par", strip species), ("R", if species.toList.contains '+' then "P" else "T", strip species))

/-! ### The 1-D histogram of an orbit -/

/-- one bin of one leg: `OrbitPlot.grouped` (orbits.py:34-38) does not pass `observed`, so every bin of every leg occurs. -/
def legVal1 (vs : List Fl) (cuts : List (Option Nat × Option Orb.Leg)) (fcn : Option Fcn) (c0 c1 : Option ℝ) (l : Orb.Leg)
    (i : Nat) : Fl :=
  if climKeep c0 c1 (count (grp vs cuts (some i, some l))) then aggVal (chooseFcn fcn vs) (grp vs cuts (some i, some l)) else .nan

/-- `OrbitHist1D.agg` (orbits.py:81-103, `_disable_both` is always true) through `Hist1D.agg`: a density needs interval labels, and
the aggregate has pairs (bin, leg) as labels: TypeError (hist1d.py:180).  One curve per leg (orbits.py:120-129). -/
def orbitAgg1 (e : List ℝ) (axnorm : Option String) (o : List (Int × Int)) (rows : List (LRow Fl)) (fcn : Option Fcn)
    (c0 c1 : Option ℝ) : Except PyErr (Orb.Leg → List Fl) :=
  match Orb.legs o (rows.map LRow.k) with
  | .error er => .error er
  | .ok ls =>
    let cuts := (rows.map (fun r => cutIdx e r.c)).zip ls
    if axnorm = some "d" ∧ fcn = some .mean then .error .valueError
    else
      match joint rows cuts with
      | .error er => .error er
      | .ok vs =>
        match axnorm with
        | some _ => .error .typeError
        | none => .ok (fun l => (List.range (e.length - 1)).map (legVal1 vs cuts fcn c0 c1 l))

end
end Hist
end SW
