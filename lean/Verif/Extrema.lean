import Verif.Activity

/-!
# Extrema of an activity index: from the raw series to the table

Models `/repo/solarwindpy/solar_activity/lisird/extrema_calculator.py:44-65, 126-146, 241-374`: smoothing, crossings, intervals, extrema with
their dates, for series that may have missing values.  `Activity.lean` holds the pieces without dates.

A series is a list of (time, value) with increasing times; times are integers in a unit in which half the window is one, too.
-/

namespace SW
namespace Act

noncomputable section
open Classical

abbrev Series := List (Int × Fl)

/-- `set_name`: extrema_calculator.py:126-131 -/
def nameOk (name : String) : Except PyErr Unit :=
  if name ∈ ["delk2", "delwb", "k2vk3", "viored", "delk1"] then .error .valueError else .ok ()

/-- `index.loc["1977-01-01":]` for Ca K quantities: extrema_calculator.py:135-137; `y77` is that date -/
def trusted (y77 : Int) (name : String) (raw : Series) : Series :=
  if name ∈ ["delk1", "delk2", "delwb", "emdx", "k2vk3", "k3", "viored"] then raw.filter (fun p => y77 ≤ p.1) else raw

/-- the numbers among the values (pandas' rolling aggregations treat infinities as missing) -/
def numbers (l : List Fl) : List ℝ := l.filterMap (fun x => match x with | .fin a => some a | _ => none)

/-- `rolling("<w>d").mean()` at time `t`: the values in `(t - w, t]`, at least one: extrema_calculator.py:141 -/
def rollMean (w : Int) (raw : Series) (t : Int) : Fl :=
  match numbers ((raw.filter (fun p => t - w < p.1 ∧ p.1 ≤ t)).map Prod.snd) with
  | [] => .nan
  | a :: l => .fin ((a :: l).sum / (a :: l).length)

/-- `set_data`: extrema_calculator.py:139-142; `half` is half the window; `none`: `window=None` -/
def smooth (half : Option Int) (raw : Series) : Series :=
  match half with
  | none => raw
  | some h => raw.map (fun p => (p.1 - h, rollMean (2 * h) raw p.1))

/-- `high` and `low` of one sample: extrema_calculator.py:313-314 -/
def side (thr : ℝ) (x : Fl) : Prop × Prop := (Fl.lt (.fin thr) x, Fl.lt x (.fin thr))

/-- crossings after a sample with value `prev`: extrema_calculator.py:316-319 -/
def crossingsFrom (thr : ℝ) : Fl → Series → List Int
  | _, [] => []
  | prev, (t, x) :: l =>
    if side thr x ≠ side thr prev ∧ x ≠ .nan then t :: crossingsFrom thr x l else crossingsFrom thr x l

/-- `find_threshold_crossings`: the first difference is missing and counts as a change: extrema_calculator.py:309-322 -/
def crossings (thr : ℝ) : Series → List Int
  | [] => []
  | (t, x) :: l => (if x ≠ .nan then [t] else []) ++ crossingsFrom thr x l

/-- the edges of the intervals: extrema_calculator.py:329-335; IndexError without crossing -/
def edges (raw : Series) (cr : List Int) : Except PyErr (List Int) :=
  match cr.head?, cr.getLast?, raw.head?, raw.getLast? with
  | some c0, some c1, some r0, some r1 =>
    let b := if c1 < r1.1 then cr ++ [r1.1] else cr
    .ok (if r0.1 < c0 then r0.1 :: b else b)
  | _, _, _, _ => .error .indexError

/-- the measured samples of the data in `(l, r]`: extrema_calculator.py:339-340, 250-253
(an infinite value, possible only without a window, is treated as missing) -/
def between (data : Series) (l r : Int) : List (Int × ℝ) :=
  (data.filter (fun p => l < p.1 ∧ p.1 ≤ r)).filterMap (fun p => match p.2 with | .fin a => some (p.1, a) | _ => none)

/-- the groups, one per pair of neighbouring edges: extrema_calculator.py:339-340, 243 (empty groups included) -/
def cells (data : Series) : List Int → List (List (Int × ℝ))
  | l :: r :: rest => between data l r :: cells data (r :: rest)
  | _ => []

/-- the extremum of a group with its date, the first one attaining it: extrema_calculator.py:249-269 -/
def dated (thr : ℝ) (g : List (Int × ℝ)) : Except PyErr (Option (Bool × Int)) :=
  match groupExtremum thr (g.map Prod.snd) with
  | .error e => .error e
  | .ok .skip => .ok none
  | .ok (.max v) => .ok ((g.find? (fun p => p.2 = v)).map (fun p => (true, p.1)))
  | .ok (.min v) => .ok ((g.find? (fun p => p.2 = v)).map (fun p => (false, p.1)))

/-- `_find_extrema`: (maxima, minima): extrema_calculator.py:241-274 -/
def candidates (thr : ℝ) (data : Series) (es : List Int) : Except PyErr (List Int × List Int) :=
  match (cells data es).mapM (dated thr) with
  | .error e => .error e
  | .ok l => .ok (l.filterMap (fun o => o.bind (fun p => if p.1 then some p.2 else none)),
      l.filterMap (fun o => o.bind (fun p => if p.1 then none else some p.2)))

/-- the whole calculation: extrema_calculator.py:60-65, 362-374.  `sep` is the minimum separation of 1000 days, `thr` the threshold argument -/
def extremaTable (y77 sep : Int) (name : String) (raw : Series) (thr : Option Thr) (half : Option Int) : Except PyErr (List Row) :=
  match nameOk name with
  | .error e => .error e
  | .ok _ =>
    let raw := trusted y77 name raw
    let data := smooth half raw
    match threshold name thr (data.map Prod.snd) with
    | .error e => .error e
    | .ok th =>
      match edges raw (crossings th data) with
      | .error e => .error e
      | .ok es =>
        match candidates th data es with
        | .error e => .error e
        | .ok c =>
          match validateBoth sep name c.1 c.2 with
          | .error e => .error e
          | .ok v => formatExtrema v.2 v.1

end
end Act
end SW
