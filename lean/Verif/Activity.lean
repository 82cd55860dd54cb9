import Verif.Fl
import Verif.PyStr
import Mathlib.Algebra.Order.Floor.Semiring
import Mathlib.Data.List.Nodup

/-!
# Model: activity indicators (solar_activity/base.py, sunspot_number/sidc.py, lisird/*.py)

Times are integers (nanoseconds since 1970, as in `DatetimeIndex.asi8`).
-/

namespace SW
namespace Act

noncomputable section
open Classical

/-! ### Interpolation -/

/-- scipy `InterpolatedUnivariateSpline(x, y)` as an arbitrary function of the samples; it needs strictly increasing sample
times (ValueError otherwise) and more than 3 samples (degree 3; an error of the Fortran wrapper otherwise). -/
abbrev Spline := List (Int × ℝ) → Int → Fl

def StrictInc : List (Int × ℝ) → Prop := List.Pairwise (fun a b => a.1 < b.1)

/-- base.py:262-320 `interpolate_data` on samples without NaN (both callers drop them: sidc.py:337, lisird.py:301) -/
def interpolate (S : Spline) (src : List (Int × ℝ)) (target : List Int) : Except PyErr (List Fl) :=
  if ¬ StrictInc src then .error .valueError
  else if src.length ≤ 3 then .error .other
  else
    match src.head?, src.getLast?, target.head?, target.getLast? with
    | some s0, some s1, some t0, some t1 =>
      .ok (target.map (fun t =>
        if (s1.1 < t1 → t ≤ s1.1) ∧ (t0 < s0.1 → s0.1 ≤ t) then S src t else Fl.nan))
    | _, _, _, _ => .error .indexError

/-! ### Cycle intervals -/

/-- one row of the table of extrema (base.py:422-424): cycle number, minimum and maximum (none is NaT) -/
structure Row where
  num : Int
  min : Option Int
  max : Option Int

/-- `pd.Interval`, closed on the right -/
structure Ivl where
  l : Int
  r : Int
  deriving DecidableEq

def Ivl.Mem (t : Int) (i : Ivl) : Prop := i.l < t ∧ t ≤ i.r

/-- `pd.Interval(l, r)`: ValueError for a missing or reversed end -/
def mkIvl (l r : Option Int) : Except PyErr Ivl :=
  match l, r with
  | some a, some b => if a ≤ b then .ok ⟨a, b⟩ else .error .valueError
  | _, _ => .error .valueError

structure Cyc where
  rise : Ivl
  fall : Option Ivl
  cycle : Ivl

/-- base.py:440 `pd.to_timedelta(6 * 365, unit="D")` in nanoseconds -/
def sixYears : Int := 6 * 365 * 86400000000000

/-- base.py:430-440: the end of the cycle of `row` -/
def endOf (table : List Row) (today : Int) (row : Row) (t1 : Int) : Option Int :=
  match table.find? (fun r => r.num = row.num + 1) with
  | some nx => nx.min
  | none => if t1 < today then some today else some (t1 + sixYears)

/-- base.py:422-450: the intervals of one row -/
def calcRow (table : List Row) (today : Int) (row : Row) : Except PyErr Cyc := do
  let t1 := row.max.getD today
  let t2 := endOf table today row t1
  let rise ← mkIvl row.min (some t1)
  let fall ← mkIvl (some t1) t2
  let cyc ← mkIvl row.min t2
  return ⟨rise, if some t1 = t2 then none else some fall, cyc⟩

/-- base.py:422 loop over the rows -/
def calcRows (table : List Row) (today : Int) : List Row → Except PyErr (List Cyc)
  | [] => .ok []
  | r :: l => do
    let c ← calcRow table today r
    let rest ← calcRows table today l
    return c :: rest

/-- base.py:405-454 `calculate_intervals` -/
def intervals (table : List Row) (today : Int) : Except PyErr (List Cyc) := calcRows table today table

/-- which columns are cut (base.py:492-509) -/
inductive CutKind where
  | all
  | edges
  | names (l : List String)

/-- base.py:489-514 the stacked intervals (NaT dropped) -/
def stacked : CutKind → List Cyc → Except PyErr (List Ivl)
  | .all, cs => .ok (cs.flatMap (fun c => [c.cycle] ++ c.fall.toList ++ [c.rise]))
  | .edges, cs => .ok (cs.flatMap (fun c => c.fall.toList ++ [c.rise]))
  | .names l, cs =>
    if l.all (fun k => k ∈ ["Cycle", "Fall", "Rise"]) then
      .ok (cs.flatMap (fun c => l.flatMap (fun k =>
        if k = "Cycle" then [c.cycle] else if k = "Fall" then c.fall.toList else [c.rise])))
    else .error .valueError

/-- two right-closed intervals share a point -/
def Overlap (a b : Ivl) : Prop := ∃ t, a.Mem t ∧ b.Mem t

/-- base.py:514-518: duplicates (line 515) and overlapping intervals (inside `pd.cut`) raise ValueError -/
def cutBy (iv : List Ivl) (t : Int) : Except PyErr (Option Ivl) :=
  if iv.Nodup ∧ iv.Pairwise (fun a b => ¬ Overlap a b) then .ok (iv.find? (fun i => i.Mem t)) else .error .valueError

/-- base.py:456-521 `cut_spec_by_interval` for one epoch -/
def cutSpec (k : CutKind) (cs : List Cyc) (t : Int) : Except PyErr (Option Ivl) := do
  let iv ← stacked k cs
  cutBy iv t

/-! ### Extremum bands -/

/-- base.py:526-560 `calculate_extrema_bands`: half-widths (one or two values) -/
def bands (dt : List Int) (extrema : List Int) : Except PyErr (List Ivl) :=
  match dt with
  | [d] => extrema.mapM (fun x => mkIvl (some (x - d)) (some (x + d)))
  | [dl, dr] => extrema.mapM (fun x => mkIvl (some (x - dl)) (some (x + dr)))
  | _ => .error .valueError

/-! ### Edges and extremum labels of the sunspot number -/

/-- sidc.py:370-387 `calculate_edge` for one datum of cycle with maximum `mx` -/
def edge (mx : Option Int) (t : Int) : Option String :=
  match mx with
  | none => none
  | some m => if t ≤ m then some "Rise" else if m < t then some "Fall" else none

/-- labels of sidc.py:361-364 -/
inductive Kind where
  | max (cycle : Int)
  | min (cycle : Int)
  deriving DecidableEq

/-- sidc.py:342-368 `calculate_extrema_kind` for one datum `v` at `t` of cycle `k`; `gmax` is the cycle's largest value. Later
assignments overwrite earlier ones. -/
def extremumKind (k : Int) (mx : Option Int) (gmax : Fl) (t : Int) (v : Fl) : Option Kind :=
  let mid := Fl.fin 0.5 * gmax
  let c0 : Option Kind := if Fl.le mid v then some (.max k) else none
  match mx with
  | none => c0
  | some m =>
    let c1 := if Fl.lt v mid ∧ t ≤ m then some (.min k) else c0
    if Fl.lt v mid ∧ m < t then some (.min (k + 1)) else c1

/-! ### Normalisation -/

/-- the measured values of a group (`skipna`); indicator values are finite or missing -/
def vals (g : List Fl) : List ℝ := g.filterMap (fun x => match x with | .fin r => some r | _ => none)

def gmax (g : List Fl) : Fl :=
  match vals g with
  | [] => .nan
  | a :: l => .fin (l.foldl max a)

def gmin (g : List Fl) : Fl :=
  match vals g with
  | [] => .nan
  | a :: l => .fin (l.foldl min a)

def gmean (g : List Fl) : Fl :=
  match vals g with
  | [] => .nan
  | l => .fin (l.sum / l.length)

/-- pandas `std` (one degree of freedom removed; NaN for fewer than two values) -/
def gstd (g : List Fl) : Fl :=
  if (vals g).length ≤ 1 then .nan
  else
    let m := (vals g).sum / (vals g).length
    .fin (Real.sqrt (((vals g).map (fun x => (x - m) ^ 2)).sum / ((vals g).length - 1)))

/-- sidc.py:422-423 -/
def normMax (g : List Fl) : List Fl := g.map (fun x => x / gmax g)

/-- sidc.py:427-428 -/
def normZ (g : List Fl) : List Fl := g.map (fun x => (x - gmean g) / gstd g)

/-- sidc.py:432-433 -/
def normFeature (g : List Fl) : List Fl := g.map (fun x => (x - gmin g) / (gmax g - gmin g))

/-! ### Sunspot bands -/

/-- sidc.py:461 `np.arange(0, max, 2*d)`: number of mid points -/
def bandCount (mx d : ℝ) : Nat := ⌈mx / (2 * d)⌉₊

/-- sidc.py:463-465: band `k` contains `v` -/
def inBand (d : ℝ) (k : Nat) (v : ℝ) : Prop := k * (2 * d) - d < v ∧ v ≤ k * (2 * d) + d

/-- sidc.py:453-490 `cut_spec_by_ssn_band` for one interpolated value: ValueError for wide bands of the normalised number,
AttributeError before interpolation (sidc.py:469, not caught) -/
def ssnBand (key : String) (interpolated : Bool) (mx d v : ℝ) : Except PyErr (Option Nat) :=
  if key = "nssn" ∧ 1 ≤ d then .error .valueError
  else if ¬ interpolated then .error .attributeError
  else .ok ((List.range (bandCount mx d)).find? (fun k => inBand d k v))

/-! ### Extrema of LISIRD indices -/

/-- threshold argument after the look-up (extrema_calculator.py:229-236): numpy's `nanmedian` is not a Python function object
(`types.FunctionType`) in the numpy versions the package requires (>= 1.26) -/
inductive Thr where
  | number (x : ℝ)
  | pyFunction (f : List Fl → ℝ)
  | otherCallable

/-- extrema_calculator.py:217-227 -/
def automatic : List (String × ℝ) :=
  [("LymanAlpha", 4.1), ("delk1", 0.62), ("emdx", 0.091), ("f107", 110.0), ("k3", 0.066), ("mg_index", 0.27),
   ("sd_70", 13.0), ("sl_70", 2.0), ("viored", 1.29)]

/-- extrema_calculator.py:213-239 `set_threshold`, and the comparison `data > threshold` at line 313, which raises TypeError for a
Series of functions -/
def threshold (name : String) (t : Option Thr) (data : List Fl) : Except PyErr ℝ :=
  let t := t.getD (match automatic.lookup name with | some x => .number x | none => .otherCallable)
  match t with
  | .number x => .ok x
  | .pyFunction f => .ok (f data)
  | .otherCallable => .error .typeError

/-- outcome of one interval between crossings -/
inductive Ext where
  | skip
  | max (v : ℝ)
  | min (v : ℝ)

/-- extrema_calculator.py:252-269 one group (values without NaN): counts on both sides of the threshold; with two sides a side
with exactly one value is ignored; AssertionError unless one side remains -/
def groupExtremum (thr : ℝ) (v : List ℝ) : Except PyErr Ext :=
  match v with
  | [] => .ok .skip
  | a :: l =>
    let hi := (v.filter (fun x => thr < x)).length
    let lo := (v.filter (fun x => ¬ thr < x)).length
    let counts : List (Bool × Nat) := (if 0 < hi then [(true, hi)] else []) ++ (if 0 < lo then [(false, lo)] else [])
    let counts := if 1 < counts.length then counts.filter (fun c => c.2 ≠ 1) else counts
    match counts with
    | [(true, _)] => .ok (.max (l.foldl max a))
    | [(false, _)] => .ok (.min (l.foldl min a))
    | _ => .error .assertionError

/-- extrema_calculator.py:313-318: a crossing is a sample at which `data > threshold` or `data < threshold` changes (data without
NaN) -/
def crossing (thr prev x : ℝ) : Prop := ¬ ((thr < prev ↔ thr < x) ∧ (prev < thr ↔ x < thr))

/-- extrema_calculator.py:324-340: the first sample and the crossings are the bin edges (and the end of the data the last one);
`pd.cut` closes bins on the right, so a group holds what follows one edge up to and including the next -/
def groupsFrom (thr prev : ℝ) (cur : List ℝ) : List ℝ → List (List ℝ)
  | [] => if cur = [] then [] else [cur]
  | x :: l => if crossing thr prev x then (cur ++ [x]) :: groupsFrom thr x [] l else groupsFrom thr x (cur ++ [x]) l

def groups (thr : ℝ) : List ℝ → List (List ℝ)
  | [] => []
  | x :: l => groupsFrom thr x [] l

/-- extrema_calculator.py:241-274 `_find_extrema` -/
def findExtrema (thr : ℝ) (data : List ℝ) : Except PyErr (List Ext) := (groups thr data).mapM (groupExtremum thr)

/-- extrema_calculator.py:276-295: candidates dropped by name before the separation test (maxima, minima) -/
def trim (name : String) (maxima minima : List Int) : List Int × List Int :=
  if name = "LymanAlpha" ∨ name = "mg_index" then (maxima.drop 1, minima)
  else if name = "delk1" ∨ name = "viored" then (maxima, (minima.drop 1).dropLast)
  else if name = "f107" then (maxima.drop 1, minima.dropLast)
  else if name = "sd_70" then (maxima, minima.dropLast)
  else if name = "sl_70" then (maxima, minima.drop 1)
  else (maxima, minima)

/-- extrema_calculator.py:297-305: keep the first extremum and those more than `sep` after their predecessor in the list of
candidates; IndexError for an empty list -/
def keepAfter (sep prev : Int) : List Int → List Int
  | [] => []
  | x :: l => if sep < x - prev then x :: keepAfter sep x l else keepAfter sep x l

def validate (sep : Int) : List Int → Except PyErr (List Int)
  | [] => .error .indexError
  | x :: l => .ok (x :: keepAfter sep x l)

/-- extrema_calculator.py:276-307 `_validate_extrema` -/
def validateBoth (sep : Int) (name : String) (maxima minima : List Int) : Except PyErr (List Int × List Int) := do
  let p := trim name maxima minima
  let a ← validate sep p.1
  let b ← validate sep p.2
  return (a, b)

/-- extrema_calculator.py:342-360 `format_extrema` for sorted minima and maxima: row numbers from 0, maxima from -1 if they start
first; IndexError without minima or maxima -/
def formatExtrema (mins maxs : List Int) : Except PyErr (List Row) :=
  match mins, maxs with
  | m0 :: _, x0 :: _ =>
    if x0 < m0 then
      .ok (⟨-1, none, some x0⟩ :: (List.range (Nat.max mins.length (maxs.length - 1))).map
        (fun (i : Nat) => (⟨i, mins[i]?, maxs[i + 1]?⟩ : Row)))
    else
      .ok ((List.range (Nat.max mins.length maxs.length)).map (fun (i : Nat) => (⟨i, mins[i]?, maxs[i]?⟩ : Row)))
  | _, _ => .error .indexError

/-! ### Downloaded rows -/

/-- lisird.py:136-154 `verify_monotonic_epoch`: drop rows whose time occurred before -/
def dropLater : List (Int × Fl) → List Int → List (Int × Fl)
  | [], _ => []
  | r :: l, seen => if r.1 ∈ seen then dropLater l seen else r :: dropLater l (r.1 :: seen)

/-- sidc.py:206-207 `convert_nans` on one number -/
def convertNan (x : Fl) : Fl := if x = Fl.fin (-1) then .nan else x

/-- sidc.py:263-270: the standard error is computed first, the missing marker -1 converted afterwards -/
def stdError (std nobs : Fl) : Fl := convertNan (std / Fl.sqrt nobs)

end
end Act
end SW
