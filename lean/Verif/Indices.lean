import Verif.Products

/-!
# The table of all activity indices

Models `/repo/solarwindpy/solar_activity/__init__.py:20-53` (`get_all_indices`): four series put side by side by their times. Times are
milliseconds since 1970. `pd.concat(..., axis=1)` of series with different times builds the ascending union of the times (a repeated time
as often as in the series where it is most frequent) and fits every series to it; a series with repeated times can only be fitted when its
times already are the union (pandas raises InvalidIndexError otherwise). Loading is modelled in `Products`; the columns of the calcium
table are one value here.
-/

namespace SW
namespace Act

/-- a series: times and values -/
abbrev Timed := List (Int × Fl)

def Timed.times (s : Timed) : List Int := s.map Prod.fst

/-- milliseconds of a day -/
def dayMs : Int := 86400000

/-- `pd.DatetimeIndex(index.date)`: __init__.py:36: the midnight before -/
def midnight (t : Int) : Int := t - t % dayMs

/-- the magnesium series with its dates as index: __init__.py:35-36 -/
def toDates (s : Timed) : Timed := s.map fun p => (midnight p.1, p.2)

/-- multiset union: every time as often as in the series where it is most frequent -/
def bagUnion (a b : List Int) : List Int := a ++ b.diff a

/-- the times of the table: equal indices are kept as they are, others are joined and sorted -/
def unionTimes (l : List (List Int)) : List Int :=
  if ∀ x ∈ l, x = l.headD [] then l.headD [] else (l.foldl bagUnion []).insertionSort (· ≤ ·)

/-- one column of the table: `reindex` to the union -/
def fitTo (tgt : List Int) (s : Timed) : Except PyErr (List (Option Fl)) :=
  if s.times = tgt then .ok (s.map fun p => some p.2)
  else if s.times.Nodup then .ok (tgt.map fun t => s.lookup t)
  else .error .other

/-- the table: times, and a column for each index (`none`: missing) -/
structure IndexTable where
  times : List Int
  lalpha : List (Option Fl)
  ssn : List (Option Fl)
  mgII : List (Option Fl)
  caK : List (Option Fl)

/-- `get_all_indices()` from the four loaded series: __init__.py:29-53 -/
def allIndices (lalpha caK mgII ssn : Timed) : Except PyErr IndexTable := do
  let mg := toDates mgII
  let tgt := unionTimes [lalpha.times, ssn.times, mg.times, caK.times]
  let a ← fitTo tgt lalpha
  let b ← fitTo tgt ssn
  let c ← fitTo tgt mg
  let d ← fitTo tgt caK
  .ok ⟨tgt, a, b, c, d⟩

end Act
end SW
