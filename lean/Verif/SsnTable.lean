import Verif.Activity

/-!
# The shipped table of solar cycles and the bands about its extrema

Models `/repo/solarwindpy/solar_activity/sunspot_number/ssn_extrema.csv:47-72`, `sunspot_number/sidc.py:545-556`,
`solar_activity/base.py:381-391, 526-621`.
-/

namespace SW
namespace Act

noncomputable section
open Classical

/-- day number (1970-01-01 is 0) of the first day of a month in the proleptic Gregorian calendar -/
def firstOf (y m : Int) : Int :=
  let y' := if m ≤ 2 then y - 1 else y
  let era := y' / 400
  let yoe := y' - era * 400
  let doy := (153 * (if 2 < m then m - 3 else m + 9) + 2) / 5
  era * 146097 + (yoe * 365 + yoe / 4 - yoe / 100 + doy) - 719468

/-- cycle, year and month of the minimum, year and month of the maximum (all on the first of the month): ssn_extrema.csv:48-72 -/
def ssnLines : List (Int × Int × Int × Int × Int) := [
  (1, 1755, 2, 1761, 6), (2, 1766, 6, 1769, 9), (3, 1775, 6, 1778, 5), (4, 1784, 9, 1788, 2), (5, 1798, 4, 1805, 2),
  (6, 1810, 7, 1816, 5), (7, 1823, 5, 1829, 11), (8, 1833, 11, 1837, 3), (9, 1843, 7, 1848, 2), (10, 1855, 12, 1860, 2),
  (11, 1867, 3, 1870, 8), (12, 1878, 12, 1883, 12), (13, 1890, 3, 1894, 1), (14, 1902, 1, 1906, 2), (15, 1913, 7, 1917, 8),
  (16, 1923, 8, 1928, 4), (17, 1933, 9, 1937, 4), (18, 1944, 2, 1947, 5), (19, 1954, 4, 1958, 3), (20, 1964, 10, 1968, 11),
  (21, 1976, 3, 1979, 12), (22, 1986, 9, 1989, 11), (23, 1996, 8, 2001, 11), (24, 2008, 12, 2014, 4), (25, 2019, 12, 2030, 12)]

/-- the same as day numbers -/
def ssnDays : List (Int × Int × Int) := ssnLines.map (fun r => (r.1, firstOf r.2.1 r.2.2.1, firstOf r.2.2.2.1 r.2.2.2.2))

/-- a day in nanoseconds -/
def dayNs : Int := 86400000000000

/-- `SSNExtrema().data`: sidc.py:545-556 -/
def ssnTable : List Row := ssnDays.map (fun r => ⟨r.1, some (r.2.1 * dayNs), some (r.2.2 * dayNs)⟩)

/-- the selected extrema with cycle and kind: base.py:596-607, 541 (`stack` drops missing ones).  `cyc` is the selection of cycles, `tk_cycles` -/
def selected (cyc : Int → Bool) (kinds : List String) (table : List Row) : List (Int × String × Int) :=
  (table.filter (fun r => cyc r.num)).flatMap (fun r =>
    kinds.filterMap (fun k => (if k = "Min" then r.min else r.max).map (fun x => (r.num, k, x))))

/-- the name of a band: base.py:616 -/
def bandName (e : Int × String × Int) : String := toString e.1 ++ "-" ++ e.2.1

/-- `cut_about_extrema_bands` of one epoch after `calculate_extrema_bands` with half-widths `widths` (`none`: not called): base.py:526-621, for at least
one selected extremum (pandas cannot build an empty interval index).  KeyError for an unknown kind, ValueError for a negative total width. -/
def cutBands (widths : Option (Int × Int)) (kinds : Option (List String)) (cyc : Int → Bool) (table : List Row) (t : Int) :
    Except PyErr (Option String) :=
  match widths with
  | none => .error .attributeError
  | some (dl, dr) =>
    if dl + dr < 0 then .error .valueError
    else if ¬ (kinds.getD ["Min", "Max"]).all (fun k => k = "Min" ∨ k = "Max") then .error .keyError
    else
      let ex := selected cyc (kinds.getD ["Min", "Max"]) table
      match cutBy (ex.map (fun e => ⟨e.2.2 - dl, e.2.2 + dr⟩)) t with
      | .error e => .error e
      | .ok none => .ok none
      | .ok (some iv) => .ok ((ex.find? (fun e => (⟨e.2.2 - dl, e.2.2 + dr⟩ : Ivl) = iv)).map bandName)

end
end Act
end SW
