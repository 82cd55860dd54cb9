import Verif.SsnTable
import Verif.Sidc
import Verif.ActivityCache

/-!
# Data products of solar activity: keys, downloads, construction, labels of every sunspot datum

Models `/repo/solarwindpy/solar_activity/base.py:48-87`, `sunspot_number/sidc.py:24-330, 342-388`, `lisird/lisird.py:42-98, 136-154`,
`solar_activity/plots.py:27-33, 103-108`.
-/

namespace SW
namespace Act

noncomputable section
open Classical

/-! ### Keys -/

/-- `_url_base`: sidc.py:175-177, lisird.py:82-84 -/
def urlBase : Cache.Source → String
  | .sidc => "http://www.sidc.be/silso/INFO/"
  | .lisird => "http://lasp.colorado.edu/lisird/latis/dap/"

/-- `_trans_url`: sidc.py:179-190, lisird.py:86-98 -/
def transUrl : Cache.Source → List (String × String)
  | .sidc => [("d", "sndtotcsv.php"), ("m", "snmtotcsv.php"), ("m13", "snmstotcsv.php"), ("y", "snytotcsv.php"),
      ("hd", "sndhemcsv.php"), ("hm", "snmhemcsv.php"), ("hm13", "snmshemcsv.php")]
  | .lisird => [("Lalpha", "composite_lyman_alpha.jsond"), ("CaK", "cak.jsond"), ("f107-penticton", "penticton_radio_flux.jsond"),
      ("f107-noaa", "noaa_radio_flux.jsond"), ("MgII", "composite_mg_index.jsond")]

/-- `ID.set_key`: base.py:69-86: the URL.  `urljoin` of a base ending in "/" and a plain file name appends the name. -/
def setKey (src : Cache.Source) (key : String) : Except PyErr String :=
  match (transUrl src).lookup key with
  | some e => .ok (urlBase src ++ e)
  | none => .error .notImplemented

/-! ### Downloaded tables of the sunspot number -/

def hemiTail : List String := ["year_fraction", "total_ssn", "north_ssn", "south_ssn", "total_std", "north_std", "south_std",
  "n_total", "n_north", "n_south", "definitive"]

/-- `_Dtypes_Columns`: sidc.py:24-152 -/
def sidcCols : List (String × List String) := [
  ("d", ["year", "month", "day", "year_fraction", "ssn", "std", "n_obs", "definitive"]),
  ("m", ["year", "month", "year_fraction", "ssn", "std", "n_obs", "definitive"]),
  ("m13", ["year", "month", "year_fraction", "ssn", "std", "n_obs", "definitive"]),
  ("y", ["year", "ssn", "std", "n_obs", "definitive"]),
  ("hd", ["year", "month", "day"] ++ hemiTail),
  ("hm", ["year", "month"] ++ hemiTail),
  ("hm13", ["year", "month"] ++ hemiTail)]

/-- `std.divide(sqrt(cnt))` of the named columns: sidc.py:246-269 -/
def errCol (f : List (String × List Fl)) (std cnt : String) : List Fl :=
  List.zipWith (fun s n => s / Fl.sqrt n) ((f.lookup std).getD []) ((f.lookup cnt).getD [])

/-- the columns added: sidc.py:246-270; hemispheric series have three -/
def errCols (key : String) (f : List (String × List Fl)) : List (String × List Fl) :=
  if key.toList.head? = some 'h' then
    [("totalstd_error", errCol f "total_std" "n_total"), ("northstd_error", errCol f "north_std" "n_north"),
     ("southstd_error", errCol f "south_std" "n_south")]
  else [("std_error", errCol f "std" "n_obs")]

/-- `SIDCLoader.download_data`: sidc.py:209-278, the table written; `raw` are the columns of the file (numbers; the order of the columns
written is not modelled).  The marker of missing values is replaced last and in every column. -/
def sidcDownload (key : String) (raw : List (List Fl)) : Except PyErr (List (String × List Fl)) :=
  match sidcCols.lookup key with
  | none => .error .notImplemented
  | some names =>
    if raw.length ≠ names.length then .error .valueError
    else
      let f := names.zip raw
      .ok ((f ++ errCols key f).map (fun c => (c.1, c.2.map convertNan)))

/-- day (since 1970) of a datum of the daily and monthly series: sidc.py:225-232 -/
def sidcDay (key : String) (y m d : Int) : Int := if key = "d" ∨ key = "hd" then firstOf y m + d - 1 else firstOf y m

/-- `SIDC(key)`: sidc.py:307-313.  `frame`: what the cached file holds; the labels need the column "ssn" (sidc.py:354, 375). -/
def sidcNew (parent : List Nat) (key : String) (today : Nat) (net : Bool) (frame : List (String × List Fl)) (d : Cache.Disk) :
    Cache.Disk × Except PyErr Unit :=
  match setKey .sidc key with
  | .error e => (d, .error e)
  | .ok _ =>
    match Cache.session parent .sidc today net d with
    | (d', .error e) => (d', .error e)
    | (d', .ok _) => (d', if (frame.lookup "ssn").isSome then .ok () else .error .keyError)

/-! ### The labels of every datum -/

/-- `SIDCLoader.load_data`: sidc.py:280-292: the number of the cycle an epoch lies in (right-closed intervals) -/
def cycleNumber (table : List Row) (today t : Int) : Except PyErr (Option Int) := do
  let cs ← intervals table today
  let i ← cutBy (cs.map Cyc.cycle) t
  return i.bind (fun i => ((table.zip cs).find? (fun p => decide (p.2.cycle = i))).map (fun p => p.1.num))

/-- the columns added to one datum -/
structure Lab where
  cycle : Option Int
  extremum : Option Kind
  edge : Option String

/-- the recorded maximum of a cycle: sidc.py:357, 378 -/
def maxDate (table : List Row) (k : Int) : Option Int := (table.find? (fun r => decide (r.num = k))).bind Row.max

/-- `calculate_extrema_kind` and `calculate_edge`: sidc.py:342-388, on data with their cycles -/
def labelRows (table : List Row) (rows : List (Int × Fl × Option Int)) : List Lab :=
  rows.map (fun r =>
    match r.2.2 with
    | none => ⟨none, none, none⟩
    | some k =>
      let g := (rows.filter (fun q => decide (q.2.2 = some k))).map (fun q => q.2.1)
      ⟨some k, extremumKind k (maxDate table k) (gmax g) r.1 r.2.1, edge (maxDate table k) r.1⟩)

/-- loading and labelling the series `rows` of times and sunspot numbers: sidc.py:280-292, 307-313 -/
def labelled (table : List Row) (today : Int) (rows : List (Int × Fl)) : Except PyErr (List Lab) := do
  let cs ← rows.mapM (fun r => do
    let c ← cycleNumber table today r.1
    (Except.ok (r.1, r.2, c) : Except PyErr (Int × Fl × Option Int)))
  return labelRows table cs

/-! ### Rejected times -/

/-- `verify_monotonic_epoch` with the times rejected by hand (milliseconds): lisird.py:136-154 -/
def badTimes (key : String) : List Int :=
  if key = "f107-penticton" then [1061657971200, 1277073820800, 1568685597120] else []

def verifyEpoch (key : String) (l : List (Int × Fl)) : List (Int × Fl) :=
  (dropLater l []).filter (fun r => decide (r.1 ∉ badTimes key))

/-! ### The plot of the sunspot number -/

/-- the public names of the module `plotting.labels.special`: special.py:3-8 (imports), 10-792 (classes) -/
def specialNames : List String := ["Path", "StringTemplate", "StringFormatter", "abstractmethod", "base", "ArbitraryLabel", "ManualLabel", "Vsw",
  "CarringtonRotation", "Count", "Power", "Probability", "CountOther", "MathFcn", "AbsoluteValue", "Distance2Sun", "SSN", "ComparisonLable",
  "Xcorr"]

/-- the names an expression `labels.special.X` asks for, in order, in `SSNPlot(...)`: plots.py:33, 108 -/
def plotAsks : List String := ["DateTime", "SSN"]

/-- `SSNPlot(indicator, plasma_index)`: plots.py:27-33, 106-108: the first missing name raises AttributeError -/
def ssnPlotNew : Except PyErr Unit :=
  plotAsks.forM (fun n => if n ∈ specialNames then .ok () else .error .attributeError)

end
end Act
end SW
