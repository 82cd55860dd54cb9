import Verif.PyStr
import Mathlib.Data.List.Dedup

/-!
# Model: the cache of solar-activity data (solar_activity/base.py, lisird/lisird.py, sunspot_number/sidc.py)

Days are numbered (0 is 1970-01-01). A cache directory holds one csv file per download, named by its day, and for LISIRD a
json file beside it.
-/

namespace SW
namespace Cache

/-- a csv file found by `rglob("*.csv")` (base.py:179): the day in its name and whether the write was completed -/
structure Csv where
  day : Nat
  complete : Bool
  deriving DecidableEq

/-- the data directory: csv files and the days of the json files -/
structure Disk where
  csv : List Csv
  json : List Nat
  deriving DecidableEq

/-- LISIRD writes metadata beside the data (lisird.py:178-183), SIDC does not (sidc.py:272-273) -/
inductive Source where
  | lisird
  | sidc
  deriving DecidableEq

/-- base.py:169-204 `get_data_ctime`: `parent` are the eight-digit groups in the path of the directory itself, which the
regular expression finds in every file name too. AssertionError unless exactly one date is found; day 0 without files. -/
def getCtime (parent : List Nat) (d : Disk) : Except PyErr Nat :=
  if d.csv = [] then .ok 0
  else
    match (d.csv.flatMap (fun f => parent ++ [f.day])).dedup with
    | [x] => .ok x
    | _ => .error .assertionError

/-- a loader object: the creation day read at construction. base.py:104-105; never updated afterwards. -/
structure Loader where
  ctime : Nat

/-- base.py:90-105 construction -/
def construct (parent : List Nat) (d : Disk) : Except PyErr Loader :=
  match getCtime parent d with
  | .ok c => .ok ⟨c⟩
  | .error e => .error e

/-- elementary effects on the directory, in program order -/
inductive Eff where
  /-- the csv file appears, still incomplete (opening it for writing truncates it) -/
  | createCsv (day : Nat)
  /-- the csv file is complete -/
  | finishCsv (day : Nat)
  | writeJson (day : Nat)
  /-- `unlink`, FileNotFoundError ignored -/
  | unlinkCsv (day : Nat)
  | unlinkJson (day : Nat)

def applyEff (d : Disk) : Eff → Disk
  | .createCsv n => { d with csv := d.csv.filter (fun f => f.day ≠ n) ++ [⟨n, false⟩] }
  | .finishCsv n => { d with csv := d.csv.filter (fun f => f.day ≠ n) ++ [⟨n, true⟩] }
  | .writeJson n => { d with json := d.json.filter (· ≠ n) ++ [n] }
  | .unlinkCsv n => { d with csv := d.csv.filter (fun f => f.day ≠ n) }
  | .unlinkJson n => { d with json := d.json.filter (· ≠ n) }

/-- the effects of `download_data` after the data arrived: lisird.py:178-194, sidc.py:272-278 -/
def downloadEffects : Source → Nat → Nat → List Eff
  | .lisird, new, old => [.createCsv new, .finishCsv new, .writeJson new, .unlinkCsv old, .unlinkJson old]
  | .sidc, new, old => [.createCsv new, .finishCsv new, .unlinkCsv old]

/-- base.py:212-224 `maybe_update_stale_data` on day `today`; `net` says whether the download succeeds. Returns the effects on
the directory and the outcome. -/
def maybeUpdate (src : Source) (today : Nat) (net : Bool) (l : Loader) : List Eff × Except PyErr Unit :=
  if l.ctime < today then
    if net then (downloadEffects src today l.ctime, .ok ()) else ([], .error .other)
  else ([], .ok ())

/-- number of downloads attempted -/
def downloads (today : Nat) (l : Loader) : Nat := if l.ctime < today then 1 else 0

/-- base.py:126-131 and lisird.py:202-208: reading the file of `today` (evaluated again, hence a separate argument) -/
def readData (src : Source) (today : Nat) (d : Disk) : Except PyErr Csv :=
  match d.csv.find? (fun f => f.day = today) with
  | none => .error .fileNotFound
  | some f =>
    match src with
    | .sidc => .ok f
    | .lisird => if today ∈ d.json then .ok f else .error .fileNotFound

def run (d : Disk) (l : List Eff) : Disk := l.foldl applyEff d

/-- base.py:121-131 `load_data` when the day does not change during the call -/
def loadData (src : Source) (today : Nat) (net : Bool) (l : Loader) (d : Disk) : Disk × Except PyErr Csv :=
  let u := maybeUpdate src today net l
  let d' := run d u.1
  match u.2 with
  | .error e => (d', .error e)
  | .ok () => (d', readData src today d')

/-- one program run: a new loader and one load (as `SIDC(key)` and `LISIRD(key)` do: sidc.py:327-330, lisird.py:286-289) -/
def session (parent : List Nat) (src : Source) (today : Nat) (net : Bool) (d : Disk) : Disk × Except PyErr Csv :=
  match construct parent d with
  | .error e => (d, .error e)
  | .ok l => loadData src today net l d

/-- base.py:22-224: names of the instance attributes assigned by `DataLoader.__init__`, `load_data` and the methods they
call (base.py:131 `_data`, 161 `_logger`, 164 `_key`, 167 `_url`, 185/204 `_ctime`, 210 `_data_age`; lisird.py:210 `_meta`) -/
def loaderAttrs : List String := ["_logger", "_key", "_url", "_ctime", "_data_age", "_data", "_meta"]

/-- base.py:153-155 `age` returns `self._age`; `present` are the attributes set so far -/
def age (present : List String) : Except PyErr Unit :=
  if "_age" ∈ present then .ok () else .error .attributeError

end Cache
end SW
