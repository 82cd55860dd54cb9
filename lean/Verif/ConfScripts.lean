import Verif.DocScripts
import Mathlib.Data.Rat.Defs
import Mathlib.Algebra.Order.Field.Rat

/-!
# Model: `scripts/conda_config.py` and the reports of `scripts/simple_doc_validation`

The environment is a function from names to text (`none`: not set); Python's `int` of a text is a parameter.  Text is a list of characters,
lower case that of ASCII letters.  The tables of constants that no function changes or reads are left out.
-/

namespace SW
namespace Conf

abbrev Txt := List Char

/-- the settings that functions read or change: conda_config.py:10-15, 26-28, 35-37, 66-72, 83-84.  `AUTOMATION_CONFIG` has no key `enabled`. -/
structure Cfg where
  pypiCheck : Int
  download : Int
  githubApi : Int
  pypiAvailability : Int
  pypiApiTimeout : Int
  githubTimeout : Int
  enabled : Option Bool
  prereleases : Bool
  dryRun : Bool
  level : Txt
  deriving DecidableEq

/-- the values in the file; `api_timeout` and `timeout` are copied from the table of timeouts when it is read (28, 37) -/
def defaults : Cfg := ⟨10, 60, 15, 300, 10, 15, none, false, false, "INFO".toList⟩

/-- conda_config.py:230-237 -/
def loadTimeout (int : Txt → Option Int) (env : String → Option Txt) (c : Cfg) : Cfg :=
  match env "CONDA_AUTOMATION_TIMEOUT" with
  | none => c
  | some v =>
    match int v with
    | none => c
    | some t => { c with pypiCheck := t, githubApi := t, githubTimeout := t }

/-- conda_config.py:240-243 -/
def loadDryRun (env : String → Option Txt) (c : Cfg) : Cfg :=
  match env "CONDA_AUTOMATION_DRY_RUN" with
  | none => c
  | some v => { c with dryRun := ["true".toList, "1".toList, "yes".toList].contains (v.map Char.toLower) }

/-- conda_config.py:246-247 -/
def loadDebug (env : String → Option Txt) (c : Cfg) : Cfg :=
  match env "CONDA_AUTOMATION_DEBUG" with
  | none => c
  | some _ => { c with level := "DEBUG".toList }

/-- `load_env_config`: conda_config.py:218-247 -/
def load (int : Txt → Option Int) (env : String → Option Txt) (c : Cfg) : Cfg := loadDebug env (loadDryRun env (loadTimeout int env c))

/-- the module after import: conda_config.py:251 -/
def imported (int : Txt → Option Int) (env : String → Option Txt) : Cfg := load int env defaults

/-- `is_automation_enabled`: conda_config.py:195-203 -/
def isEnabled (c : Cfg) : Bool := c.enabled.getD true

/-- `should_skip_prereleases`: conda_config.py:206-214 -/
def skipPrereleases (c : Cfg) : Bool := ! c.prereleases

/-- `get_feedstock_repo`: conda_config.py:132-145 with 38 -/
def feedstock (p : Txt) : Txt := "conda-forge/".toList ++ p ++ "-feedstock".toList

/-- `get_pypi_source_url`: conda_config.py:148-167 with 29; `none`: IndexError for an empty name -/
def sourceUrl (p v : Txt) : Option Txt :=
  match p with
  | [] => none
  | c :: _ => some ("https://pypi.org/packages/source/".toList ++ [c.toLower] ++ ['/'] ++ p ++ ['/'] ++ p ++ ['-'] ++ v ++ ".tar.gz".toList)

/-- the archive `update_conda_feedstock.py` downloads for its hash: scripts/update_conda_feedstock.py:285; `none`: IndexError -/
def hashUrl (p v : Txt) : Option Txt :=
  match p with
  | [] => none
  | c :: _ => some ("https://pypi.org/packages/source/".toList ++ [c] ++ ['/'] ++ p ++ ['/'] ++ p ++ ['-'] ++ v ++ ".tar.gz".toList)

/-- `get_pypi_json_url`: conda_config.py:170-192 with 30-31; no version and an empty one are the same -/
def jsonUrl (p : Txt) (v : Option Txt) : Txt :=
  if v.getD [] = [] then "https://pypi.org/pypi/".toList ++ p ++ "/json".toList
  else "https://pypi.org/pypi/".toList ++ p ++ ['/'] ++ v.getD [] ++ "/json".toList

/-! ### Reports of the documentation tests -/

/-- the entries of a report: validation_utils.py:42-60, 154-156; `none`: no such key -/
structure Entries where
  files : Option Int
  total : Option Int
  failed : Option Int
  examples : Option Int
  success : Option Bool
  deriving DecidableEq

/-- a report: its own entries and those below the key `summary` -/
structure Doc where
  top : Entries
  summary : Option Entries
  deriving DecidableEq

/-- `self.results` of the runner: doctest_runner.py:18-24 -/
def results (t : DocS.Totals) : Doc := ⟨⟨some t.files, some t.tests, some t.failed, some t.examples, none⟩, none⟩

/-- `generate_summary`: doctest_runner.py:132-149; the rate itself is `rate` -/
def summary (t : DocS.Totals) : Doc :=
  ⟨⟨none, none, none, none, none⟩, some ⟨some t.files, some t.tests, some t.failed, some t.examples, some (t.failed == 0)⟩⟩

/-- the rate of success, without rounding: doctest_runner.py:134-137 -/
def rate (t : DocS.Totals) : ℚ := ((t.tests : ℚ) - t.failed) / max (t.tests : ℚ) 1 * 100

/-- the text of the report by its parts -/
structure Text where
  files : Int
  total : Int
  failed : Int
  examples : Int
  rate : Option ℚ
  passed : Bool
  deriving DecidableEq

/-- `generate_validation_summary`: validation_utils.py:38-62; `none`: KeyError (52) -/
def report (d : Doc) : Option Text :=
  let s := d.summary.getD d.top
  let text (r : Option ℚ) : Text := ⟨s.files.getD 0, s.total.getD 0, s.failed.getD 0, s.examples.getD 0, r, s.success.getD false⟩
  if s.total.getD 0 > 0 then
    match s.failed with
    | none => none
    | some f => some (text (some (((s.total.getD 0 : ℚ) - f) / (s.total.getD 0 : ℚ) * 100)))
  else some (text none)

/-- the criteria of `validate_essential_criteria`: validation_utils.py:151-167 -/
structure Criteria where
  examplesWork : Bool
  demonstrated : Bool
  sustainable : Bool
  deriving DecidableEq

/-- validation_utils.py:153-160; the other two are `True` -/
def criteria (d : Doc) : Criteria :=
  let w := d.top.failed.getD 0 == 0
  let f := decide (d.top.files.getD 0 > 0)
  ⟨w, f, w && f⟩

end Conf
end SW
