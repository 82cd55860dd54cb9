import Verif.AbundanceTable

/-!
# Reference abundances on the shipped tables

Models `/repo/solarwindpy/core/abundances.py:76-128, 184-233`: loading a year and the comments.  Lookup and ratios are in `Spacecraft.lean`.
-/

namespace SW
noncomputable section

/-- a field of the table as float: abundances.py:127-128; an empty field is NaN -/
def thou : Option Int → Fl
  | some k => .fin ((k : ℝ) / 1000)
  | none => .nan

/-- a line of the table as row of the frame: abundances.py:114-128 -/
def TRow.row (r : TRow) : ARow := ⟨r.z, r.sym, (thou r.ph.1, thou r.ph.2), (thou r.ci.1, thou r.ci.2)⟩

/-- the file of a year: abundances.py:110 -/
def refLines (year : Int) : List TRow := if year = 2009 then asplund2009 else asplund2021

/-- `ReferenceAbundances(year).data`: abundances.py:79-128 -/
def refData (year : Option Int) : Except PyErr (List ARow) :=
  match checkYear year with
  | .error e => .error e
  | .ok y => .ok ((refLines y).map TRow.row)

/-- does line `r` match `key` on the level selected by the key's type: abundances.py:215-220 -/
def TRow.hits (r : TRow) : AKey → Bool
  | .sym s => r.sym == s
  | .z n => r.z == n
  | .other => false

/-- `get_comment`: abundances.py:184-233; the file of 2009 has no comments.  Several matching lines would reach `pd.isna(Series)` in a condition
(ValueError). -/
def getComment (year : Int) (key : AKey) : Except PyErr (Option String) :=
  if year = 2009 then .ok none
  else if key = .other then .error .valueError
  else match (refLines year).filter (fun r => r.hits key) with
    | [] => .ok none
    | [r] => .ok (if r.comment = "" then none else some r.comment)
    | _ => .error .valueError

end
end SW
