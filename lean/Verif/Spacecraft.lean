import Verif.Fl
import Verif.PyStr
import Verif.Vector

/-!
# Model: core/spacecraft.py and core/abundances.py
-/

namespace SW
noncomputable section
open Classical

/-- The two constants of `core/units_constants.py` used by `Spacecraft.distance2sun` plus the solar radius. -/
structure SCConst where
  /-- `constants.misc["Re [m]"]` -/
  re : ℝ
  /-- `constants.misc["1AU [m]"]` -/
  au : ℝ
  /-- `constants.misc["Rs [m]"]` -/
  rs : ℝ
  /-- `units.distance2sun` (1 in the code) -/
  unit : ℝ
  re_pos : 0 < re
  au_pos : 0 < au
  rs_pos : 0 < rs
  unit_pos : 0 < unit

/-- `str.upper()` restricted to ASCII (non-ASCII letters are left alone: simplification). -/
def pyUpper (s : String) : String := String.ofList (s.toList.map Char.toUpper)

/-- `Spacecraft.set_frame_name`, core/spacecraft.py:191-215: the stored (frame, name), or the exception. -/
def setFrameName (frame name : String) : Except PyErr (String × String) :=
  if ¬ (pyUpper frame ∈ ["GSE", "HCI"]) then .error .notImplemented
  else if ¬ (pyUpper name ∈ ["WIND", "PSP"]) then .error .notImplemented
  else .ok (pyUpper frame, pyUpper name)

/-- `Spacecraft.distance2sun`, core/spacecraft.py:155-184, one row. The sum over components skips NaN. -/
def distance2sun (K : SCConst) (frame : String) (pos : V3) : Except PyErr Fl :=
  if frame = "GSE" then
    .ok (Fl.sqrt (Fl.sumSkip [Fl.sq (pos.x * .fin (-1) * .fin K.re + .fin K.au),
      Fl.sq (pos.y * .fin 1 * .fin K.re + .fin 0), Fl.sq (pos.z * .fin 1 * .fin K.re + .fin 0)]) / .fin K.unit)
  else if frame = "HCI" then
    .ok (Fl.sqrt (Fl.sumSkip [Fl.sq (pos.x * .fin K.rs), Fl.sq (pos.y * .fin K.rs), Fl.sq (pos.z * .fin K.rs)])
      / .fin K.unit)
  else .error .notImplemented

/-! ### Abundances -/

/-- An element key as passed by the user. -/
inductive AKey where
  | sym (s : String)
  | z (n : Int)
  | other
  deriving DecidableEq

/-- One row of the Asplund table: index (Z, Symbol) and the two kinds of (Ab, Uncert). -/
structure ARow where
  z : Int
  sym : String
  phot : Fl × Fl
  ci : Fl × Fl

/-- `ReferenceAbundances.__init__` validation, core/abundances.py:79-85; `none` is a non-`int` argument. -/
def checkYear (year : Option Int) : Except PyErr Int :=
  match year with
  | none => .error .typeError
  | some y => if y = 2009 ∨ y = 2021 then .ok y else .error .valueError

/-- does row `r` match `key` on the level selected by the key's type -/
def ARow.matches (r : ARow) : AKey → Bool
  | .sym s => r.sym == s
  | .z n => r.z == n
  | .other => false

/-- `ReferenceAbundances.get_element`, core/abundances.py:130-182. `xs` raises KeyError when no row matches,
several matching rows fail the assertion. -/
def getElement (tab : List ARow) (key : AKey) (kind : String) : Except PyErr (Fl × Fl) :=
  let kind := if kind = "Meteorites" then "CI_chondrites" else kind
  if ¬ (kind = "Photosphere" ∨ kind = "CI_chondrites") then .error .keyError
  else if key = .other then .error .valueError
  else match tab.filter (fun r => r.matches key) with
    | [] => .error .keyError
    | [r] => .ok (if kind = "Photosphere" then r.phot else r.ci)
    | _ => .error .assertionError

/-- `10.0 ** x` -/
def exp10 : Fl → Fl
  | .nan => .nan
  | .pinf => .pinf
  | .ninf => .fin 0
  | .fin a => .fin ((10 : ℝ) ^ a)

/-- a missing uncertainty counts as 0, core/abundances.py:284-292 -/
def nanToZero (u : Fl) : Fl := if u.isNaN then .fin 0 else u

/-- `ReferenceAbundances.abundance_ratio`, core/abundances.py:255-301, with `_convert_from_dex`
(core/abundances.py:235-253) inlined for denominator `"H"`. -/
def abundanceRatio (tab : List ARow) (num den : AKey) : Except PyErr (Fl × Fl) := do
  let top ← getElement tab num "Photosphere"
  if den ≠ .sym "H" then
    let bot ← getElement tab den "Photosphere"
    let rat := exp10 (top.1 - bot.1)
    return (rat, rat * .fin (Real.log 10) * Fl.sqrt (Fl.sq (nanToZero top.2) + Fl.sq (nanToZero bot.2)))
  else
    let mm := exp10 (top.1 - .fin 12)
    return (mm, mm * .fin (Real.log 10) * top.2)

end
end SW
