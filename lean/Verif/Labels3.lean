import Verif.LabelTex

/-!
# Labels of abundances, dates, sunspot numbers, correlations; manual labels

Models `/repo/solarwindpy/plotting/labels/elemental_abundance.py`, `datetime.py:72-179`, and `special.py:30-71, 297-388, 601-648,
765-785, 792-900`.  Paths are the texts handed to `Path`; strings are ASCII where case conversion is involved.
-/

namespace SW
namespace Labels

/-! ## Elemental abundance: elemental_abundance.py:13-95 -/

structure Abundance where
  species : String
  reference : String
  pct : Bool
  photospheric : Bool
  deriving DecidableEq

/-- `ElementalAbundance(species, reference_species, pct_unit, photospheric)`: 16-43, 81-95 -/
def mkAbundance (sp ref : String) (pct photo : Bool) : Abundance := ⟨title sp, title ref, pct, photo⟩

/-- `units`: 57-62 -/
def Abundance.units (a : Abundance) : String := if a.pct then "\\%" else "\\#"

/-- `_trans_species.get(k, k)`: 66-67 -/
def speciesText (k : String) : String := (Labels.species.lookup k).getD k

/-- `tex`: 64-73 -/
def Abundance.tex (a : Abundance) : String :=
  let ratio := "\\mathrm{" ++ speciesText a.species ++ "}/\\mathrm{" ++ speciesText a.reference ++ "}"
  if a.photospheric then ratio ++ ":" ++ ratio ++ "_\\mathrm{photo}" else ratio

/-- `path`: 75-79 -/
def Abundance.path (a : Abundance) : String :=
  let p := a.species ++ "-OV-" ++ a.reference
  if a.photospheric then p ++ "_photospheric-ratio" else p

/-- `str(label)`: base.py:414-417 -/
def Abundance.str (a : Abundance) : String := "$" ++ a.tex ++ " \\; \\left[" ++ a.units ++ "\\right]$"

/-! ## Dates: datetime.py -/

/-- `DateTime.path`: datetime.py:107-109 -/
def dateTimePath (kind : String) : String := repl " " "-" (kind.map Char.toLower)

/-- `str(DateTime)`: datetime.py:92-105 -/
def dateTimeStr (kind : String) : String := "$\\mathrm{" ++ repl " " " \\; " kind ++ "}$"

structure Epoch where
  smaller : String
  larger : String
  space : String
  deriving DecidableEq

/-- `Epoch(kind, of_thing, space)`: datetime.py:118-136, 170-179 -/
def mkEpoch (kind ofThing space : String) : Except PyErr Epoch :=
  if space = " " ∨ space = "\\," ∨ space = "\\;" ∨ space = "\\:" then .ok ⟨title kind, title ofThing, space⟩ else .error .valueError

/-- `Epoch.path`, `str(Epoch)`: datetime.py:144-168 -/
def Epoch.path (e : Epoch) : String := e.smaller ++ "-of-" ++ e.larger
def Epoch.str (e : Epoch) : String := "$\\mathrm{" ++ e.smaller ++ " " ++ e.space ++ " of " ++ e.space ++ " " ++ e.larger ++ "}$"

/-! ## Sunspot number: special.py:601-648 -/

/-- `pretty_kind`: special.py:621-635 -/
def ssnPretty : List (String × String) := [("M", "Monthly"), ("M13", "13 Month Smoothed"), ("D", "Daily"), ("Y", "Annual"),
  ("NM", "Normalized Monthly"), ("NM13", "Normalized 13 Month Smoothed"), ("ND", "Normalized Daily"), ("NY", "Normalized Yearly")]

/-- `SSN(key)`: (kind, tex, path), special.py:604-648 -/
def mkSSN (key : String) : Except PyErr (String × String × String) :=
  let k := key.map Char.toUpper
  if k ∈ ["M", "M13", "D", "Y", "NM", "NM13", "ND", "NY"] then
    match ssnPretty.lookup k with
    | some t => .ok (k, repl " " " \\; " ("\\mathrm{" ++ t ++ " SSN}"), k ++ "ssn")
    | none => .error .keyError
  else .error .assertionError

/-! ## Cross correlation: special.py:792-900 -/

/-- a constituent: text, label, or anything else -/
def Part.anyPath : Part → String
  | .str s => s
  | .label _ p _ => p

/-- `Xcorr(labelA, labelB, method, short_tex)`: (tex, path); `none`: neither text nor label.  The squeezing loop is `squeeze` (C141). -/
def xcorr (a b : Option Part) (method : String) (short : Bool) : Except PyErr (String × String) :=
  match a, b with
  | some a, some b =>
    let m := title method
    let path := "Xcorr" ++ m ++ "-" ++ repl " " "-" a.anyPath ++ "-" ++ repl " " "-" b.anyPath
    let fin := fun (t : String) =>
      let t := repl " \\, " "\\," (repl " " " \\, " t)
      (squeeze t.toList.length t, path)
    if short then
      match m.toList with
      | [] => .error .indexError
      | c :: _ => .ok (fin ("\\rho_{" ++ String.ofList [c] ++ "}(" ++ a.anyTex ++ "," ++ b.anyTex ++ ")"))
    else .ok (fin ("\\mathrm{{" ++ m ++ "}}(" ++ a.anyTex ++ "," ++ b.anyTex ++ ")"))
  | _, _ => .error .typeError

/-- `ComparisonLable._build_path`: special.py:765-785 -/
def comparisonPath (a b : Part) (name : String) : String := name ++ "-" ++ repl " " "-" a.anyPath ++ "-" ++ repl " " "-" b.anyPath

/-! ## Manual labels: special.py:30-71 -/

/-- `_inU`: base.py:123-136 -/
def inU : List (String × String) := [("b", "\\mathrm{nT}"), ("Re", "\\mathrm{R}_\\oplus"), ("Rs", "\\mathrm{R}_\\odot"),
  ("kms", "\\mathrm{km \\; s^{-1}}"), ("pPa", "\\mathrm{pPa}"), ("cm-3", "\\mathrm{cm}^{-3}"), ("dimless", "\\mathrm{\\#}"), ("unknown", "???"),
  ("km", "\\mathrm{km}"), ("deg", "\\mathrm{deg.}"), ("Hz", "\\mathrm{Hz}")]

structure Manual where
  tex : String
  unit : String
  path : String

/-- `ManualLabel(tex, unit, path)`: special.py:33-39, 59-71; `unit = None` has no `strip` -/
def mkManual (tex : String) (unit path : Option String) : Except PyErr Manual :=
  match unit with
  | none => .error .attributeError
  | some u =>
    let t := strip ['$'] tex
    .ok ⟨t, strip ['$'] ((inU.lookup u).getD u), path.getD (repl " " "-" t)⟩

/-- `str(ManualLabel)`: special.py:41-49 -/
def Manual.str (l : Manual) : String := repl "\\; []" "" ("$\\mathrm{" ++ repl " " " \\; " l.tex ++ "} \\; [" ++ l.unit ++ "]$")

/-! ## Counts of another label: special.py:297-388 -/

/-- `CountOther(other, comparison)`: (tex, path) -/
def countOther (p : Part) (cmp : Option String) : Except PyErr (String × String) := do
  let c := cmp.getD ""
  let t ← p.tex
  let q ← p.path
  .ok (repl " " " \\, " ("\\mathrm{Count.}(" ++ t ++ " " ++ c ++ ")"), "cnt-" ++ repl " " "-" q ++ "-" ++
    repl "!=" "NEQ" (repl "==" "EQ" (repl "\\eq" "EQ" (repl "\\neq" "NEQ" (repl "\\gt" "GT" (repl "\\leq" "LEQ"
    (repl "\\geq" "GEQ" (repl "\\lt" "GT" (repl "\\gt" "GT" (repl "<" "LT" (repl ">" "GT" c)))))))))))

end Labels
end SW
