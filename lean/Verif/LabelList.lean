import Verif.LabelTex

/-!
# The listing of the available labels

Models `/repo/solarwindpy/plotting/labels/__init__.py:3-11, 32-103`: the grouped, sorted listing of names (`_clean_str_list_for_printing`),
what `available_labels()` puts into it, and the names the package exports. Names are compared by code point; "uppercase" is A-Z (all
names in the tables are ASCII). The listing of a table without any name beginning otherwise than with a capital is not modelled (pandas
returns an empty frame there); no table of the code is like that.
-/

namespace SW
namespace Labels

/-- `x[0].isupper()`: __init__.py:46 -/
def isUp (s : String) : Bool := match s.toList with
  | c :: _ => c.isUpper
  | [] => false

/-- `pd.Series(data).str[0]`: __init__.py:49 -/
def initial (s : String) : Char := s.toList.headD ' '

/-- `", ".join(names)`: __init__.py:50, 51 -/
def commaJoin (l : List String) : List Char := match l with
  | [] => []
  | x :: r => Chars.join ',' (x.toList :: r.map fun y => ' ' :: y.toList)

/-- the names of the group with initial `c`, sorted: __init__.py:49-50 -/
def group (data : List String) (c : Char) : List String := pySorted (data.filter fun x => initial x == c)

/-- the initials, ascending (`groupby` sorts its keys): __init__.py:49, 52 -/
def initials (data : List String) : List Char := ((data.map initial).dedup).insertionSort (fun a b => a.toNat ≤ b.toNat)

/-- the rows of the listing in the order of their labels; the row labelled "Upper" comes after the labels before "U": __init__.py:46-52 -/
def listRows (data : List String) : List (List String) :=
  let low := data.filter (fun x => !isUp x)
  ((initials low).filter (fun c => c.toNat < 'U'.toNat)).map (group low) ++ [pySorted (data.filter isUp)] ++
    ((initials low).filter (fun c => ¬ c.toNat < 'U'.toNat)).map (group low)

/-- `_clean_str_list_for_printing(data)`: __init__.py:32-54: the text, and what is left in the list of the caller (`data.remove`, 47) -/
def cleanList (data : List String) : Except PyErr (List Char × List String) :=
  if "" ∈ data then .error .indexError
  else if ∀ x ∈ data, isUp x then .error .other
  else .ok (Chars.join '\n' ((listRows data).map commaJoin), data.filter (fun x => !isUp x))

/-- the names of the measurements listed: __init__.py:60 -/
def listedMeasurements : List String := pySorted (transMeasurement.map Prod.fst ++ templates.map Prod.fst)

/-- a class defined in one of the modules of labels: module, name, is it derived from `ArbitraryLabel` (special.py:30-792,
composition.py:9, 68, elemental_abundance.py:10, datetime.py:9-238, base.py:432) -/
structure LabelClass where
  module_ : String
  name : String
  arbitrary : Bool

def labelClasses : List LabelClass := [
  ⟨"base", "TeXlabel", false⟩,
  ⟨"special", "ManualLabel", true⟩, ⟨"special", "Vsw", false⟩, ⟨"special", "CarringtonRotation", true⟩, ⟨"special", "Count", true⟩,
  ⟨"special", "Power", true⟩, ⟨"special", "Probability", true⟩, ⟨"special", "CountOther", true⟩, ⟨"special", "MathFcn", true⟩,
  ⟨"special", "AbsoluteValue", true⟩, ⟨"special", "Distance2Sun", true⟩, ⟨"special", "SSN", true⟩, ⟨"special", "ComparisonLable", true⟩,
  ⟨"special", "Xcorr", true⟩,
  ⟨"composition", "Ion", false⟩, ⟨"composition", "ChargeStateRatio", false⟩, ⟨"elemental_abundance", "ElementalAbundance", false⟩,
  ⟨"datetime", "Timedelta", true⟩, ⟨"datetime", "DateTime", true⟩, ⟨"datetime", "Epoch", true⟩, ⟨"datetime", "Frequency", true⟩,
  ⟨"datetime", "January1st", true⟩]

/-- the special labels listed: __init__.py:63-72, 79 -/
def listedSpecial : List String :=
  pySorted ((labelClasses.filter fun c => ["special", "composition", "elemental_abundance", "datetime"].contains c.module_ && c.arbitrary).map
    LabelClass.name)

/-- `__all__`: __init__.py:3-11 -/
def exported : List String :=
  ["TeXlabel", "Vsw", "Count", "base", "special", "available_TeXlabel_measurements", "species_translation"]

/-- the names the module binds: __init__.py:13-29, 32, 57 -/
def bound : List String :=
  ["isclass", "pd", "base", "special", "composition", "elemental_abundance", "datetime", "chemistry", "TeXlabel", "species_translation",
   "Vsw", "Count", "Ion", "ChargeStateRatio", "ElementalAbundance", "_clean_str_list_for_printing", "available_labels"]

/-- `from package import *` with an `__all__`: every name is looked up -/
def starImport (all names : List String) : Except PyErr (List String) :=
  if all.all names.contains then .ok all else .error .attributeError

end Labels
end SW
