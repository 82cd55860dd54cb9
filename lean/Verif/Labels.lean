import Verif.PyStr

/-!
# Plot labels

Models `/repo/solarwindpy/plotting/labels/`: comparison and hashing of labels, units of single and ratio labels, species substitution,
save paths, ions, derived labels.  The LaTeX text of a measurement (templates and their clean-up, base.py:571-613) is a parameter `tex`
here; `Verif.LabelTex` models it.  Strings are ASCII where case conversion is involved.
-/

namespace SW
namespace Labels

/-! ## Strings -/

/-- `str.replace(old, new)` for non-empty `old`: leftmost, non-overlapping; the first argument counts characters still to be skipped. -/
def replGo (old new : List Char) : Nat → List Char → List Char
  | _, [] => []
  | k + 1, _ :: cs => replGo old new k cs
  | 0, c :: cs => if old.isPrefixOf (c :: cs) then new ++ replGo old new (old.length - 1) cs else c :: replGo old new 0 cs

def repl (old new : String) (s : String) : String := String.ofList (replGo old.toList new.toList 0 s.toList)

/-- `str.strip(chars)` -/
def strip (chars : List Char) (s : String) : String :=
  String.ofList (((s.toList.dropWhile (chars.contains ·)).reverse.dropWhile (chars.contains ·)).reverse)

/-- `str.title()` (ASCII); the flag says whether the previous character was a letter -/
def titleGo : Bool → List Char → List Char
  | _, [] => []
  | prev, c :: cs => (if prev then c.toLower else c.toUpper) :: titleGo c.isAlpha cs

def title (s : String) : String := String.ofList (titleGo false s.toList)

/-! ## Comparison and hashing: base.py:353-369

A label is represented by its text `str(label)`.  `__lt__` and `__ge__` are not defined (`__geq__`/`__leq__` are not Python's names), so
Python falls back to the reflected `__gt__`/`__le__` of the other operand. -/

def pyGt (a b : String) : Bool := decide (b < a)
/-- `__le__`: base.py:356-357 -/
def pyLe (a b : String) : Bool := decide (a < b)
def pyEq (a b : String) : Bool := decide (a = b)
/-- `a < b` → `b.__gt__(a)` -/
def pyLt (a b : String) : Bool := pyGt b a
/-- `a >= b` → `b.__le__(a)` -/
def pyGe (a b : String) : Bool := pyLe b a
/-- `__hash__`: base.py:368-369, for an arbitrary string hash -/
def pyHash (h : String → Int) (a : String) : Int := h a

/-! ## Units -/

/-- `_trans_units`: base.py:138-230 -/
def transUnits : List (String × String) := [
   ("gse", "\\mathrm{R}_\\oplus"), ("hci", "\\mathrm{R}_\\odot"), ("colat", "\\mathrm{deg.}"), ("lat", "\\mathrm{deg.}"), 
   ("lon", "\\mathrm{deg.}"), ("carr", "\\mathrm{deg.}"), ("theta", "\\mathrm{deg.}"), ("phi", "\\mathrm{deg.}"), 
   ("deg", "\\mathrm{deg.}"), ("cos", "\\mathrm{\\#}"), ("cos_theta", "\\mathrm{\\#}"), ("year", "\\mathrm{Year}"), 
   ("fdoy", "\\mathrm{fdoy}"), ("b", "\\mathrm{nT}"), ("n", "\\mathrm{cm}^{-3}"), ("rho", "m_p \\; \\mathrm{cm}^{-3}"), 
   ("v", "\\mathrm{km \\; s^{-1}}"), ("w", "\\mathrm{km \\; s^{-1}}"), ("dv", "\\mathrm{km \\; s^{-1}}"), 
   ("dn", "\\mathrm{cm}^{-3}"), ("cs", "\\mathrm{km \\; s^{-1}}"), ("ca", "\\mathrm{km \\; s^{-1}}"), ("afsq", "\\mathrm{\\#}"), 
   ("caani", "\\mathrm{km \\; s^{-1}}"), ("p", "\\mathrm{pPa}"), ("pth", "\\mathrm{pPa}"), ("T", "10^5 \\, \\mathrm{K}"), 
   ("q", "\\mathrm{mW \\, cm^{-2}}"), ("qhat", "\\mathrm{\\#}"), ("Q", "\\mathrm{mW \\, cm^{-2}}"), ("R", "\\perp/\\parallel"), 
   ("beta", "\\mathrm{\\#}"), ("pdv", "\\mathrm{pPa}"), ("edv", "\\mathrm{\\#}"), ("S", "\\mathrm{eV \\, cm^2 \\, m_p^{-5/3}}"), 
   ("flux", "10^{-9} \\, \\mathrm{cm}^{-2} \\, s^{-1}"), ("lnlambda", "\\mathrm{\\#}"), ("nuc", "10^{-7} \\mathrm{Hz}"), 
   ("nc", "\\mathrm{\\#}"), ("chisq", "\\mathrm{\\#}"), ("chisqnu", "\\mathrm{\\#}"), ("VDFratio", "\\mathrm{\\#}"), 
   ("ab", "\\%"), ("e", "\\mathrm{km \\; s^{-1}}"), ("zp", "\\mathrm{km \\; s^{-1}}"), ("zm", "\\mathrm{km \\; s^{-1}}"), 
   ("ep", "(\\mathrm{km \\; s^{-1}})^2"), ("em", "(\\mathrm{km \\; s^{-1}})^2"), ("ev", "(\\mathrm{km \\; s^{-1}})^2"), 
   ("etot", "(\\mathrm{km \\; s^{-1}})^2"), ("eres", "(\\mathrm{km \\; s^{-1}})^2"), ("xhel", "(\\mathrm{km \\; s^{-1}})^2"), 
   ("sigma_m", "\\mathrm{\\#}"), ("sigma_c", "\\mathrm{\\#}"), ("sigma_r", "\\mathrm{\\#}"), ("sigma_xy", "\\mathrm{\\#}"), 
   ("ra", "\\mathrm{\\#}"), ("re", "\\mathrm{\\#}"), ("Wn", "\\mathrm{\\#}"), ("omegaR", "\\mathrm{Hz}"), 
   ("gamma", "\\mathrm{Hz}"), ("gamma_max", "\\mathrm{Hz}"), ("gyro_freq", "\\mathrm{Hz}"), ("kvec", "\\mathrm{\\#}"), 
   ("k", "\\mathrm{\\#}"), ("insta_power", "???"), ("Lalpha", "\\mathrm{W/m^2}"), 
   ("f10.7", "\\mathrm{Solar \\, Flux \\, Unit \\, (SFU)}"), ("CaK", "Unknown \\, Need \\, to \\, Read \\, MetaData"), 
   ("MgII", "\\mathrm{\\#}"), ("entropy", "\\mathrm{ln}(K \\, \\mathrm{cm}^{-3/2})"), ("spectral_exponent", "\\mathrm{\\#}"), 
   ("MeV/nuc", "\\mathrm{MeV/nuc}"), ("SEP_differential_flux", "\\mathrm{\\frac{\\#}{cm^2 \\, sr \\, s \\, MeV/nuc}}"), 
   ("SEP_intensity", "\\mathrm{cm^2 \\, sr \\, s \\, MeV/nuc}"), ("SEP_energy", "\\mathrm{MeV/nuc}"), 
   ("SEP_spectrum_index", "\\mathrm{\\#}")]

/-- `_trans_units.get(k, "???")` -/
def unitsOf (k : String) : String := (transUnits.lookup k).getD "???"

structure MCS where
  m : String
  c : String
  s : String
  deriving DecidableEq, Repr

/-- `m.replace("_err", "")`: base.py:571-574, 678-679 -/
def noErr (m : String) : String := repl "_err" "" m

/-- units of one label: base.py:571-574, 615-619 -/
def oneUnits (x : MCS) : String :=
  if x.c = "lat" ∨ x.c = "colat" ∨ x.c = "lon" then unitsOf x.c else unitsOf (noErr x.m)

/-- units before normalisation: base.py:666-692 -/
def rawUnits (x : MCS) (y : Option MCS) : String :=
  match y with
  | none => oneUnits x
  | some y => if unitsOf (noErr x.m) = unitsOf (noErr y.m) then "\\#" else unitsOf (noErr x.m) ++ "/" ++ unitsOf (noErr y.m)

/-- `TeXlabel.set_axnorm`: base.py:517-522 (ASCII) -/
def setAxnorm (k : Option String) : Except PyErr (Option String) :=
  match k with
  | none => .ok none
  | some k =>
    let k := k.map Char.toLower
    if k = "c" ∨ k = "r" ∨ k = "t" ∨ k = "d" then .ok (some k) else .error .assertionError

/-- final units: base.py:644-651 -/
def labelUnits (x : MCS) (y : Option MCS) (axnorm : Option String) : String :=
  if axnorm.isSome then "\\#" else rawUnits x y

/-! ## Save path -/

/-- base.py:551-568 -/
def onePath (x : MCS) : String :=
  strip [',', ' '] (strip ['{', '}', ' ', '\\'] (strip ['_'] (repl "." "" (repl "__" "_" (repl "{," "{" (repl ",{" "{" (repl "," ""
    (repl "/" "-OV-" x.m ++ "_" ++ repl "/" "-OV-" x.c ++ "_" ++ repl "/" "-OV-" x.s))))))))

/-- base.py:688, 693, 653 (before `Path` normalisation) -/
def labelPath (x : MCS) (y : Option MCS) (axnorm : Option String) : String :=
  let p := match y with
    | none => onePath x
    | some y => onePath x ++ "-OV-" ++ onePath y
  match axnorm with
  | none => p
  | some k => p ++ "/" ++ k.map Char.toUpper ++ "norm"

/-! ## Description: base.py:380-412, 644-664 -/

/-- `_format_with_description` (an empty description is no description) -/
def withDescription (d : Option String) (s : String) : String :=
  match d with
  | none => s
  | some d => if d = "" then s else d ++ "\n" ++ s

/-- A label object: the text without description, the description, and for a `TeXlabel` the text stored when it was built. -/
structure Obj where
  body : String
  desc : Option String
  stored : Option String

/-- constructors: `TeXlabel` stores its text (base.py:462-467, 729), other labels compute it when asked. -/
def mkTeX (body : String) (d : Option String) : Obj := ⟨body, d, some (withDescription d body)⟩
def mkOther (body : String) (d : Option String) : Obj := ⟨body, d, none⟩

/-- `set_description`: base.py:385-395 -/
def Obj.setDescription (o : Obj) (d : Option String) : Obj := { o with desc := d }

/-- `str(label)`: base.py:346-347, 493-494 -/
def Obj.str (o : Obj) : String := o.stored.getD (withDescription o.desc o.body)

/-! ## Species substitution -/

/-- `_trans_species` in the order of the regular expression (keys sorted in descending order): base.py:14-78 -/
def species : List (String × String) := [
   ("p_bimax", "p"), ("p2", "p_2"), ("p1", "p_1"), ("p", "p"), ("he", "\\mathrm{He}"), ("e", "e^-"), ("dv", "\\Delta v"), 
   ("a2", "\\alpha_2"), ("a1", "\\alpha_1"), ("a", "\\alpha"), ("Si", "\\mathrm{Si}"), ("S", "\\mathrm{S}"), 
   ("O", "\\mathrm{O}"), ("Ne", "\\mathrm{Ne}"), ("N", "\\mathrm{N}"), ("Mg", "\\mathrm{Mg}"), ("He", "\\mathrm{He}"), 
   ("H", "\\mathrm{H}"), ("Fe", "\\mathrm{Fe}"), ("C", "\\mathrm{C}"), ("4He", "^{4}\\mathrm{He}"), 
   ("40Ca", "^{40}\\mathrm{Ca}"), ("3He", "^{3}\\mathrm{He}"), ("32S", "^{32}\\mathrm{S}"), ("28Si", "^{28}\\mathrm{Si}"), 
   ("24Mg", "^{24}\\mathrm{Mg}"), ("20Ne", "^{20}\\mathrm{Ne}"), ("16O", "^{16}\\mathrm{O}"), ("14N", "^{14}\\mathrm{N}"), 
   ("12C", "^{12}\\mathrm{C}")]

/-- `re.subn(alternatives, …)`: at each place the first alternative that matches is replaced. -/
def substGo (alts : List (List Char × List Char)) : Nat → List Char → List Char
  | _, [] => []
  | k + 1, _ :: cs => substGo alts k cs
  | 0, c :: cs => match alts.find? (fun a => a.1.isPrefixOf (c :: cs)) with
    | some a => a.2 ++ substGo alts (a.1.length - 1) cs
    | none => c :: substGo alts 0 cs

/-- `_run_species_substitution`: base.py:82-107 -/
def makeSpecies (s : String) : String :=
  String.ofList (substGo (species.map (fun a => (a.1.toList, a.2.toList))) 0 s.toList)

/-! ## Ions: composition.py -/

/-- a charge argument -/
inductive Charge
  | str (s : String)
  | int (z : Int)
  | none
  deriving DecidableEq

/-- digits with single underscores between them, as accepted by `int(str)`; the flag: the previous character was a digit -/
def intBody : Bool → List Char → Bool
  | prev, [] => prev
  | prev, c :: cs => if c.isDigit then intBody true cs else if c = '_' then prev && intBody false cs else false

/-- does `int(s)` succeed? (ASCII digits) -/
def parsesInt (s : String) : Bool :=
  let t := strip [' ', '\t', '\n', '\r', '\x0b', '\x0c'] s
  match t.toList with
  | [] => false
  | c :: cs => if c = '+' ∨ c = '-' then intBody false cs else intBody false (c :: cs)

structure Ion where
  species : String
  charge : Charge

/-- `Ion.__init__` / `set_species_charge`: composition.py:50-66 (`int(None)` is a TypeError, which is not caught). -/
def mkIon (sp : String) (q : Charge) : Except PyErr Ion :=
  match q with
  | .none => .error .typeError
  | .int z => .ok ⟨title sp, .int z⟩
  | .str s => if parsesInt s then .ok ⟨title sp, .str s⟩
      else if s = "i" ∨ s = "j" then .ok ⟨title sp, .str s⟩ else .error .valueError

/-- `str(charge)` -/
def Charge.show : Charge → String
  | .str s => s
  | .int z => toString z
  | .none => "None"

/-- `Ion.tex`: composition.py:37-38 -/
def Ion.tex (i : Ion) : String := "{" ++ i.species ++ "}^{" ++ i.charge.show ++ "}"

/-- `Ion.path`: composition.py:45-48; an integer has no `replace`. -/
def Ion.path (i : Ion) : Except PyErr String :=
  match i.charge with
  | .str s => .ok (i.species ++ "_" ++ repl "-" "m" (repl "+" "p" s))
  | _ => .error .attributeError

/-- `ChargeStateRatio.path`: composition.py:96-97 -/
def ratioPath (a b : Ion) : Except PyErr String := do
  let p ← a.path
  let q ← b.path
  .ok (p ++ "-OV-" ++ q)

/-! ## Derived labels: special.py -/

/-- A constituent of a derived label: a plain string or a label with text, path and perhaps units (`ManualLabel`, `CarringtonRotation`,
`DateTime`, `Epoch` and `January1st` define no `units`: special.py:30-123, datetime.py:72-180, 238-266). -/
inductive Part
  | str (s : String)
  | label (tex path : String) (units : Option String)

/-- attribute access on a constituent -/
def Part.tex : Part → Except PyErr String
  | .str _ => .error .attributeError
  | .label t _ _ => .ok t
def Part.path : Part → Except PyErr String
  | .str _ => .error .attributeError
  | .label _ p _ => .ok p
def Part.units : Part → Except PyErr String
  | .label _ _ (some u) => .ok u
  | _ => .error .attributeError

/-- the comparison text of a path: special.py:273-286 (Probability; `CountOther`, 367-379, omits the last step) -/
def compPath (s : String) : String :=
  repl " " "_" (repl "!=" "NEQ" (repl "==" "EQ" (repl "\\eq" "EQ" (repl "\\neq" "NEQ" (repl "\\gt" "GT" (repl "\\leq" "LEQ"
    (repl "\\geq" "GEQ" (repl "\\lt" "GT" (repl "\\gt" "GT" (repl "<" "LT" (repl ">" "GT" s)))))))))))

/-- `Probability.__init__`: special.py:221-292: (tex, path) -/
def probability (p : Part) (cmp : Option String) : Except PyErr (String × String) := do
  let c := cmp.getD ""
  let t ← p.tex
  let q ← p.path
  .ok (repl " " " \\, " ("\\mathrm{Prob.}(" ++ t ++ " " ++ c ++ ")"), "prob-" ++ repl " " "-" q ++ "-" ++ compPath c)

/-- `AbsoluteValue.__init__`: special.py:499-518, 554-563: (tex, path) -/
def absoluteValue (p : Part) : Except PyErr (String × String) := do
  let t ← p.tex
  let q ← p.path
  .ok ("\\left|" ++ t ++ "\\right|", "abs-" ++ q)

/-- `str(AbsoluteValue(p))`: special.py:521-533 (units on the same line, no description) -/
def absoluteValueStr (p : Part) : Except PyErr String := do
  let (t, _) ← absoluteValue p
  let u ← p.units
  .ok ("$" ++ t ++ " \\; \\left[" ++ u ++ "\\right]$")

/-- `MathFcn.__init__`: special.py:393-409, 461-487: (tex, path) -/
def mathFcn (fcn : String) (p : Part) : Except PyErr (String × String) := do
  let t ← p.tex
  let q ← p.path
  .ok (repl " " " \\, " ("\\mathrm{" ++ fcn ++ "}(" ++ t ++ ")"),
    repl "/" "-OV-" (repl "\\" "" (repl "}" "" (repl "{" "" (repl "\\mathrm" "" fcn)))) ++ "-" ++ q)

/-- units of a comparison: `ComparisonLable.set_constituents`, special.py:695-720 -/
def comparisonUnits (a b : Part) : Except PyErr String :=
  match a, b with
  | .label _ _ (some u), .label _ _ (some v) => if u ≠ v then .error .valueError else .ok u
  | _, _ => .ok "???"

/-- the pattern of a comparison: special.py:722-731; without explicit pattern an unknown name leads to `parse(None)`: TypeError. -/
def comparisonPattern (name : String) : Except PyErr String :=
  let n := name.map Char.toLower
  if n = "subtract" then .ok " - " else if n = "add" then .ok " + " else if n = "multiply" then .ok " \\times " else .error .typeError

/-- `while tex.find(r"\,\,") >= 0: tex = tex.replace(r"\,\,", r"\,")`: special.py:758-759, 872-873, at most `fuel` passes -/
def squeeze : Nat → String → String
  | 0, s => s
  | f + 1, s => if s = repl "\\,\\," "\\," s then s else squeeze f (repl "\\,\\," "\\," s)

/-- text of a constituent: a string stands for itself (special.py:747-755) -/
def Part.anyTex : Part → String
  | .str s => s
  | .label t _ _ => t

/-- `ComparisonLable.__init__` without explicit pattern: special.py:654-660, 742-761: (tex, units) -/
def comparison (a b : Part) (name : String) : Except PyErr (String × String) := do
  let u ← comparisonUnits a b
  let op ← comparisonPattern name
  let t := "{" ++ a.anyTex ++ "}" ++ op ++ "{" ++ b.anyTex ++ "}"
  .ok (squeeze t.length t, u)

/-- `Frequency.units`: datetime.py:213-214 (`{-1}` in the f-string is the number -1). -/
def frequencyUnits (other : String) : String := "(" ++ other ++ ")^" ++ toString (-1 : Int)

/-- `Timedelta.units`: datetime.py:54-61; `none`: not a pandas offset -/
def timedeltaUnits (o : Option (Int × String)) : String :=
  match o with
  | some (n, name) => toString n ++ " \\; \\mathrm{" ++ name ++ "}"
  | none => "???"

/-- `Distance2Sun.set_units`: special.py:590-598 (ASCII) -/
def distanceUnits (s : String) : Except PyErr String :=
  let u := s.map Char.toLower
  let t := if u = "rs" then "R_{\\bigodot}" else if u = "re" then "R_{\\oplus}" else if u = "au" then "\\mathrm{AU}" else u
  if t = "R_{\\bigodot}" ∨ t = "R_{\\oplus}" ∨ t = "\\mathrm{AU}" ∨ t = "m" ∨ t = "km" then .ok t else .error .notImplemented

end Labels
end SW
