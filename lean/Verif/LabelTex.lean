import Verif.Labels

/-!
# The LaTeX text of a measurement label

Models `/repo/solarwindpy/plotting/labels/base.py:65-79, 110-121, 232-335, 571-613, 644-692`: translation of measurement, component and
species, the template of the measurement, `string.Template.safe_substitute`, the chain of clean-up replacements, and the text with units.
Templates come from the table below only, so of the syntax of `string.Template` only `$name` is modelled (no `$$`, no `${name}`; neither
occurs in the table); identifiers are ASCII.
-/

namespace SW
namespace Labels

/-- `_trans_measurement`: base.py:110-121 -/
def transMeasurement : List (String × String) := [
   ("pth", "P"), ("beta", "\\beta"), ("dbeta", "\\Delta \\beta"), ("dv", "\\Delta v"), ("qhat", "\\widehat{q}"),
   ("Qhat", "\\widehat{q}"), ("ab", "A"), ("theta", "\\theta"), ("cos_theta", "\\cos\\theta"), ("carr", "\\mathrm{Carrington}")]

/-- `_trans_component`: base.py:232-254 -/
def transComponent : List (String × String) := [
   ("x", "X"), ("y", "Y"), ("z", "Z"), ("r", "R"), ("rho", "\\rho"), ("colat", "\\lambda"), ("lat", "\\theta"), ("lon", "\\phi"),
   ("R", "\\mathrm{R}"), ("scalar", "\\mathrm{scalar}"), ("theta", "\\theta"), ("phi", "\\phi"), ("per", "\\perp"),
   ("par", "\\parallel"), ("T", "T"), ("p", "p"), ("const", "\\mathrm{const}"), ("bv", "{\\mathbf{B} \\cdot \\mathbf{v}}"),
   ("dv", "\\Delta v")]

/-- `_templates`: base.py:256-335 -/
def templates : List (String × String) := [
   ("year", "\\mathrm{Year}"), ("fdoy", "\\mathrm{Fractional \\; Day \\; of \\; Year}"), ("gse", "{$C}_{\\mathrm{GSE}}"),
   ("hci", "{$C}_{\\mathrm{HCI}}"), ("colat", "\\theta_{$C}"), ("carr", "{$C}_\\mathrm{Carrington}"), ("b", "B_{$C}"),
   ("n", "n_{$S}"), ("rho", "\\rho_{$S}"), ("q", "q_{{$C};{$S}}"), ("Q", "Q_{{$C};{$S}}"), ("S", "S_{$S}"),
   ("ratio", "\\mathrm{Ratio}"), ("cos", "\\cos"), ("cos_theta", "\\cos \\theta_{{$C}_{$S}}"),
   ("cos_phi", "\\cos \\phi_{{$C}_{$S}}"), ("cs", "C_{s;$S}"), ("ca", "C_{A;$S}"),
   ("afsq", "\\mathrm{Anisotropy \\, Factor}^2_{$S}"), ("caani", "C^{(\\mathrm{Ani})}_{A;$S} \\; ($C)"),
   ("lnlambda", "\\ln\\Lambda_{$S}"), ("nuc", "\\nu_{$C,$S}"), ("nc", "N_{C;$S}"),
   ("VDFratio", "\\mathrm{ln}(\\frac{f_i}{f_j} \\left(v_i\\right)_{$S})"), ("chisq", "\\chi^2"), ("chisqnu", "\\chi^2_\\nu"),
   ("edv", "P_{\\Delta v}/P_\\mathrm{th}|_{$S}"), ("pdv", "P_{\\Delta v_{$S}}"), ("ab", "A_{$S}"),
   ("e", "e\\left({$C}_{$S}\\right)"), ("entropy", "\\mathrm{S}_{$S}"), ("zp", "Z^+_{{$S}}"), ("zm", "Z^-_{{$S}}"),
   ("ep", "e^+_{{$S}}"), ("em", "e^-_{{$S}}"), ("ev", "e^v_{{$S}}"), ("etot", "E_{{$S}}"), ("eres", "e^r_{{$S}}"),
   ("xhel", "e^c_{{$S}}"), ("sigma_c", "\\sigma_{c;{$S}}"), ("sigma_r", "\\sigma_{r;{$S}}"), ("sigma_m", "\\sigma_{m}"),
   ("sigma_xy", "\\sigma_{\\parallel}"), ("ra", "r_{A;{$S}}"), ("re", "r_{E;{$S}}"), ("dn", "\\delta n_{{$S}}"),
   ("Wn", "\\mathrm{W_n}"), ("gamma", "\\gamma"), ("gamma_max", "\\gamma_\\mathrm{max}"), ("omegaR", "\\omega_R"),
   ("gyro_freq", "\\Omega_{{$S}}"), ("eth", "\\eth"), ("kvec", "\\mathbf{k}_{$C}\\rho_{$S}"), ("k", "k_{$C}\\rho_{$S}"),
   ("insta_power", "\\mathcal{P}_{{$S}}"), ("Lalpha", "\\mathrm{L}\\alpha"), ("f10.7", "\\mathrm{F}10.7"), ("CaK", "\\mathrm{CaK}"),
   ("MgII", "\\mathrm{MgII}"), ("flux", "\\mathrm{Flux}_{$C}({$S})"), ("spectral_exponent", "\\mathrm{Spectral \\, Exponent}"),
   ("MeV/nuc", "\\mathrm{Energy}"), ("SEP_differential_flux", "{{$S}} \\: dJ/dE"),
   ("SEP_intensity", "{{$S}} \\: \\mathrm{Intensity}"), ("SEP_energy", "{{$S}} \\: \\mathrm{Energy}"),
   ("SEP_spectrum_index", "\\gamma_{{$S}}")]

/-- `_default_template_string`: base.py:79 -/
def defaultTemplate : String := "{$M}_{{$C};{$S}}"

/-- a character of an identifier of `string.Template` -/
def isId (c : Char) : Bool := c.isAlpha || c.isDigit || c == '_'

/-- `Template.safe_substitute`: base.py:582-584; a name without value stays as it is.  The number counts characters still to be skipped. -/
def fillGo (d : List (List Char × List Char)) : Nat → List Char → List Char
  | _, [] => []
  | k + 1, _ :: cs => fillGo d k cs
  | 0, c :: cs =>
    if c = '$' then
      match d.lookup (cs.takeWhile isId) with
      | some v => v ++ fillGo d (cs.takeWhile isId).length cs
      | none => c :: fillGo d 0 cs
    else c :: fillGo d 0 cs

/-- the clean-up replacements in their order: base.py:590-605 -/
def cleanUps : List (String × String) := [
  ("\\; ()", ""), ("\\; {}", ""), ("()", ""), ("_{}", ""), ("{{}}", ""), ("{},", ""), ("{};", ""), ("{}", ""), (",}", "}"), ("{,", "{"),
  (";}", "}"), ("};{}", "}"), ("};}", "}}"), (";}", "}"), ("_{}", "")]

/-- `str.rstrip(chars)` on characters -/
def rstripL (p : Char → Bool) (l : List Char) : List Char := (l.reverse.dropWhile p).reverse

/-- the whole clean-up: base.py:589-613 -/
def cleanL (l : List Char) : List Char :=
  let l := cleanUps.foldl (fun l a => replGo a.1.toList a.2.toList 0 l) l
  let l := rstripL (· == '_') l
  let l := rstripL (· == ' ') (l.dropWhile (· == ' '))
  rstripL (· == ' ') (l.dropWhile (· == ' '))

/-- `"_err" in m`: base.py:572 -/
def isErr (m : String) : Bool := m.toList.tails.any ("_err".toList.isPrefixOf ·)

/-- `_trans_measurement.get(m, m)`, `_trans_component.get(c, c)`: base.py:576-577 -/
def measText (m : String) : String := (transMeasurement.lookup m).getD m
def compText (c : String) : String := (transComponent.lookup c).getD c

/-- `_templates.get(m, _default_template_string)`: base.py:581 -/
def templateOf (m : String) : String := (templates.lookup m).getD defaultTemplate

/-- the text before the clean-up: base.py:571-586 -/
def rawTexL (err : Bool) (t m c s : List Char) : List Char :=
  let f := fillGo [(['M'], m), (['C'], c), (['S'], s)] 0 t
  if err then "\\sigma(".toList ++ f ++ [')'] else f

/-- `tex` of `_build_one_label`: base.py:571-613 -/
def oneTex (x : MCS) : String :=
  let m := noErr x.m
  String.ofList (cleanL (rawTexL (isErr x.m) (templateOf m).toList (measText m).toList (compText x.c).toList (makeSpecies x.s).toList))

/-- `_trans_axnorm`: base.py:65-73, for the keys `set_axnorm` accepts -/
def axnormText (k : String) : String :=
  if k = "c" then "Col." else if k = "r" then "Row" else if k = "t" then "Total" else if k = "d" then "Density" else ""

/-- `tex` before normalisation: base.py:686, 691 -/
def ratioTex (x : MCS) (y : Option MCS) : String :=
  match y with
  | none => oneTex x
  | some y => oneTex x ++ "/" ++ oneTex y

/-- `tex` of a label: base.py:648-652 -/
def labelTex (x : MCS) (y : Option MCS) (axnorm : Option String) : String :=
  match axnorm with
  | none => ratioTex x y
  | some k => "\\mathrm{" ++ axnormText k ++ " \\; Norm} \\; " ++ ratioTex x y

/-- the text shown, without description: base.py:655-659 -/
def labelText (x : MCS) (y : Option MCS) (axnorm : Option String) (newLine : Bool) : String :=
  "$" ++ labelTex x y axnorm ++ " " ++ (if newLine then "$\n$" else "\\;") ++ " \\left[" ++ labelUnits x y axnorm ++ "\\right]$"

/-- `TeXlabel(mcs0, mcs1, axnorm, new_line_for_units, description)` and its `str`: base.py:442-467, 493-494 -/
def mkTeXlabel (x : MCS) (y : Option MCS) (axnorm : Option String) (newLine : Bool) (d : Option String) : Except PyErr Obj := do
  let k ← setAxnorm axnorm
  .ok (mkTeX (labelText x y k newLine) d)

end Labels
end SW
