import Verif.TexNum

/-!
# Model: the whole annotation of a fit, fitfunctions/tex_info.py

`TeXinfo.build_info` with all its options (tex_info.py:389-476), on top of the number formatting of `TexNum`.  Values are NumPy floats
(`Fl`; division by zero does not raise).  `tabulate` is an arbitrary function of the rows; `str(float(text))` is a parameter as in `TexNum`.
-/

namespace SW
namespace Tex

noncomputable section
open Classical

/-- what a `TeXinfo` holds, tex_info.py:21-55.  `chisq = none`: `None` or any object without `linear` and `robust` (a scalar);
`guess`: what reading `initial_guess_info` gives (tex_info.py:66-94) -/
structure Report where
  popt : Dict Fl
  psigma : Dict Fl
  func : Str
  chisq : Option (Fl × Fl)
  rsq : Option Fl
  npts : Option ℤ
  trans : Option (List (String × String))
  guess : Except PyErr (Option Str)

/-- the keyword arguments of `build_info`, tex_info.py:432-441 -/
structure Opts where
  chisq : Bool := true
  rsq : Bool := false
  npts : Bool := false
  rel : Bool := false
  pow : Bool := true
  strip : Bool := false
  simp : Bool := false
  guess : Bool := false
  extra : Option Extra := none
  annotate : Option (Str → Except PyErr Str) := none

/-- `"%.df" % x` -/
def fmtF (d : ℕ) : Fl → Str
  | .nan => ['n', 'a', 'n']
  | .pinf => ['i', 'n', 'f']
  | .ninf => ['-', 'i', 'n', 'f']
  | .fin x => (if x < 0 then ['-'] else []) ++ (Nat.toDigits 10 (roundHE (|x| * 10 ^ d) / 10 ^ d) ++ '.' :: digs d (roundHE (|x| * 10 ^ d)))

/-- `"%.0f" % n` of an `int` -/
def intText (n : ℤ) : Str := (if n < 0 then ['-'] else []) ++ Nat.toDigits 10 n.natAbs

/-- `d[k]` -/
def Dict.val {α} (d : Dict α) (k : String) : Except PyErr α :=
  match d.find? (fun kv => kv.1 = k) with
  | none => .error .keyError
  | some kv => .ok kv.2

/-- the renaming of `TeX_popt` and `TeX_relative_error`, tex_info.py:143-146, 160-163 -/
def renamed {α} (d : Dict α) : Option (List (String × String)) → Except PyErr (Dict α)
  | none => .ok d
  | some tr => translate d tr

/-- `TeX_popt`, tex_info.py:130-148 -/
def texPopt (r : Report) : Except PyErr (Dict Str) := do
  let d ← r.popt.mapM (fun kv => do
    let u ← Dict.val r.psigma kv.1
    let t ← valUncert kv.2 u
    .ok (kv.1, t))
  renamed d r.trans

/-- header of the table of relative errors, tex_info.py:173-175 -/
def relHeader : Str := "$X \\; \\; \\; \\left|\\sigma(X)/X\\right|$\n-------\n".toList

/-- `TeX_relative_error`, tex_info.py:150-177; `table` renders rows of a text and a number -/
def relError (table : List (Str × Fl) → Str) (r : Report) : Except PyErr Str := do
  let d ← r.psigma.mapM (fun kv => do
    let p ← Dict.val r.popt kv.1
    .ok (kv.1, kv.2 / p))
  let d ← renamed d r.trans
  .ok (relHeader ++ table (d.map (fun kv => (kv.1.toList ++ " \\;\\;\\; ".toList, Fl.abs kv.2))))

/-- the line of the number of points, tex_info.py:285 -/
def nptsLine (n : ℤ) : Str := "N_\\mathrm{pts} = {".toList ++ intText n ++ ['}']

/-- the line of chi-squared, tex_info.py:296-299 -/
def chisqLine (a b : Fl) : Str :=
  "\\chi^2_\\nu = {".toList ++ fmtF 2 a ++ "} \\; \\; \\; \\; \\; \\; \\; \\; \\; \\; \\; \\; \\; \\; \\; \\; \\chi^2_{\\nu;R} = {".toList ++ fmtF 2 b ++ ['}']

/-- the line of the coefficient of determination, tex_info.py:340 -/
def rsqLine (q : Fl) : Str := "R^2 = ".toList ++ fmtF 2 q

/-- the list of lines before any conversion, tex_info.py:265-306 -/
def rawLines (table : List (Str × Fl) → Str) (o : Opts) (r : Report) : Except PyErr (List Str) := do
  let tp ← texPopt r
  let base := Chars.split '\n' r.func ++ tp.map (fun kv => kv.1.toList ++ " = ".toList ++ kv.2)
  let l1 ← if o.rel then (do let t ← relError table r; .ok (base ++ [[], t])) else .ok base
  let l2 := if o.npts then (match r.npts with | some n => l1 ++ [[], nptsLine n] | none => l1) else l1
  if o.chisq then
    match r.chisq with
    | none => .error .attributeError
    | some ab => .ok (if o.npts && r.npts.isSome then l2 ++ [chisqLine ab.1 ab.2] else l2 ++ [[], chisqLine ab.1 ab.2])
  else .ok l2

/-- the conversions of the list of lines, tex_info.py:308-336 -/
def converted (strFloat : Str → Option Str) (o : Opts) (l : List Str) : List Str :=
  let l := if o.pow && !o.simp then convertPow l else l
  let l := if o.strip || o.simp then stripUnc l else l
  if o.simp then l.map (simplifyLine strFloat) else l

/-- `_build_fit_parameter_info`, tex_info.py:253-348; `f"{None:.2f}"` is a `TypeError` -/
def paramInfo (table : List (Str × Fl) → Str) (strFloat : Str → Option Str) (o : Opts) (r : Report) : Except PyErr Str := do
  let l ← rawLines table o r
  let l := converted strFloat o l
  let l ← if o.rsq then (match r.rsq with | none => .error .typeError | some q => .ok (l ++ [rsqLine q])) else .ok l
  .ok (finishInfo l)

/-- `np.all([np.isnan(v) for v in self.popt.values()])`, tex_info.py:446 -/
def fitFailed (r : Report) : Bool := r.popt.all (fun kv => decide (kv.2 = Fl.nan))

/-- text after `_add_additional_info`: only the returned text -/
def addText (t : Str) (x : Extra) : Except PyErr Str := (addInfo t x).1

/-- the text `build_info` assembles after its keyword check, tex_info.py:446-473 -/
def annotation (table : List (Str × Fl) → Str) (strFloat : Str → Option Str) (o : Opts) (r : Report) : Except PyErr Str := do
  let t ← if fitFailed r then .ok ('$' :: (r.func ++ "$\n\nFit Failed".toList)) else paramInfo table strFloat o r
  let t ← if o.guess then (match r.guess with
    | .error e => .error e
    | .ok none => addText t (.str "\nInitial Guess Failed".toList)
    | .ok (some g) => addText t (.str ('\n' :: g))) else .ok t
  let t ← (match o.extra with | none => .ok t | some x => addText t x)
  match o.annotate with
  | none => .ok t
  | some f => f t

end

end Tex
end SW
