import Mathlib.Data.Rat.Defs
import Mathlib.Algebra.Order.Ring.Rat
import Verif.PyStr
import Verif.Scripts

/-!
# Model: the three docstring analysers

`scripts/docstring_coverage.py`, `scripts/docstring_baseline_analysis.py` and `scripts/validate_docstrings.py`.  A parsed file is its tree of definitions: classes,
functions (`def` and `async def`) and other statements with the statements in them; expressions hold no definitions.  A docstring is what `ast.get_docstring` returned.
Reading and parsing a file is an input (`none`: `SyntaxError` or `UnicodeDecodeError`).  Printed text and the sorting of the printed report are not modelled.
-/

namespace SW
namespace DocTree

open Scripts

abbrev Txt := List Char

/-- a statement of the parsed file -/
inductive Node where
  | cls (name : Txt) (doc : Option Txt) (line : Nat) (body : List Node)
  | fn (name : Txt) (doc : Option Txt) (line : Nat) (isProperty : Bool) (body : List Node)
  | other (children : List Node)

/-- a parsed file: its docstring and its statements -/
structure File where
  doc : Option Txt
  body : List Node

/-- a file of the package: its name, its path and, if it could be parsed, its contents -/
structure Source where
  name : Txt
  path : Txt
  tree : Option File

/-- `if ast.get_docstring(node)`: neither missing nor empty -/
def hasDoc : Option Txt → Bool
  | some (_ :: _) => true
  | _ => false

/-- `name.startswith("_")` -/
def underscore : Txt → Bool
  | '_' :: _ => true
  | _ => false

/-- f"{cls}.{name}" -/
def qualified (c n : Txt) : Txt := c ++ '.' :: n

def initName : Txt := "__init__".toList

/-! ### `docstring_coverage.py` -/

/-- an entry of `missing_docs`: its type, name and line; `cls` is the entry "class", which functions and modules do not have -/
structure Missing where
  type : String
  name : Txt
  line : Nat
  cls : Option Txt
  deriving DecidableEq

/-- the counters: docstring_coverage.py:30-41 -/
structure Stats where
  modules : Nat := 0
  classes : Nat := 0
  functions : Nat := 0
  methods : Nat := 0
  properties : Nat := 0
  docModules : Nat := 0
  docClasses : Nat := 0
  docFunctions : Nat := 0
  docMethods : Nat := 0
  docProperties : Nat := 0
  deriving DecidableEq

/-- the analyser: docstring_coverage.py:29-43 -/
structure Cov where
  stats : Stats := {}
  missing : List Missing := []
  cur : Option Txt := none

def Cov.miss (s : Cov) (skip : Bool) (m : Missing) : Cov := if skip then s else { s with missing := s.missing ++ [m] }

/-- `visit_ClassDef` before its body: docstring_coverage.py:57-72 -/
def enterClass (n : Txt) (d : Option Txt) (l : Nat) (s : Cov) : Cov :=
  let s1 : Cov := { s with stats := { s.stats with classes := s.stats.classes + 1, docClasses := s.stats.docClasses + (if hasDoc d then 1 else 0) } }
  { s1.miss (hasDoc d) ⟨"class", n, l, some n⟩ with cur := some n }

/-- `visit_FunctionDef` before its body: docstring_coverage.py:76-104 -/
def enterFn (n : Txt) (d : Option Txt) (l : Nat) (s : Cov) : Cov :=
  match s.cur with
  | some c =>
    let s1 : Cov := { s with stats := { s.stats with methods := s.stats.methods + 1, docMethods := s.stats.docMethods + (if hasDoc d then 1 else 0) } }
    s1.miss (hasDoc d || (underscore n && n != initName)) ⟨"method", qualified c n, l, some c⟩
  | none =>
    let s1 : Cov := { s with stats := { s.stats with functions := s.stats.functions + 1, docFunctions := s.stats.docFunctions + (if hasDoc d then 1 else 0) } }
    s1.miss (hasDoc d || underscore n) ⟨"function", n, l, none⟩

mutual
/-- the visitor: docstring_coverage.py:57-110; a class is left with `current_class = None` -/
def visit : Node → Cov → Cov
  | .cls n d l b, s => { visitAll b (enterClass n d l s) with cur := none }
  | .fn n d l _ b, s => visitAll b (enterFn n d l s)
  | .other c, s => visitAll c s
/-- `generic_visit` -/
def visitAll : List Node → Cov → Cov
  | [], s => s
  | n :: r, s => visitAll r (visit n s)
end

mutual
/-- the functions `ast.walk` meets in a statement and decorated as properties: name, docstring, line (an `async def` counts here like a `def`) -/
def propsOf : Node → List (Txt × Option Txt × Nat)
  | .cls _ _ _ b => propsAll b
  | .fn n d l p b => (if p then [(n, d, l)] else []) ++ propsAll b
  | .other c => propsAll c
def propsAll : List Node → List (Txt × Option Txt × Nat)
  | [] => []
  | n :: r => propsOf n ++ propsAll r
end

/-- `analyze_properties`: docstring_coverage.py:112-139; nothing happens outside a class (`self.current_class` at that time).  The order of `ast.walk` is simplified. -/
def properties (ps : List (Txt × Option Txt × Nat)) (s : Cov) : Cov :=
  match s.cur with
  | none => s
  | some c => ps.foldl (fun s p =>
      let s1 : Cov := { s with stats := { s.stats with properties := s.stats.properties + 1, docProperties := s.stats.docProperties + (if hasDoc p.2.1 then 1 else 0) } }
      s1.miss (hasDoc p.2.1) ⟨"property", qualified c p.1, p.2.2, some c⟩) s

/-- `visit_Module`, then `analyze_properties`: docstring_coverage.py:45-55, 156-160 -/
def analyze (path : Txt) (f : File) : Cov :=
  let s0 : Cov := { stats := { modules := 1, docModules := if hasDoc f.doc then 1 else 0 } }
  properties (propsAll f.body) (visitAll f.body (s0.miss (hasDoc f.doc) ⟨"module", path, 1, none⟩))

/-- docstring_coverage.py:211-217 -/
def Stats.total (s : Stats) : Nat := s.modules + s.classes + s.functions + s.methods + s.properties
/-- docstring_coverage.py:218-224 -/
def Stats.documented (s : Stats) : Nat := s.docModules + s.docClasses + s.docFunctions + s.docMethods + s.docProperties
/-- docstring_coverage.py:226-228, 257-259 -/
def Stats.coverage (s : Stats) : ℚ := if s.total > 0 then (s.documented : ℚ) / s.total * 100 else 100
/-- docstring_coverage.py:206-207 -/
def Stats.add (a b : Stats) : Stats :=
  ⟨a.modules + b.modules, a.classes + b.classes, a.functions + b.functions, a.methods + b.methods, a.properties + b.properties,
   a.docModules + b.docModules, a.docClasses + b.docClasses, a.docFunctions + b.docFunctions, a.docMethods + b.docMethods, a.docProperties + b.docProperties⟩

/-- one module in the report: docstring_coverage.py:230-234 -/
structure Entry where
  path : Txt
  coverage : ℚ
  missing : List Missing

structure Report where
  totals : Stats := {}
  entries : List Entry := []

/-- `generate_coverage_report`: docstring_coverage.py:196-236.  A file that cannot be parsed gives `{}` and is passed over. -/
def report (files : List Source) : Report :=
  (files.filter (fun f => !("test_".toList.isPrefixOf f.name))).foldl (fun r f =>
    match f.tree with
    | none => r
    | some t =>
      let c := analyze f.path t
      { totals := r.totals.add c.stats, entries := r.entries ++ [⟨f.path, c.stats.coverage, c.missing⟩] }) {}

/-- docstring_coverage.py:300-302 -/
def Report.high (r : Report) : List Entry := r.entries.filter (fun e => e.coverage < 50)
def Report.medium (r : Report) : List Entry := r.entries.filter (fun e => 50 ≤ e.coverage ∧ e.coverage < 80)
def Report.low (r : Report) : List Entry := r.entries.filter (fun e => 80 ≤ e.coverage ∧ e.coverage < 100)

/-! ### `docstring_baseline_analysis.py` -/

/-- the counters: docstring_baseline_analysis.py:19-30 -/
structure Base where
  functions : Nat := 0
  classes : Nat := 0
  methods : Nat := 0
  docFunctions : Nat := 0
  docClasses : Nat := 0
  docMethods : Nat := 0
  numpy : Nat := 0
  google : Nat := 0
  informal : Nat := 0
  empty : Nat := 0
  issues : List (String × Txt × Nat) := []

/-- docstring_baseline_analysis.py:45-51 -/
def numpyMarks : List Txt :=
  ["Parameters\n    ----------", "Returns\n    -------", "Raises\n    ------", "Examples\n    --------", "Notes\n    -----"].map String.toList
/-- docstring_baseline_analysis.py:54-62 -/
def googleMarks : List Txt := ["Args:", "Arguments:", "Returns:", "Raises:", "Example:", "Examples:", "Note:"].map String.toList

def mentions (d k : Txt) : Bool := (splitFirst k d).isSome

/-- `analyze_docstring_format`: docstring_baseline_analysis.py:34-75 -/
def format (d : Txt) (s : Base) : Base :=
  if stripWs d = [] then { s with empty := s.empty + 1 }
  else if numpyMarks.any (mentions (stripWs d)) then { s with numpy := s.numpy + 1 }
  else if googleMarks.any (mentions (stripWs d)) then { s with google := s.google + 1 }
  else { s with informal := s.informal + 1 }

/-- docstring_baseline_analysis.py:78-97 without the body -/
def baseFn (n : Txt) (d : Option Txt) (l : Nat) (s : Base) : Base :=
  let s1 := { s with functions := s.functions + 1 }
  match d with
  | some (c :: t) => format (c :: t) { s1 with docFunctions := s1.docFunctions + 1 }
  | _ => { s1 with issues := s1.issues ++ [("function", n, l)] }

/-- docstring_baseline_analysis.py:104-122 -/
def baseCls (n : Txt) (d : Option Txt) (l : Nat) (s : Base) : Base :=
  let s1 := { s with classes := s.classes + 1 }
  match d with
  | some (c :: t) => format (c :: t) { s1 with docClasses := s1.docClasses + 1 }
  | _ => { s1 with issues := s1.issues ++ [("class", n, l)] }

/-- docstring_baseline_analysis.py:125-143: one statement of the class body -/
def baseMethod (c : Txt) (s : Base) : Node → Base
  | .fn n d l _ _ =>
    let s1 := { s with methods := s.methods + 1 }
    match d with
    | some (a :: t) => format (a :: t) { s1 with docMethods := s1.docMethods + 1 }
    | _ => { s1 with issues := s1.issues ++ [("method", qualified c n, l)] }
  | _ => s

mutual
/-- the visitor: docstring_baseline_analysis.py:77-145 -/
def base : Node → Base → Base
  | .cls n d l b, s => baseAll b (b.foldl (baseMethod n) (baseCls n d l s))
  | .fn n d l _ b, s => baseAll b (baseFn n d l s)
  | .other c, s => baseAll c s
def baseAll : List Node → Base → Base
  | [], s => s
  | n :: r, s => baseAll r (base n s)
end

/-- the sum over the modules: docstring_baseline_analysis.py:189-196 -/
def Base.add (a b : Base) : Base :=
  ⟨a.functions + b.functions, a.classes + b.classes, a.methods + b.methods, a.docFunctions + b.docFunctions, a.docClasses + b.docClasses,
   a.docMethods + b.docMethods, a.numpy + b.numpy, a.google + b.google, a.informal + b.informal, a.empty + b.empty, a.issues ++ b.issues⟩

/-- the percentages printed: docstring_baseline_analysis.py:222-233; the first three divide without a test (`ZeroDivisionError` is `other`) -/
structure Shares where
  functions : ℚ
  classes : ℚ
  methods : ℚ
  overall : ℚ

def Base.shares (s : Base) : Except PyErr Shares :=
  if s.functions = 0 ∨ s.classes = 0 ∨ s.methods = 0 then .error .other
  else .ok ⟨(s.docFunctions : ℚ) / s.functions * 100, (s.docClasses : ℚ) / s.classes * 100, (s.docMethods : ℚ) / s.methods * 100,
    ((s.docFunctions + s.docClasses + s.docMethods : Nat) : ℚ) / ((s.functions + s.classes + s.methods : Nat) : ℚ) * 100⟩

/-- `main`: docstring_baseline_analysis.py:165-233; names with "test_" anywhere are left out, a file that cannot be read or parsed gives `{}` -/
def baseline (files : List Source) : Base × Except PyErr Shares :=
  let t := (files.filter (fun f => !mentions f.name "test_".toList)).foldl (fun s f =>
    match f.tree with
    | none => s
    | some t => s.add (baseAll t.body {})) {}
  (t, t.shares)

/-! ### `validate_docstrings.py` -/

inductive Fault where
  | missingDoc
  | missingSection (s : Txt)
  | missingUnits
  | missingLatex
  | missingExamples
  | parseError
  deriving DecidableEq

structure Issue where
  fault : Fault
  component : String
  name : Txt
  line : Nat
  deriving DecidableEq

/-- `REQUIRED_SECTIONS`: validate_docstrings.py:21-26 -/
def requiredSections : List (String × List Txt) :=
  [("functions", ["Parameters".toList, "Returns".toList]), ("methods", ["Parameters".toList, "Returns".toList]),
   ("classes", ["Parameters".toList, "Attributes".toList]), ("properties", ["Returns".toList])]

/-- the answers of the unit, equation and parameter patterns: validate_docstrings.py:257-269, 282-293 -/
structure Patterns where
  units : Txt → Bool
  latex : Txt → Bool
  manyParams : Txt → Bool

/-- `\s*\n\s*-+\s*\n` at the start of a text -/
def underlined (r : Txt) : Bool :=
  (r.takeWhile isWs).contains '\n' && (r.dropWhile isWs).head? == some '-'
    && (((r.dropWhile isWs).dropWhile (· == '-')).takeWhile isWs).contains '\n'

/-- `_has_section`: validate_docstrings.py:135-153, `{section}\s*\n\s*-+\s*\n` anywhere (white space restricted to ASCII) -/
def hasSection (d sec : Txt) : Bool := d.tails.any (fun t => sec.isPrefixOf t && underlined (t.drop sec.length))

/-- `len(docstring.split("\n"))` -/
def lineCount (d : Txt) : Nat := d.count '\n' + 1

def physicsWords : List Txt :=
  ["temperature", "velocity", "magnetic", "plasma", "thermal", "energy", "pressure", "density", "speed", "mass", "charge"].map String.toList
def mathWords : List Txt :=
  ["calculate", "compute", "sqrt", "log", "exp", "integrate", "derivative", "equation", "formula", "algorithm"].map String.toList

/-- validate_docstrings.py:219-254: a keyword in the lower-case name and docstring -/
def likely (words : List Txt) (name d : Txt) : Bool := words.any (mentions ((name ++ ' ' :: d).map Char.toLower))

/-- `_needs_examples`: validate_docstrings.py:275-301 -/
def needsExamples (o : Patterns) (component : String) (d : Txt) : Bool :=
  component == "class" || o.manyParams d || decide (lineCount d > 15)

/-- `_validate_scientific_requirements`: validate_docstrings.py:155-217 -/
def scientific (o : Patterns) (d : Txt) (component : String) (name : Txt) (line : Nat) : List Issue :=
  if (component == "function" || component == "method") && decide (lineCount d < 5) then []
  else
    (if likely physicsWords name d && !o.units d then [⟨.missingUnits, component, name, line⟩] else [])
    ++ (if likely mathWords name d && !o.latex d then [⟨.missingLatex, component, name, line⟩] else [])
    ++ (if needsExamples o component d && !hasSection d "Examples".toList then [⟨.missingExamples, component, name, line⟩] else [])

/-- `validate_docstring_structure`: validate_docstrings.py:78-133 -/
def structureOf (o : Patterns) (doc : Option Txt) (component : String) (name : Txt) (line : Nat) : List Issue :=
  match doc.getD [] with
  | [] => [⟨.missingDoc, component, name, line⟩]
  | d =>
    (((requiredSections.lookup component).getD []).filter (fun s => !hasSection d s)).map (fun s => ⟨.missingSection s, component, name, line⟩)
      ++ scientific o d component name line

structure Val where
  results : List Issue := []
  cur : Option Txt := none

/-- validate_docstrings.py:352 -/
def shownName : Option Txt → Txt → Txt
  | some c, n => qualified c n
  | none, n => n

/-- `visit_FunctionDef` before its body: validate_docstrings.py:343-359 -/
def valFn (o : Patterns) (n : Txt) (d : Option Txt) (l : Nat) (s : Val) : Val :=
  if underscore n && n != initName then s
  else
    let found := structureOf o d (if s.cur.isSome then "method" else "function") (shownName s.cur n) l
    { s with results := s.results ++ found }

mutual
/-- the visitor: validate_docstrings.py:330-365 -/
def val (o : Patterns) : Node → Val → Val
  | .cls n d l b, s => { valAll o b { s with results := s.results ++ structureOf o d "class" n l, cur := some n } with cur := none }
  | .fn n d l _ b, s => valAll o b (valFn o n d l s)
  | .other c, s => valAll o c s
def valAll (o : Patterns) : List Node → Val → Val
  | [], s => s
  | n :: r, s => valAll o r (val o n s)
end

/-- `validate_file`: validate_docstrings.py:368-399 -/
def validateFile (o : Patterns) (path : Txt) : Option File → List Issue
  | none => [⟨.parseError, "file", path, 0⟩]
  | some f => (valAll o f.body { results := structureOf o f.doc "module" path 1 }).results

/-- `generate_validation_report`: validate_docstrings.py:418-440: all issues, and how many of each type -/
def validateAll (o : Patterns) (files : List Source) : List Issue :=
  ((files.filter (fun f => !("test_".toList.isPrefixOf f.name))).map (fun f => validateFile o f.path f.tree)).flatten

end DocTree
end SW
