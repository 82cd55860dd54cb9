import Verif.PyStr
import Mathlib.Data.List.Basic

/-!
# Model: fitfunctions/tex_info.py (`TeXinfo`)

Text is a list of characters. Number formatting (`%e`, `tabulate`) is not modelled: the formatted lines are arbitrary.
-/

namespace SW
namespace Tex

/-- text -/
abbrev Str := List Char

/-- `s.count("$")` -/
def dollars (s : Str) : ℕ := s.count '$'

/-- `TeXinfo._check_and_add_math_escapes`, fitfunctions/tex_info.py:180-196 -/
def addEscapes (x : Str) : Except PyErr Str :=
  let x' := if dollars x = 0 then '$' :: x ++ ['$'] else x
  if dollars x' % 2 = 1 then .error .valueError else .ok x'

/-- `s.replace(pat, rep)` for a non-empty pattern `p :: ps`: left to right, non-overlapping -/
def replaceL (p : Char) (ps rep : Str) : Str → Str
  | [] => []
  | c :: cs =>
    if (p :: ps).isPrefixOf (c :: cs) then rep ++ replaceL p ps rep (cs.drop ps.length)
    else c :: replaceL p ps rep cs
termination_by s => s.length
decreasing_by all_goals simp; try omega

/-- `"\n".join(lines)` -/
def joinNL : List Str → Str
  | [] => []
  | [a] => a
  | a :: b :: l => a ++ '\n' :: joinNL (b :: l)

/-- last step of `_build_fit_parameter_info`, fitfunctions/tex_info.py:343-346: every non-empty line is stripped of
dollars and delimited, empty lines become a newline, then "inf" becomes "\infty" and triple newlines double -/
def finishInfo (lines : List Str) : Str :=
  let ls := lines.map (fun x => if x = [] then ['\n'] else "$ ".toList ++ x.filter (· ≠ '$') ++ " $".toList)
  replaceL '\n' ['\n', '\n'] ['\n', '\n'] (replaceL 'i' ['n', 'f'] "\\infty".toList (joinNL ls))

/-- a Python argument that should be extra text: a string, a list, a tuple (or other immutable iterable) of strings -/
inductive Extra where
  | str (s : Str)
  | list (l : List Str)
  | tuple (l : List Str)

/-- escape every entry in place, `for i, x in enumerate(...)`; entries before a failing one are already replaced -/
def escapeAll : List Str → List Str × Except PyErr Unit
  | [] => ([], .ok ())
  | x :: l => match addEscapes x with
    | .error e => (x :: l, .error e)
    | .ok x' => let r := escapeAll l
                (x' :: r.1, r.2)

/-- `TeXinfo._add_additional_info`, fitfunctions/tex_info.py:234-251; also returns the caller's list as it is left -/
def addInfo (info : Str) : Extra → Except PyErr Str × Option (List Str)
  | .str s => (.ok (info ++ '\n' :: s), none)
  | .list l =>
    let r := escapeAll l
    match r.2 with
    | .error e => (.error e, some r.1)
    | .ok () => match addEscapes (joinNL r.1) with
      | .error e => (.error e, some r.1)
      | .ok t => (.ok (info ++ '\n' :: t), some r.1)
  | .tuple [] => match addEscapes (joinNL []) with
      | .error e => (.error e, none)
      | .ok t => (.ok (info ++ '\n' :: t), none)
  | .tuple (x :: _) => match addEscapes x with
      | .error e => (.error e, none)
      | .ok _ => (.error .typeError, none)

/-- a Python dict: keys in insertion order, no repetitions -/
abbrev Dict (α : Type) := List (String × α)

/-- `k in d` -/
def Dict.has {α} (d : Dict α) (k : String) : Prop := k ∈ d.map Prod.fst

instance {α} (d : Dict α) (k : String) : Decidable (d.has k) := by unfold Dict.has; infer_instance

/-- the parameters of a `TeXinfo` -/
structure Info (α : Type) where
  popt : Dict α
  psigma : Dict α

/-- `TeXinfo.set_popt_psigma`, fitfunctions/tex_info.py:499-504 -/
def setPopt {α} (popt psigma : Dict α) : Except PyErr (Info α) :=
  if popt.all (fun kv => decide (psigma.has kv.1)) then .ok ⟨popt, psigma⟩ else .error .valueError

/-- `d[k1] = d.pop(k0)`: KeyError if absent; the entry moves to the end unless `k1` is already a key, whose value it
overwrites in place -/
def rename {α} (d : Dict α) (k0 k1 : String) : Except PyErr (Dict α) :=
  match d.find? (fun kv => kv.1 = k0) with
  | none => .error .keyError
  | some kv =>
    let d' := d.filter (fun x => x.1 ≠ k0)
    .ok (if k1 ∈ d'.map Prod.fst then d'.map (fun x => if x.1 = k1 then (k1, kv.2) else x) else d' ++ [(k1, kv.2)])

/-- the translation loop of `TeX_popt`, fitfunctions/tex_info.py:143-146 -/
def translate {α} (d : Dict α) : List (String × String) → Except PyErr (Dict α)
  | [] => .ok d
  | (k0, k1) :: l => match rename d k0 k1 with
    | .error e => .error e
    | .ok d' => translate d' l

/-- keyword arguments of `build_info`, fitfunctions/tex_info.py:432-441 -/
def buildKw : List String := ["chisq_dof", "rsq", "npts", "relative_error", "convert_pow_10", "strip_uncertainties",
  "simplify_info_for_paper", "add_initial_guess", "additional_info", "annotate_fcn"]

/-- the stored annotation -/
abbrev State := Option Str

/-- `TeXinfo.build_info(**kw)`, fitfunctions/tex_info.py:389-476: `body` is the text assembled after the keyword check
(or the exception raised while assembling it) -/
def buildInfo (kw : List String) (body : Except PyErr Str) (s : State) : State × Except PyErr Str :=
  if kw.all (fun k => decide (k ∈ buildKw)) then
    match body with
    | .error e => (s, .error e)
    | .ok t => (some t, .ok t)
  else (s, .error .valueError)

/-- `TeXinfo.info` / `str(tex_info)`, fitfunctions/tex_info.py:56-64: the cached text, or a default build -/
def info (dflt : Except PyErr Str) (s : State) : State × Except PyErr Str :=
  match s with
  | some t => (s, .ok t)
  | none => buildInfo [] dflt s

end Tex
end SW
