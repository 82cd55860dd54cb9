import Verif.FitRun
import Verif.FitFuncs

/-!
# A whole call of `make_fit`: the class's guess, the optimiser, the statistics and the report

Models `/repo/solarwindpy/fitfunctions/core.py:764-828` together with `initial_guess_info` (292-312), `dof` (287-290) and the report
built after the fit (`build_TeX_info`, 475-494; `build_plotter`, 446-473), with the guess of the class as it is: a list, `None`
(`lines.py:53-57, 126-130`) or an exception.  The optimiser and the statistics are oracles.
-/

namespace SW
namespace FitRun

noncomputable section
open Classical

/-- a fit class: the names of its parameters (core.py:438-443), its guess on the used observations (`p0`), its curve -/
structure Cls where
  argnames : List String
  guess : Obs3 → Except PyErr (Option (List Fl))
  curve : List Fl → Fl → Fl

/-- `Line`: lines.py:21-59 -/
def lineCls : Cls where
  argnames := ["m", "b"]
  guess := fun o => lineP0 o.x o.y
  curve := fun p x => p.getD 0 .nan * x + p.getD 1 .nan

/-- `LineXintercept`: lines.py:84-132 -/
def lineXCls : Cls where
  argnames := ["m", "x0"]
  guess := fun o => lineXP0 o.x o.y
  curve := fun p x => p.getD 0 .nan * (x - p.getD 1 .nan)

/-- `Exponential`: exponentials.py:17-44 -/
def expCls : Cls where
  argnames := ["c", "A"]
  guess := fun o => if o.x.length < 2 then .error .insufficientData else .ok (some [.fin 1, npMax o.y])
  curve := fun p x => p.getD 1 .nan * Fl.exp (-(p.getD 0 .nan * x))

/-- `_run_least_squares` (core.py:613-708) with `p0 = kwargs.pop("p0", self.p0)`: a guess of `None` is the same as `p0=None` -/
def runG (c : Cls) (o : Obs3) (solve : List Fl → List Fl → List Fl → Except PyErr (Option (List Fl))) (q : Req) :
    Except PyErr (List Fl × List Fl × List (String × Fl × Fl)) :=
  match c.guess o with
  | .error e => .error e
  | .ok (some g) => run c.argnames (.ok g) c.curve o solve q
  | .ok none => run c.argnames (.ok []) c.curve o solve
      { q with p0 := match q.p0 with | .absent => .none | r => r }

/-- what a fit object stores: `fit_bounds`, the parameters (`popt` by name), the annotation (parameters and the table of initial
guesses) and whether there is a plotter -/
structure FObj where
  bounds : Option (List (String × Fl × Fl)) := none
  popt : Option (List (String × Fl)) := none
  tex : Option (List (String × Fl) × Option (List (String × Fl × Fl × Fl))) := none
  plotter : Bool := false

/-- `dof`: core.py:287-290; `len(None)` is a TypeError -/
def dof (c : Cls) (o : Obs3) : Except PyErr ℤ :=
  match c.guess o with
  | .error e => .error e
  | .ok none => .error .typeError
  | .ok (some g) => .ok ((o.y.length : ℤ) - g.length)

/-- `initial_guess_info`: core.py:292-312: the class's own guess and the stored bounds; `zip(names, None)` is a TypeError.  Entries are
(name, guess, lower, upper). -/
def guessInfo (c : Cls) (o : Obs3) (s : FObj) : Except PyErr (Option (List (String × Fl × Fl × Fl))) :=
  match c.guess o with
  | .error .attributeError => .ok none
  | .error e => .error e
  | .ok g =>
    match s.bounds with
    | none => .ok none
    | some b =>
      match g with
      | none => .error .typeError
      | some g => do
        let l ← (c.argnames.zip g).mapM (fun p => do
          let w ← boundOf b p.1
          .ok (p.1, p.2, w.1, w.2))
        .ok (some l)

/-- `make_fit(return_exception=ret, **q)`: core.py:764-828.  `stats`: the statistics of `_calc_popt_pcov_psigma_chisq` may fail.  The
value is `.error e` if `e` is raised, `.ok (some e)` if `e` is returned, `.ok none` for `None`. -/
def fitG (c : Cls) (o : Obs3) (solve : List Fl → List Fl → List Fl → Except PyErr (Option (List Fl)))
    (stats : List Fl → Except PyErr Unit) (q : Req) (ret : Bool) (s : FObj) : FObj × Except PyErr (Option PyErr) :=
  if o.y.length < c.argnames.length then
    (s, if ret then .ok (some .insufficientData) else .error .insufficientData)
  else
    match runG c o solve q with
    | .error e => (s, if caughtByFit e ∧ ret then .ok (some e) else .error e)
    | .ok (x, _, b) =>
      match stats x with
      | .error e => ({ s with bounds := some b }, .error e)
      | .ok () =>
        let s₂ := { s with bounds := some b, popt := some (c.argnames.zip x) }
        match guessInfo c o s₂ with
        | .error e => (s₂, .error e)
        | .ok i => ({ s₂ with tex := some (c.argnames.zip x, i), plotter := true }, .ok none)

end
end FitRun
end SW
