import Verif.FitCore

/-!
# Model: fitfunctions/trend_fits.py (`TrendFit.make_ffunc1ds`, `make_1dfits`, `popt_1d`)

A fit-function class is its number of parameters, its solver (an arbitrary deterministic oracle on the used
observations) and whether its `make_fit` override discards the returned exception (`Gaussian`,
`GaussianNormalized`: fitfunctions/gaussians.py:51-56, 106-111).
-/

namespace SW
noncomputable section
open Classical

/-- A FitFunction class. -/
structure FFClass (ρ : Type) where
  npar : ℕ
  solve : Obs3 → FitOutcome ρ Unit
  swallows : Bool

/-- A FitFunction instance: its observations and stored results. The constructor's limits are *not* attributes
of the instance (fitfunctions/core.py:88-195 passes them on and forgets them). -/
structure FFObj (ρ : Type) where
  obs : UsedRaw
  st : FitState ρ Unit

/-- constructor call `cls(x, y, weights=w, **limits)` on one-dimensional data -/
def FFClass.construct {ρ} (_cls : FFClass ρ) (x y : List Fl) (w : Option (List Fl)) (L : Limits) :
    Except PyErr (FFObj ρ) := do
  let o ← setFitObs (.of x) (.of y) (w.map .of) L
  return ⟨o, {}⟩

/-- `ff.make_fit(return_exception=ret)` -/
def FFClass.fit {ρ} (cls : FFClass ρ) (ret : Bool) (f : FFObj ρ) : Except PyErr (FFObj ρ × Option PyErr) :=
  let r := makeFit f.obs.nobs cls.npar ⟨ret, false, cls.solve f.obs.used⟩ f.st
  match r.2 with
  | .error e => .error e
  | .ok v => .ok (⟨f.obs, r.1⟩, if cls.swallows then none else v)

/-- `TrendFit` after `make_1dfits`: `ffuncs` and `bad_fits`, in order, by column label. -/
structure TrendRes (κ ρ : Type) where
  ffuncs : List (κ × FFObj ρ)
  bad : List (κ × FFObj ρ)

/-- run `g` on every column in order; the first raised exception aborts -/
def fitColumns {κ ρ} (g : FFObj ρ → Except PyErr (FFObj ρ × Option PyErr)) :
    List (κ × FFObj ρ) → Except PyErr (List (κ × FFObj ρ × Option PyErr))
  | [] => .ok []
  | (k, f) :: l => do
    let (f', v) ← g f
    let rest ← fitColumns g l
    return (k, f', v) :: rest

/-- fitfunctions/trend_fits.py:301-305: rows whose result is not None are bad -/
def splitFits {κ ρ} (l : List (κ × FFObj ρ × Option PyErr)) : TrendRes κ ρ :=
  { ffuncs := (l.filter (fun t => t.2.2.isNone)).map (fun t => (t.1, t.2.1)),
    bad := (l.filter (fun t => t.2.2.isSome)).map (fun t => (t.1, t.2.1)) }

/-- a parallel worker, fitfunctions/trend_fits.py:237-277: the instance is rebuilt from its raw x and y; the
limits are looked up with `getattr(ffunc, "xmin", None)` etc., which never exist, and weights are not passed -/
def parallelWorker {ρ} (cls : FFClass ρ) (ret : Bool) (f : FFObj ρ) : Except PyErr (FFObj ρ × Option PyErr) := do
  let f' ← cls.construct f.obs.raw.x f.obs.raw.y none {}
  cls.fit ret f'

/-- `TrendFit.make_1dfits`, fitfunctions/trend_fits.py:162-305 (`joblib` installed or not). -/
def make1dFits {κ ρ} (cls : FFClass ρ) (joblib : Bool) (nJobs : ℤ) (ret : Bool) (ffuncs : List (κ × FFObj ρ)) :
    Except PyErr (TrendRes κ ρ) :=
  if nJobs ≠ 1 ∧ 1 < ffuncs.length then
    if joblib then do
      return splitFits (← fitColumns (parallelWorker cls ret) ffuncs)
    else do
      return splitFits (← fitColumns (cls.fit ret) ffuncs)
  else if nJobs = 1 then do
    return splitFits (← fitColumns (cls.fit ret) ffuncs)
  else .error .unboundLocal

/-- `TrendFit.popt_1d`, fitfunctions/trend_fits.py:102-108: reading `popt` of a never-fitted function raises. -/
def popt1d {κ ρ} (t : TrendRes κ ρ) : Except PyErr (List (κ × ρ)) :=
  t.ffuncs.mapM (fun (k, f) => match f.st.results with
    | some r => .ok (k, r)
    | none => .error .attributeError)

end
end SW
