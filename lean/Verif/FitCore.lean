import Verif.Fl
import Verif.PyStr

/-!
# Model: fitfunctions/core.py and the residuals of fitfunctions/plots.py

SciPy's optimiser, the SVD and the LaTeX/plot objects are an *oracle* (`FitOutcome`): a fit call receives an
arbitrary outcome. Everything the package itself does around it is modelled.
-/

namespace SW
noncomputable section
open Classical

/-- A numpy array: shape and row-major contents. -/
structure NArr where
  shape : List ℕ
  data : List Fl
  ok : data.length = shape.prod

/-- a one-dimensional array -/
def NArr.of (l : List Fl) : NArr := ⟨[l.length], l, by simp⟩

/-- Keyword arguments of `FitFunction.__init__`, fitfunctions/core.py:88-102. -/
structure Limits where
  xmin : Option Fl := none
  xmax : Option Fl := none
  xoutside : Option (Fl × Fl) := none
  ymin : Option Fl := none
  ymax : Option Fl := none
  youtside : Option (Fl × Fl) := none
  wmin : Option Fl := none
  wmax : Option Fl := none
  logy : Bool := false

/-- `Observations`, fitfunctions/core.py:41 (flattened contents) -/
structure Obs3 where
  x : List Fl
  y : List Fl
  w : Option (List Fl)

/-- `UsedRawObs`, fitfunctions/core.py:42 -/
structure UsedRaw where
  used : Obs3
  raw : Obs3
  mask : List Bool

/-- `_build_one_obs_mask`, fitfunctions/core.py:414-424: finite, `>= xmin`, `<= xmax`. -/
def oneObsMask (x : List Fl) (xmin xmax : Option Fl) : List Bool :=
  let m := x.map (fun a => decide a.isFinite)
  let m := match xmin with
    | none => m
    | some lo => List.zipWith (· && ·) m (x.map (fun a => decide (Fl.le lo a)))
  match xmax with
    | none => m
    | some hi => List.zipWith (· && ·) m (x.map (fun a => decide (Fl.le a hi)))

/-- `_build_outside_mask`, fitfunctions/core.py:426-435. -/
def outsideMask (x : List Fl) (outside : Option (Fl × Fl)) : Except PyErr (List Bool) :=
  match outside with
  | none => .ok (x.map (fun _ => true))
  | some (lo, hi) =>
    if Fl.lt lo hi then
      .ok (List.zipWith (· || ·) (x.map (fun a => decide (Fl.le a lo))) (x.map (fun a => decide (Fl.le hi a))))
    else .error .assertionError

/-- boolean indexing `a[mask]` -/
def compress {α} : List Bool → List α → List α
  | true :: m, a :: l => a :: compress m l
  | false :: m, _ :: l => compress m l
  | _, _ => []

/-- `FitFunction.__init__` + `_clean_raw_obs` + `set_fit_obs`, fitfunctions/core.py:167-195, 390-412, 557-611. -/
def setFitObs (x y : NArr) (w : Option NArr) (L : Limits) : Except PyErr UsedRaw :=
  if w.isNone ∧ (L.wmin.isSome ∨ L.wmax.isSome) then .error .assertionError
  else if x.shape ≠ y.shape then .error .invalidParameter
  else if ∃ w', w = some w' ∧ w'.shape ≠ x.shape then .error .invalidParameter
  else do
    let xm := oneObsMask x.data L.xmin L.xmax
    let ym := oneObsMask y.data L.ymin L.ymax
    let xo ← outsideMask x.data L.xoutside
    let yo ← outsideMask y.data L.youtside
    let m := List.zipWith (· && ·) (List.zipWith (· && ·) (List.zipWith (· && ·) xm ym) xo) yo
    let m := match w with
      | none => m
      | some w =>
        let wf := if L.logy then List.zipWith (fun a b => a / (b * .fin (Real.log 10))) w.data y.data else w.data
        List.zipWith (· && ·) m (oneObsMask wf L.wmin L.wmax)
    return { used := ⟨compress m x.data, compress m y.data, w.map (fun w => compress m w.data)⟩,
             raw := ⟨x.data, y.data, w.map NArr.data⟩, mask := m }

/-- `nobs = tk_observed.sum()`, fitfunctions/core.py:314-317 -/
def UsedRaw.nobs (o : UsedRaw) : ℕ := o.mask.count true

/-! ### make_fit -/

/-- What the optimiser, the covariance computation and the report builder do in one call. -/
inductive FitOutcome (ρ β : Type) where
  /-- `_run_least_squares` raises -/
  | optRaises (e : PyErr)
  /-- it succeeds with these bounds, then `_calc_popt_pcov_psigma_chisq` raises or gives results, then
  `build_TeX_info`/`build_plotter` raise or not -/
  | optOk (bounds : β) (stats : Except PyErr ρ) (report : Except PyErr Unit)

/-- The exceptions `make_fit` catches around the optimiser, fitfunctions/core.py:808 (NotImplementedError is a RuntimeError). -/
def caughtByFit (e : PyErr) : Prop := e = .runtimeError ∨ e = .notImplemented ∨ e = .valueError ∨ e = .fitFailed

/-- Stored attributes: `_popt/_psigma/_pcov/_chisq_dof/_fit_result` (together) and `_fit_bounds`. -/
structure FitState (ρ β : Type) where
  results : Option ρ := none
  bounds : Option β := none

/-- One call: arguments and outcome of everything external. -/
structure FitCall (ρ β : Type) where
  returnException : Bool
  absoluteSigma : Bool
  outcome : FitOutcome ρ β

/-- `make_fit`, fitfunctions/core.py:764-828. The value is `.error e` if `e` is raised, `.ok (some e)` if `e` is
returned, `.ok none` for `None`. -/
def makeFit {ρ β} (nobs npar : ℕ) (c : FitCall ρ β) (s : FitState ρ β) :
    FitState ρ β × Except PyErr (Option PyErr) :=
  if ¬ (npar ≤ nobs) then
    (s, if c.returnException then .ok (some .insufficientData) else .error .insufficientData)
  else if c.absoluteSigma then (s, .error .notImplemented)
  else match c.outcome with
    | .optRaises e =>
      (s, if caughtByFit e ∧ c.returnException then .ok (some e) else .error e)
    | .optOk b stats report =>
      let s := { s with bounds := some b }
      match stats with
      | .error e => (s, .error e)
      | .ok r =>
        let s := { s with results := some r }
        match report with
        | .error e => (s, .error e)
        | .ok () => (s, .ok none)

/-- a sequence of calls on one fit function (its observations are fixed) -/
def runFits {ρ β} (nobs npar : ℕ) (s : FitState ρ β) : List (FitCall ρ β) → FitState ρ β
  | [] => s
  | c :: cs => runFits nobs npar (makeFit nobs npar c s).1 cs

/-! ### Residuals, R^2, chi^2 -/

/-- `FitFunction.residuals`, fitfunctions/core.py:496-555, given the fitted values. -/
def ffResiduals (y fit : List Fl) (pct : Bool) : List Fl :=
  let r := List.zipWith (· - ·) y fit
  if pct then
    List.zipWith (fun q f => if f = .fin 0 then .nan else q)
      ((List.zipWith (· / ·) r fit).map (fun q => .fin 100 * q)) fit
  else r

/-- `FFPlot.residuals(robust=False)`, fitfunctions/plots.py:719-735, given the fitted values on the used data. -/
def plotResiduals (y fit : List Fl) (pct : Bool) : List Fl :=
  let r := List.zipWith (· - ·) fit y
  if pct then (List.zipWith (· / ·) r fit).map (fun q => .fin 100 * q) else r

/-- numpy `a.sum()` -/
def npSum (l : List Fl) : Fl := Fl.sumAll l
/-- numpy `a.mean()` -/
def npMean (l : List Fl) : Fl := npSum l / .fin l.length

/-- `rsq`, fitfunctions/core.py:357-370 -/
def rsq (y fit : List Fl) : Fl :=
  .fin 1 - npSum ((List.zipWith (· - ·) y fit).map Fl.sq) / npSum (y.map (fun a => Fl.sq (a - npMean y)))

/-- linear part of `_calc_popt_pcov_psigma_chisq`, fitfunctions/core.py:723-730. `npar = len(p0)`. -/
def chisqDof (y fit : List Fl) (w : Option (List Fl)) (npar : ℕ) : Fl :=
  let dof : ℤ := y.length - npar
  if dof = 0 then .pinf
  else
    let r := List.zipWith (· - ·) fit y
    let r := match w with
      | none => r
      | some s => List.zipWith (· / ·) r s
    npSum (r.map Fl.sq) / .fin dof

end
end SW
