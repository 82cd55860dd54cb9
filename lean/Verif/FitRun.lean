import Verif.FitCore
import Verif.TrendFit

/-!
# What is handed to the optimiser, and the trend function

Models `/repo/solarwindpy/fitfunctions/core.py:613-708` (`_run_least_squares`) with SciPy's input checks, robust loss and its feasible start, and
`/repo/solarwindpy/fitfunctions/trend_fits.py:139-160, 309-440, 560-582`.  The optimiser itself is an oracle.
-/

namespace SW
namespace FitRun

noncomputable section
open Classical

/-! ## The problem -/

/-- `kwargs.pop("p0", self.p0)`: core.py:616; the keyword may be absent, `None`, or a list -/
inductive P0Arg where
  | absent
  | none
  | given (p : List Fl)

/-- the keyword `bounds`: core.py:617, 640-647 -/
inductive BoundsArg where
  | scalar (lo hi : Fl)
  | arrays (lo hi : List Fl)
  | dict (d : List (String × Fl × Fl))

structure Req where
  p0 : P0Arg := .absent
  bounds : BoundsArg := .scalar .ninf .pinf
  method : String := "trf"
  loss : String := "huber"
  args : Bool := false

/-- SciPy's `_initialize_feasible` for one parameter (used in core.py:652): 1, or the middle, or one step inside the only bound -/
def feasible (lo hi : Fl) : Fl :=
  match lo, hi with
  | .fin a, .fin b => .fin (0.5 * (a + b))
  | .fin a, _ => .fin (a + 1)
  | _, .fin b => .fin (b - 1)
  | _, _ => .fin 1

/-- `bounds[k]`: core.py:644 -/
def boundOf (d : List (String × Fl × Fl)) (k : String) : Except PyErr (Fl × Fl) :=
  match d.find? (fun q => q.1 == k) with
  | some q => .ok q.2
  | none => .error .keyError

/-- core.py:640-650: bounds by parameter in the order of the parameters; SciPy's `prepare_bounds` repeats a scalar -/
def prepare (argnames : List String) (n : Nat) : BoundsArg → Except PyErr (List Fl × List Fl)
  | .scalar lo hi => .ok (List.replicate n lo, List.replicate n hi)
  | .arrays lo hi => .ok (lo, hi)
  | .dict d => do
    let l ← argnames.mapM (boundOf d)
    return (l.map (·.1), l.map (·.2))

/-- `1.0 / sigma` and SciPy's `_wrap_func`: core.py:668-691: the residuals; the two-dimensional branch is unreachable because weights must
have the shape of the observations (core.py:404-409) -/
def residuals (f : List Fl → Fl → Fl) (o : Obs3) (p : List Fl) : List Fl :=
  let r := List.zipWith (fun x y => f p x - y) o.x o.y
  match o.w with
  | none => r
  | some w => List.zipWith (fun a s => (.fin 1 / s) * a) r w

/-- SciPy's input checks in `least_squares`: all ValueError, except that the model function is first called after them (TypeError for
a wrong number of parameters) and must give finite residuals at the start -/
def scipyChecks (npar : Nat) (f : List Fl → Fl → Fl) (o : Obs3) (q : Req) (p lb ub : List Fl) : Except PyErr Unit :=
  if q.method ≠ "trf" ∧ q.method ≠ "dogbox" ∧ q.method ≠ "lm" then .error .valueError
  else if q.loss ≠ "linear" ∧ q.loss ≠ "huber" ∧ q.loss ≠ "soft_l1" ∧ q.loss ≠ "cauchy" ∧ q.loss ≠ "arctan" then .error .valueError
  else if q.method = "lm" ∧ q.loss ≠ "linear" then .error .valueError
  else if lb.length ≠ p.length ∨ ub.length ≠ p.length then .error .valueError
  else if q.method = "lm" ∧ ((∃ b ∈ lb, b ≠ .ninf) ∨ (∃ b ∈ ub, b ≠ .pinf)) then .error .valueError
  else if ¬ (∀ b ∈ lb.zip ub, Fl.lt b.1 b.2) then .error .valueError
  else if ¬ (∀ b ∈ lb.zip p, Fl.le b.1 b.2) ∨ ¬ (∀ b ∈ p.zip ub, Fl.le b.1 b.2) then .error .valueError
  else if p.length ≠ npar then .error .typeError
  else if ¬ (∀ r ∈ residuals f o p, r.isFinite) then .error .valueError
  else .ok ()

/-- `_run_least_squares`: core.py:613-708.  `guess` is the class's own `p0`, read whether or not it is needed; `solve` is the optimiser,
`none` if it reports no success.  Result: parameters, start and stored bounds. -/
def run (argnames : List String) (guess : Except PyErr (List Fl)) (f : List Fl → Fl → Fl) (o : Obs3)
    (solve : List Fl → List Fl → List Fl → Except PyErr (Option (List Fl))) (q : Req) :
    Except PyErr (List Fl × List Fl × List (String × Fl × Fl)) := do
  let g ← guess
  let n := match q.p0 with
    | .absent => g.length
    | .none => argnames.length
    | .given p => p.length
  let (lb, ub) ← prepare argnames n q.bounds
  let p := match q.p0 with
    | .absent => g
    | .none => List.zipWith feasible lb ub
    | .given p => p
  if q.args then throw .valueError
  scipyChecks argnames.length f o q p lb ub
  match ← solve p lb ub with
  | none => throw .fitFailed
  | some x => return (x, p, argnames.zip (lb.zip ub))

/-- SciPy's Huber loss -/
def huber (z : ℝ) : ℝ := if z ≤ 1 then z else 2 * Real.sqrt z - 1

/-- what `least_squares` minimises for `loss="huber"`: `0.5 * sum(C**2 * rho((r/C)**2))` with `C = f_scale` (default 0.1, core.py:621) -/
def objective (C : ℝ) (r : List ℝ) : ℝ := 0.5 * (r.map (fun a => C ^ 2 * huber ((a / C) ^ 2))).sum

/-- residuals of real observations with 1-σ uncertainties, as in `residuals` -/
def wres (f : ℝ → ℝ) (d : List (ℝ × ℝ × ℝ)) : List ℝ := d.map (fun q => 1 / q.2.2 * (f q.1 - q.2.1))

/-! ## The trend function -/

/-- one 1-D fit: its column (left and right edge of the x bin) and its parameters by name -/
structure Col where
  left : ℝ
  right : ℝ
  popt : String → Option Fl

/-- trend_fits.py:375-381: bin midpoints, raised to powers of ten for a logarithmic axis -/
def trendX (logx : Bool) (c : Col) : ℝ :=
  let m := (c.left + c.right) / 2
  if logx then (10 : ℝ) ^ m else m

/-- keyword arguments of `make_trend_func` other than limits that matter: trend_fits.py:382-395 -/
structure TrendKw where
  weights : Bool := false
  logx : Bool := false

/-- `make_trend_func`: trend_fits.py:363-397.  All fits have the same parameters, so a missing key is missing everywhere. -/
def makeTrend (cols : List Col) (ykey wkey : String) (logx : Bool) (kw : TrendKw) (L : Limits) : Except PyErr UsedRaw :=
  if cols = [] then .error .valueError
  else if kw.weights then .error .valueError
  else
    match cols.mapM (fun c => c.popt ykey), cols.mapM (fun c => c.popt wkey) with
    | some ys, some ws =>
      if kw.logx then .error .typeError
      else setFitObs (.of (cols.map (fun c => .fin (trendX logx c)))) (.of ys) (some (.of ws)) L
    | _, _ => .error .keyError

/-- `plot_all_ffuncs`, trend_fits.py:320-341: the label "In Fit" of a column -/
def inFitLabel (used : Obs3) (y w : Fl) : Prop :=
  (∃ a ∈ used.y, Fl.le a y) ∧ (∃ a ∈ used.y, Fl.le y a) ∧ (∃ ws, used.w = some ws ∧ (∃ a ∈ ws, Fl.le a w) ∧ (∃ a ∈ ws, Fl.le w a))

/-- `plot_all_popt_1d(only_plot_data_in_trend_fit=True)`: trend_fits.py:413-424: the columns kept; `x` is compared before the power of ten -/
def keptCols (used : Obs3) (cols : List Col) (ykey wkey : String) : List Col :=
  cols.filter (fun c => decide (Fl.fin (trendX false c) ∈ used.x ∧ (∃ y, c.popt ykey = some y ∧ y ∈ used.y) ∧
    (∃ w ws, c.popt wkey = some w ∧ used.w = some ws ∧ w ∈ ws)))

end
end FitRun
end SW
