import Verif.FitCore
import Mathlib.LinearAlgebra.Matrix.NonsingularInverse

/-!
# Covariance of the fit parameters, and what a fit object offers when

Models `/repo/solarwindpy/fitfunctions/core.py:732-762` given the singular value decomposition of the Jacobian (SciPy's `svd` is not
modelled: the theorems state what they need of it), and the accessors and builders of a fit object over its history (core.py:263-494).
-/

namespace SW
namespace Cov

open scoped BigOperators

/-- core.py:734: singular values at or below the threshold are dropped -/
noncomputable def kept (tol : ℝ) (s : List ℝ) : List ℝ := s.filter (fun a => decide (tol < a))

/-- core.py:733: `np.finfo(float).eps * max(res.jac.shape) * s[0]` (an empty `s` is an IndexError; `s` is not empty if there is a parameter) -/
noncomputable def threshold (eps : ℝ) (n p : Nat) (s : List ℝ) : ℝ := eps * max n p * s.headD 0

/-- core.py:735-736: `VT = VT[: s.size]; pcov = np.dot(VT.T / (s**2), VT)`; row `a` of `VT` is `V a` -/
noncomputable def pinv {p : Nat} (tol : ℝ) (s : List ℝ) (V : Nat → Fin p → ℝ) : Matrix (Fin p) (Fin p) ℝ :=
  fun i j => ∑ a ∈ Finset.range (kept tol s).length, V a i / ((kept tol s).getD a 0) ^ 2 * V a j

/-- core.py:738-747: scaled by the robust chi-square per degree of freedom (`cost` is half the sum), or infinite if there are no more
observations than parameters. `m = len(res.fun)`. (pcov, s_sq) -/
noncomputable def scaled {p : Nat} (m : Nat) (cost : ℝ) (C : Matrix (Fin p) (Fin p) ℝ) : (Fin p → Fin p → Fl) × Fl :=
  if p < m then (fun i j => .fin (C i j * (2 * cost / ((m : ℝ) - (p : ℝ)))), .fin (2 * cost / ((m : ℝ) - (p : ℝ))))
  else (fun _ _ => .pinf, .nan)

/-- core.py:755 -/
noncomputable def psigma {p : Nat} (C : Fin p → Fin p → Fl) (i : Fin p) : Fl := Fl.sqrt (C i i)

/-! ### Accessors over the life of a fit object -/

/-- what is stored: `obs` names the observations, `fit` the parameters of the last successful fit (with the observations it was made
with), `tex` the annotation and `plotter` the plotter, by what they were built from -/
structure Obj (ρ : Type) where
  obs : Nat
  fit : Option ρ
  tex : Option (ρ × Nat)
  plotter : Option (ρ × Nat × (ρ × Nat))

/-- what can be done with a fit object: fit (with the outcome of the optimiser), replace the observations, build the annotation, build
the plotter -/
inductive Act (ρ : Type) where
  | fit (outcome : Except PyErr ρ) (ret : Bool)
  | setObs (n : Nat)
  | buildTeX
  | buildPlotter

/-- `popt`/`psigma`/`pcov`/`fit_result`/`__call__`/`rsq`/`residuals` need a stored fit: core.py:233-247, 330-370, 302-303 -/
def popt {ρ} (o : Obj ρ) : Except PyErr ρ :=
  match o.fit with
  | some r => .ok r
  | none => .error .attributeError

/-- `chisq_dof` is `None` instead: core.py:283-286 -/
def chisq {ρ} (o : Obj ρ) : Option ρ := o.fit

/-- `build_TeX_info`: core.py:475-494.  The parameters fall back to NaN, but `rsq` evaluates the fitted function. -/
def buildTeX {ρ} (o : Obj ρ) : Obj ρ × Option PyErr :=
  match popt o with
  | .ok r => ({ o with tex := some (r, o.obs) }, none)
  | .error e => (o, some e)

/-- `build_plotter`: core.py:446-473.  The curve falls back to NaN, but `TeX_info` and `fit_result` do not. -/
def buildPlotter {ρ} (o : Obj ρ) : Obj ρ × Option PyErr :=
  match o.tex, o.fit with
  | some t, some r => ({ o with plotter := some (r, o.obs, t) }, none)
  | _, _ => (o, some .attributeError)

/-- one action; `make_fit` core.py:808-867 stores the results, then builds the annotation and the plotter.  With `ret` a failure is
returned, not raised. -/
def act {ρ} (o : Obj ρ) : Act ρ → Obj ρ × Option PyErr
  | .fit (.error e) ret => (o, if ret then none else some e)
  | .fit (.ok r) _ =>
    match buildTeX { o with fit := some r } with
    | (o', none) => buildPlotter o'
    | (o', some e) => (o', some e)
  | .setObs n => ({ o with obs := n }, none)
  | .buildTeX => buildTeX o
  | .buildPlotter => buildPlotter o

def fresh {ρ} (n : Nat) : Obj ρ := ⟨n, none, none, none⟩

def runActs {ρ} (o : Obj ρ) : List (Act ρ) → Obj ρ
  | [] => o
  | a :: as => runActs (act o a).1 as

end Cov
end SW
