import Verif.FitFuncs

/-!
# Model: log-normal conversion (solarwindpy/tools/__init__.py)
-/

namespace SW
namespace Swap

noncomputable section

/-- `normal_parameters`, tools/__init__.py:115-161, elementwise: (mu, sigma) -/
def normalParameters (m s : Fl) : Fl × Fl :=
  let mu := Fl.exp (m + Fl.sq s / .fin 2)
  let sigma := Fl.exp (Fl.sq s + .fin 2 * m)
  let sigma := sigma * (Fl.exp (Fl.sq s) - .fin 1)
  (mu, Fl.sqrt sigma)

end
end Swap
end SW
