import Verif.FitFuncs

/-!
# Model: initial guesses of composite, saturation, exponential, power-law and Moyal fits
-/

namespace SW
noncomputable section
open Classical

/-- `GaussianPlusHeavySide.p0`, fitfunctions/composite.py:127-180: [x0, y0, y1, mu, sigma, A] -/
def gaussPlusP0 (x y : List Fl) : Except PyErr (List Fl) :=
  if x.length < 6 then .error .insufficientData
  else
    let mean := wMean x y
    let peak := npMax y
    let x0 := .fin 0.75 * mean
    let y1 := .fin 0.8 * peak
    let xs := selBy (fun t => Fl.lt x0 t) x x
    let ys := selBy (fun t => Fl.lt x0 t) x y
    .ok [x0, .fin 0, y1, wMean xs ys, Fl.sqrt (wVar xs ys), peak]

/-- `GaussianTimesHeavySide.p0`, fitfunctions/composite.py:304-352: [x0, mu, sigma, A]; the maximum of no data is a ValueError -/
def gaussTimesP0 (g : Fl) (x y : List Fl) : Except PyErr (List Fl) :=
  if x.length < 4 then .error .insufficientData
  else
    let xs := selBy (fun t => Fl.lt g t) x x
    let ys := selBy (fun t => Fl.lt g t) x y
    if ys = [] then .error .valueError else .ok [g, wMean xs ys, Fl.sqrt (wVar xs ys), npMax ys]

/-- `GaussianTimesHeavySidePlusHeavySide.p0`, fitfunctions/composite.py:489-542: [x0, y1, mu, sigma, A] -/
def gaussTimesPlusP0 (g : Fl) (x y : List Fl) : Except PyErr (List Fl) :=
  if x.length < 5 then .error .insufficientData
  else
    let m := npMean (selBy (fun t => ¬ Fl.lt g t) x y)
    let y1 := if m.isNaN then .fin 0 else m
    let xs := selBy (fun t => Fl.lt g t) x x
    let ys := selBy (fun t => Fl.lt g t) x y
    if ys = [] then .error .valueError else .ok [g, y1, wMean xs ys, Fl.sqrt (wVar xs ys), npMax ys]

/-- `guess_x0` is required: composite.py:248-255, 425-432 -/
def compositeInit (g : Option Fl) : Except PyErr Fl :=
  match g with
  | none => .error .valueError
  | some v => .ok v

/-- `HingeSaturation.p0`, fitfunctions/hinge.py:128-177: [xh, yh, x1, m2]; `slope` is `np.polyfit(x, y, 1)[0]` -/
def hingeSatP0 (slope : List Fl → List Fl → Fl) (guess : Fl × Fl) (x y : List Fl) : Except PyErr (List Fl) :=
  if x.length < 4 then .error .insufficientData
  else
    let xr := selBy (fun t => Fl.lt t guess.1) x x
    let yr := selBy (fun t => Fl.lt t guess.1) x y
    let xp := selBy (fun t => Fl.le guess.1 t) x x
    let yp := selBy (fun t => Fl.le guess.1 t) x y
    let x1 :=
      if 2 ≤ xr.length then
        let m1 := slope xr yr
        if Fl.lt (.fin 1e-10) m1.abs then guess.1 - guess.2 / m1 else npMin x
      else npMin x
    let m2 := if 2 ≤ xp.length then npMedian (List.zipWith (· / ·) (ediff1d yp) (ediff1d xp)) else .fin 0
    .ok [guess.1, guess.2, x1, m2]

/-- `HingeAtPoint.x_intercepts`, fitfunctions/hinge.py:1212-1227 -/
def hingeAtPointX (xh yh m1 m2 : Fl) : Fl × Fl := (xh - yh / m1, xh - yh / m2)

/-- `Exponential.p0`, fitfunctions/exponentials.py:29-39: [c, A] -/
def exponentialP0 (x y : List Fl) : Except PyErr (List Fl) :=
  if x.length < 2 then .error .insufficientData else .ok [.fin 1, npMax y]

/-- `ExponentialPlusC.p0`, fitfunctions/exponentials.py:60-71: [c, A, d] -/
def exponentialPlusCP0 (x y : List Fl) : Except PyErr (List Fl) :=
  if x.length < 3 then .error .insufficientData else .ok [.fin 1, npMax y, .fin 0]

/-- `ExponentialCDF.p0`, fitfunctions/exponentials.py:101-110: [c] -/
def exponentialCDFP0 (x y : List Fl) : Except PyErr (List Fl) :=
  if x.length < 1 then .error .insufficientData else .ok [npMean y]

/-- `PowerLaw.p0`, fitfunctions/power_laws.py:26-48: [A, b] -/
def powerLawP0 (x : List Fl) : Except PyErr (List Fl) :=
  if x.length < 2 then .error .insufficientData else .ok [.fin 1, .fin 1]

/-- `PowerLawPlusC.p0` and `PowerLawOffCenter.p0`, fitfunctions/power_laws.py:78-100, 121-143: [A, b, c], [A, b, x0] -/
def powerLaw3P0 (x : List Fl) : Except PyErr (List Fl) :=
  if x.length < 3 then .error .insufficientData else .ok [.fin 1, .fin 1, .fin 0]

/-- `Moyal.p0`, fitfunctions/moyal.py:44-62: [mu, sigma, A] -/
def moyalP0 (x y : List Fl) : Except PyErr (List Fl) :=
  if x.length < 3 then .error .insufficientData else .ok [wMean x y, Fl.sqrt (wVar x y), npMax y]

end
end SW
