import Verif.FitCore
import Verif.PlasmaPhys
import Mathlib.Analysis.SpecialFunctions.Trigonometric.Arctan
import Mathlib.Analysis.SpecialFunctions.Complex.Arg

/-!
# Model: the concrete fit functions

fitfunctions/lines.py, hinge.py, heaviside.py, composite.py, gaussians.py, exponentials.py, power_laws.py, moyal.py:
the curve of each class (`function`), its derived quantities and its initial guess (`p0`), one abscissa at a time
over the exact IEEE values `Fl`.
-/

namespace SW
noncomputable section
open Classical

/-! ### numpy primitives -/

/-- `np.minimum`: NaN if either argument is -/
def Fl.minimum (a b : Fl) : Fl := if a.isNaN ∨ b.isNaN then .nan else if Fl.le a b then a else b

/-- `np.maximum`: NaN if either argument is -/
def Fl.maximum (a b : Fl) : Fl := if a.isNaN ∨ b.isNaN then .nan else if Fl.le a b then b else a

/-- `np.heaviside(x, h0)`: 0 below zero, `h0` at zero, 1 above; NaN at NaN -/
def Fl.heaviside (x h0 : Fl) : Fl :=
  match x with
  | .nan => .nan
  | .pinf => .fin 1
  | .ninf => .fin 0
  | .fin a => if a < 0 then .fin 0 else if a = 0 then h0 else .fin 1

/-- `np.arctan` -/
def Fl.arctan : Fl → Fl
  | .nan => .nan
  | .pinf => .fin (Real.pi / 2)
  | .ninf => .fin (-(Real.pi / 2))
  | .fin a => .fin (Real.arctan a)

/-- `np.tan` (exact: at a pole of the tangent the model gives 0; the theorems below never use it there) -/
def Fl.tan : Fl → Fl
  | .fin a => .fin (Real.tan a)
  | _ => .nan

/-- `np.arctan2(y, x)` for finite arguments -/
def Fl.arctan2 : Fl → Fl → Fl
  | .fin y, .fin x => .fin (Complex.arg ⟨x, y⟩)
  | _, _ => .nan

/-- `np.median`: middle of the sorted values (mean of the two middle ones); NaN for empty input or if a value is NaN -/
def npMedian (l : List Fl) : Fl :=
  if l = [] ∨ ∃ a ∈ l, a.isNaN then .nan
  else
    let s := l.mergeSort (fun a b => decide (Fl.le a b))
    if l.length % 2 = 1 then s.getD (l.length / 2) .nan
    else (s.getD (l.length / 2 - 1) .nan + s.getD (l.length / 2) .nan) / .fin 2

/-- `np.nanmedian` -/
def npNanMedian (l : List Fl) : Fl := npMedian (l.filter (fun a => decide ¬ a.isNaN))

/-- `np.ediff1d` -/
def ediff1d : List Fl → List Fl
  | a :: b :: l => (b - a) :: ediff1d (b :: l)
  | _ => []

/-- `ndarray.max()` of a non-empty array (the empty case, a ValueError, is excluded by `sufficient_data`) -/
def npMax : List Fl → Fl
  | [] => .nan
  | a :: l => l.foldl Fl.maximum a

/-- `ndarray.min()` of a non-empty array -/
def npMin : List Fl → Fl
  | [] => .nan
  | a :: l => l.foldl Fl.minimum a

/-! ### lines.py -/

/-- `Line.function`, fitfunctions/lines.py:26-27 -/
def lineF (x m b : Fl) : Fl := m * x + b
/-- `Line.x_intercept`, fitfunctions/lines.py:75 -/
def xIntercept (m b : Fl) : Fl := -b / m
/-- `LineXintercept.function`, fitfunctions/lines.py:98-99 -/
def lineXF (x m x0 : Fl) : Fl := m * (x - x0)
/-- `LineXintercept.y_intercept`, fitfunctions/lines.py:148 -/
def yIntercept (m x0 : Fl) : Fl := -x0 * m

/-- slope and intercept estimate shared by both `p0`, fitfunctions/lines.py:44-51, 116-123 -/
def lineGuess (x y : List Fl) : Fl × Fl :=
  let m := npMedian (List.zipWith (· / ·) (ediff1d y) (ediff1d x))
  let b := npMedian (List.zipWith (fun xi yi => m * xi - yi) x y)
  (m, b)

/-- all `dx` finite and non-zero, fitfunctions/lines.py:55, 128 -/
def dxOk (x : List Fl) : Prop := ∀ d ∈ ediff1d x, d.isFinite ∧ Fl.lt (.fin 0) d.abs

/-- `Line.p0`, fitfunctions/lines.py:32-59 -/
def lineP0 (x y : List Fl) : Except PyErr (Option (List Fl)) :=
  if x.length < 2 then .error .insufficientData
  else .ok (if dxOk x then some [(lineGuess x y).1, (lineGuess x y).2] else none)

/-- `LineXintercept.p0`, fitfunctions/lines.py:104-132 -/
def lineXP0 (x y : List Fl) : Except PyErr (Option (List Fl)) :=
  if x.length < 2 then .error .insufficientData
  else .ok (if dxOk x then some [(lineGuess x y).1, -(lineGuess x y).2 / (lineGuess x y).1] else none)

/-! ### hinge.py -/

/-- `HingeSaturation.function`, fitfunctions/hinge.py:95-125 (the slope threshold is 1e-15) -/
def hingeSaturation (x xh yh x1 m2 : Fl) : Fl :=
  let m1 := yh / (xh - x1)
  let big := Fl.lt (.fin (1 / 10 ^ 15)) m2.abs
  let x2 := if big then xh - yh / m2 else .pinf
  let y1 := m1 * (x - x1)
  let y2 := if big then m2 * (x - x2) else yh * .fin 1
  Fl.minimum y1 y2

/-- `TwoLine.function`, fitfunctions/hinge.py:283-307 -/
def twoLine (x x1 x2 m1 m2 : Fl) : Fl := Fl.minimum (m1 * (x - x1)) (m2 * (x - x2))
/-- `TwoLine.xs`, fitfunctions/hinge.py:312-328 -/
def twoLineXs (x1 x2 m1 m2 : Fl) : Fl := (m1 * x1 - m2 * x2) / (m1 - m2)
/-- `TwoLine.s`, fitfunctions/hinge.py:331-344 -/
def twoLineS (x1 x2 m1 m2 : Fl) : Fl := m1 * (twoLineXs x1 x2 m1 m2 - x1)
/-- `TwoLine.theta`, fitfunctions/hinge.py:347-358 -/
def twoLineTheta (m1 m2 : Fl) : Fl := m1.arctan - m2.arctan

/-- `Saturation.m1`, fitfunctions/hinge.py:549-562 (also line 537) -/
def satM1 (x1 xs s : Fl) : Fl := s / (xs - x1)
/-- `Saturation.m2`, fitfunctions/hinge.py:565-577 (also line 538) -/
def satM2 (x1 xs s theta : Fl) : Fl := (satM1 x1 xs s |>.arctan).add (-theta) |>.tan
/-- `Saturation.x2`, fitfunctions/hinge.py:580-593 (also line 539) -/
def satX2 (x1 xs s theta : Fl) : Fl := xs - s / satM2 x1 xs s theta
/-- `Saturation.function`, fitfunctions/hinge.py:516-546 -/
def saturation (x x1 xs s theta : Fl) : Fl :=
  Fl.minimum (satM1 x1 xs s * (x - x1)) (satM2 x1 xs s theta * (x - satX2 x1 xs s theta))

/-- `HingeMin.m2` / `HingeMax.m2`, fitfunctions/hinge.py:781-795, 999-1013 -/
def hingeM2 (m1 x1 x2 h : Fl) : Fl := m1 * (h - x1) / (h - x2)
/-- `HingeMin.function`, fitfunctions/hinge.py:751-778 -/
def hingeMin (x m1 x1 x2 h : Fl) : Fl := Fl.minimum (m1 * (x - x1)) (hingeM2 m1 x1 x2 h * (x - x2))
/-- `HingeMax.function`, fitfunctions/hinge.py:969-996 -/
def hingeMax (x m1 x1 x2 h : Fl) : Fl := Fl.maximum (m1 * (x - x1)) (hingeM2 m1 x1 x2 h * (x - x2))
/-- `HingeMin.theta` / `HingeMax.theta`, fitfunctions/hinge.py:798-811, 1016-1029 -/
def hingeTheta (m1 m2 : Fl) : Fl := Fl.arctan2 (m1 - m2) (.fin 1 + m1 * m2)
/-- `HingeAtPoint.function`, fitfunctions/hinge.py:1179-1209 -/
def hingeAtPoint (x xh yh m1 m2 : Fl) : Fl :=
  Fl.minimum (m1 * (x - (xh - yh / m1))) (m2 * (x - (xh - yh / m2)))

/-- boolean indexing `a[mask]` of an array aligned with `x` -/
def selBy (p : Fl → Prop) (x a : List Fl) : List Fl := compress (x.map (fun t => decide (p t))) a

/-- `estimate_line` of `TwoLine.p0`, fitfunctions/hinge.py:385-392 (and 620-628 for `Saturation.p0`) -/
def estimateLine (p : Fl → Prop) (x y : List Fl) : Fl × Fl :=
  let xs := selBy p x x
  let ys := selBy p x y
  let m := npNanMedian (List.zipWith (· / ·) (ediff1d ys) (ediff1d xs))
  (npNanMedian (List.zipWith (fun xi yi => xi - yi / m) xs ys), m)

/-- `TwoLine.p0`, fitfunctions/hinge.py:361-405 -/
def twoLineP0 (guessXs : Fl) (x y : List Fl) : Except PyErr (List Fl) :=
  if x.length < 4 then .error .insufficientData
  else
    let a := estimateLine (fun t => Fl.le t guessXs) x y
    let b := estimateLine (fun t => ¬ Fl.le t guessXs) x y
    .ok [a.1, b.1, a.2, b.2]

/-- `Saturation.p0`, fitfunctions/hinge.py:596-644; the second component of the guess is discarded (line 634) -/
def saturationP0 (guess : Fl × Fl) (x y : List Fl) : Except PyErr (List Fl) :=
  if x.length < 4 then .error .insufficientData
  else
    let xs := guess.1
    let a := estimateLine (fun t => Fl.le t xs) x y
    let b := estimateLine (fun t => ¬ Fl.le t xs) x y
    let s := npNanMedian [a.2 * (xs - a.1), b.2 * (xs - b.1)]
    let theta := ((a.2 - b.2) / (.fin 1 + a.2 * b.2)).arctan
    .ok [a.1, xs, s, theta]

/-- `HingeMin.p0` and `HingeMax.p0`, fitfunctions/hinge.py:814-862, 1032-1080 -/
def hingeP0 (h : Fl) (x y : List Fl) : Except PyErr (List Fl) :=
  if x.length < 4 then .error .insufficientData
  else
    let xb := selBy (fun t => Fl.lt t h) x x
    let yb := selBy (fun t => Fl.lt t h) x y
    let xa := selBy (fun t => Fl.le h t) x x
    let ya := selBy (fun t => Fl.le h t) x y
    let m1 := if 2 ≤ xb.length then npNanMedian (List.zipWith (· / ·) (ediff1d yb) (ediff1d xb))
      else (npMax y - npMin y) / (npMax x - npMin x)
    let x1 := if 2 ≤ xb.length then npNanMedian (List.zipWith (fun xi yi => xi - yi / m1) xb yb) else npMin x
    let m2 := npMedian (List.zipWith (· / ·) (ediff1d ya) (ediff1d xa))
    let x2 := if 2 ≤ xa.length then npMedian (List.zipWith (fun xi yi => xi - yi / m2) xa ya) else h
    .ok [m1, x1, x2, h]

/-- position of the first smallest value, `np.argmin` of finite values -/
def argminIdx (l : List Fl) : ℕ :=
  (List.range l.length).findIdx (fun i => decide (∀ j < l.length, Fl.le (l.getD i .nan) (l.getD j .nan)))

/-- `HingeAtPoint.p0`, fitfunctions/hinge.py:1230-1279; the `yh` guess is unpacked and never used (line 1254) -/
def hingeAtPointP0 (guess : Fl × Fl) (x y : List Fl) : Except PyErr (List Fl) :=
  if x.length < 4 then .error .insufficientData
  else
    let xh := guess.1
    let yh := y.getD (argminIdx (x.map (fun t => (t - xh).abs))) .nan
    let xb := selBy (fun t => Fl.lt t xh) x x
    let yb := selBy (fun t => Fl.lt t xh) x y
    let xa := selBy (fun t => Fl.le xh t) x x
    let ya := selBy (fun t => Fl.le xh t) x y
    let m1 := if 2 ≤ xb.length then npNanMedian (List.zipWith (· / ·) (ediff1d yb) (ediff1d xb))
      else if Fl.lt (npMin x) xh then yh / (xh - npMin x) else .fin 1
    let m2 := if 2 ≤ xa.length then npMedian (List.zipWith (· / ·) (ediff1d ya) (ediff1d xa)) else .fin 0
    .ok [xh, yh, m1, m2]

/-! ### heaviside.py, composite.py -/

/-- `HeavySide.function`, fitfunctions/heaviside.py:99-119 -/
def heavySide (x x0 y0 y1 : Fl) : Fl := y1 * Fl.heaviside (x0 - x) (.fin (1 / 2) * (y0 + y1)) + y0

/-- `HeavySide.p0`, fitfunctions/heaviside.py:124-166 -/
def heavySideP0 (g0 gy0 gy1 : Option Fl) (x y : List Fl) : Except PyErr (List Fl) :=
  if x.length < 3 then .error .insufficientData
  else
    let x0 := match g0 with
      | some v => v
      | none => (npMax x + npMin x) / .fin 2
    match gy0, gy1 with
    | some a, some b => .ok [x0, a, b]
    | _, _ =>
      let y0 := npMedian (selBy (fun t => Fl.lt x0 t) x y)
      let y1 := npMedian (selBy (fun t => Fl.lt t x0) x y) - y0
      .ok [x0, if y0.isNaN then npMean y else y0, if y1.isNaN then .fin 0 else y1]

/-- `Gaussian.function`, fitfunctions/gaussians.py:25-27 (and composite.py:114-115, 295-296, 474-475) -/
def gaussianF (x mu sigma A : Fl) : Fl := A * Fl.exp (.fin (-1 / 2) * Fl.sq ((x - mu) / sigma))
/-- `GaussianPlusHeavySide.function`, fitfunctions/composite.py:112-122 -/
def gaussianPlusHS (x x0 y0 y1 mu sigma A : Fl) : Fl :=
  gaussianF x mu sigma A + (y1 * Fl.heaviside (x0 - x) (.fin (1 / 2)) + y0)
/-- `GaussianTimesHeavySide.function`, fitfunctions/composite.py:294-299 -/
def gaussianTimesHS (x x0 mu sigma A : Fl) : Fl := gaussianF x mu sigma A * Fl.heaviside (x - x0) (.fin 1)
/-- `GaussianTimesHeavySidePlusHeavySide.function`, fitfunctions/composite.py:473-484 -/
def gaussianTimesPlusHS (x x0 y1 mu sigma A : Fl) : Fl :=
  gaussianF x mu sigma A * Fl.heaviside (x - x0) (.fin 1) + y1 * Fl.heaviside (x0 - x) (.fin 1)

/-! ### gaussians.py -/

/-- weighted mean of `Gaussian.p0`, fitfunctions/gaussians.py:37 -/
def wMean (x y : List Fl) : Fl := npSum (List.zipWith (· * ·) x y) / npSum y
/-- weighted variance, fitfunctions/gaussians.py:38, 92, 161 -/
def wVar (x y : List Fl) : Fl :=
  npSum (List.zipWith (fun xi yi => Fl.sq (xi - wMean x y) * yi) x y) / npSum y
/-- `Gaussian.p0`, fitfunctions/gaussians.py:32-43 -/
def gaussianP0 (x y : List Fl) : Except PyErr (List Fl) :=
  if x.length < 3 then .error .insufficientData else .ok [wMean x y, Fl.sqrt (wVar x y), npMax y]
/-- `GaussianNormalized.function`, fitfunctions/gaussians.py:78-81 -/
def gaussianNormF (x mu sigma n : Fl) : Fl :=
  n / (Fl.sqrt (.fin (2 * Real.pi)) * sigma) * Fl.exp (.fin (-1 / 2) * Fl.sq ((x - mu) / sigma))
/-- `GaussianNormalized.p0`, fitfunctions/gaussians.py:86-98 -/
def gaussianNormP0 (x y : List Fl) : Except PyErr (List Fl) :=
  if x.length < 3 then .error .insufficientData
  else .ok [wMean x y, Fl.sqrt (wVar x y), npMax y * Fl.sqrt (wVar x y) * Fl.sqrt (.fin (2 * Real.pi))]
/-- `GaussianLn.function`, fitfunctions/gaussians.py:141-149 -/
def gaussianLnF (x m s A : Fl) : Fl := A * Fl.exp (.fin (-1 / 2) * Fl.sq ((Fl.log x - m) / s))
/-- `GaussianLn.p0`, fitfunctions/gaussians.py:154-167 -/
def gaussianLnP0 (x y : List Fl) : Except PyErr (List Fl) :=
  if x.length < 3 then .error .insufficientData
  else .ok [Fl.log (wMean x y), Fl.log (wVar x y), Fl.log (npMax y)]
/-- `GaussianLn.normal_parameters`, fitfunctions/gaussians.py:187-203: (mu, sigma) -/
def normalParameters (m s : Fl) : Fl × Fl :=
  (Fl.exp (m + Fl.sq s / .fin 2), Fl.sqrt (Fl.exp (Fl.sq s + .fin 2 * m) * (Fl.exp (Fl.sq s) - .fin 1)))
/-- the formula of `GaussianLn.TeX_function`, fitfunctions/gaussians.py:170-184 (no minus sign) -/
def gaussianLnTeX (x m s A : Fl) : Fl := A * Fl.exp (Fl.sq (Fl.log x - m) / (.fin 2 * Fl.sq s))

/-- the attributes defined by `FitFunction` and its bases that are visible to `super()` lookups of names
 containing `TeX`: fitfunctions/core.py:251, 383, 472 (and no `__getattr__`) -/
def fitFunctionTeXAttrs : List String := ["TeX_function", "TeX_info", "build_TeX_info"]
/-- `super().name` for a direct subclass of `FitFunction` and a name containing `TeX` -/
def superTeX (name : String) : Except PyErr Unit :=
  if name ∈ fitFunctionTeXAttrs then .ok () else .error .attributeError
/-- `GaussianLn.TeX_popt`, fitfunctions/gaussians.py:218-244: starts with `super().TeX_popt`; `rest` is what would
be built from it -/
def gaussianLnTeXPopt {α} (rest : Except PyErr α) : Except PyErr α := do
  superTeX "TeX_popt"
  rest

/-- `ExponentialCDF.set_TeX_info`, fitfunctions/exponentials.py:117-130: formats `y0` with %s, then calls
`super().set_TeX_info`; `rest` is what that would do -/
def expCDFSetTeXInfo {α} (y0 : Option Fl) (rest : Except PyErr α) : Except PyErr α :=
  match y0 with
  | none => .error .attributeError
  | some _ => do
    superTeX "set_TeX_info"
    rest

/-! ### exponentials.py, power_laws.py, moyal.py -/

/-- `Exponential.function`, fitfunctions/exponentials.py:23-24 -/
def exponentialF (x c A : Fl) : Fl := A * Fl.exp (-(c * x))
/-- `ExponentialPlusC.function`, fitfunctions/exponentials.py:54-55 -/
def exponentialPlusCF (x c A d : Fl) : Fl := A * Fl.exp (-(c * x)) + d
/-- `ExponentialCDF.function`, fitfunctions/exponentials.py:86-87; `y0` raises AttributeError until `set_y0` -/
def exponentialCDF (y0 : Option Fl) (x c : Fl) : Except PyErr Fl :=
  match y0 with
  | none => .error .attributeError
  | some a => .ok (a * (.fin 1 - Fl.exp (-(c * x))))
/-- `PowerLaw.function`, fitfunctions/power_laws.py:20-21, for finite `b` (integer exponents of non-positive `x` are
not covered by `Fl.rpow`; the theorems use positive `x`) -/
def powerLawF (x A : Fl) (b : ℝ) : Fl := A * Fl.rpow x b
/-- `PowerLawPlusC.function`, fitfunctions/power_laws.py:72-73 -/
def powerLawPlusCF (x A : Fl) (b : ℝ) (c : Fl) : Fl := A * Fl.rpow x b + c
/-- `PowerLawOffCenter.function`, fitfunctions/power_laws.py:115-116 -/
def powerLawOffCenterF (x A : Fl) (b : ℝ) (x0 : Fl) : Fl := A * Fl.rpow (x - x0) b
/-- `Moyal.function`, fitfunctions/moyal.py:29-37 -/
def moyalF (x mu sigma A : Fl) : Fl :=
  let u := Fl.sq ((x - mu) / sigma)
  A * (Fl.exp (Fl.exp (.fin (1 / 2) * (u - Fl.exp u))) - .fin 1)
/-- the formula of `Moyal.TeX_function`, fitfunctions/moyal.py:64-75 -/
def moyalTeX (x mu sigma A : Fl) : Fl :=
  let u := Fl.sq ((x - mu) / sigma)
  A * Fl.exp (.fin (1 / 2) * (u - Fl.exp u))

end
end SW
