import Verif.Rounded

/-!
# Model: fit functions evaluated with rounding

The functions of `Verif/FitFuncs.lean`, in the order of operations of the source, every operation rounded.  `np.exp` and `np.log` are library functions;
`Lib` says what is used of them.
-/

namespace SW
namespace Rnd

noncomputable section

/-- computed exponential and logarithm: monotone; the exponential is exact at 0 and nonnegative, and returns numbers of the format -/
structure Lib (R : Rounding) where
  ex : ℝ → ℝ
  ln : ℝ → ℝ
  ex_mono : Monotone ex
  ex_zero : ex 0 = 1
  ex_nonneg : ∀ x, 0 ≤ ex x
  ex_rep : ∀ x, R.Rep (ex x)
  ln_mono : ∀ x y, 0 < x → x ≤ y → ln x ≤ ln y

variable (R : Rounding) (L : Lib R)

/-- `(m * x) + b`: lines.py:27 -/
def lineR (m b x : ℝ) : ℝ := R.r (R.r (m * x) + b)

/-- `m * (x - x1)`: lines.py, hinge.py:119, 304-305, 540-541, 772-773, 990-991, 1203-1204 -/
def slopeR (m x1 x : ℝ) : ℝ := R.r (m * R.r (x - x1))

/-- `-0.5 * (((x - mu) / sigma) ** 2.0)`: gaussians.py:26, 79 -/
def argR (mu sigma x : ℝ) : ℝ :=
  let q := R.r (R.r (x - mu) / sigma)
  R.r (-(1 / 2) * R.r (q * q))

/-- `Gaussian`: gaussians.py:25-27 -/
def gaussR (mu sigma A x : ℝ) : ℝ := R.r (A * L.ex (argR R mu sigma x))

/-- `GaussianNormalized`: gaussians.py:78-81; `c` is the computed `np.sqrt(2 * np.pi)` -/
def gaussNormR (c mu sigma n x : ℝ) : ℝ := R.r (R.r (n / R.r (c * sigma)) * L.ex (argR R mu sigma x))

/-- `GaussianLn`: gaussians.py:141-149 -/
def gaussLnR (m s A x : ℝ) : ℝ := R.r (A * L.ex (argR R m s (L.ln x)))

/-- `Exponential`: exponentials.py:23-24 -/
def expR (c A x : ℝ) : ℝ := R.r (A * L.ex (-R.r (c * x)))

/-- `ExponentialPlusC`: exponentials.py:54-55 -/
def expcR (c A d x : ℝ) : ℝ := R.r (expR R L c A x + d)

/-- `ExponentialCDF`: exponentials.py:86-87 -/
def expCdfR (c y0 x : ℝ) : ℝ := R.r (y0 * R.r (1 - L.ex (-R.r (c * x))))

/-- `TwoLine`: hinge.py:304-306 -/
def twoLineR (x1 x2 m1 m2 x : ℝ) : ℝ := min (slopeR R m1 x1 x) (slopeR R m2 x2 x)

/-- the second slope of `HingeMin` and `HingeMax`: hinge.py:771, 989 -/
def slope2R (m1 x1 x2 h : ℝ) : ℝ := R.r (R.r (m1 * R.r (h - x1)) / R.r (h - x2))

/-- `HingeMin`: hinge.py:771-774 -/
def hingeMinR (m1 x1 x2 h x : ℝ) : ℝ := min (slopeR R m1 x1 x) (slopeR R (slope2R R m1 x1 x2 h) x2 x)

/-- `HingeMax`: hinge.py:989-992 -/
def hingeMaxR (m1 x1 x2 h x : ℝ) : ℝ := max (slopeR R m1 x1 x) (slopeR R (slope2R R m1 x1 x2 h) x2 x)

/-- `HingeAtPoint`: hinge.py:1200-1206 -/
def hingePointR (xh yh m1 m2 x : ℝ) : ℝ :=
  min (slopeR R m1 (R.r (xh - R.r (yh / m1))) x) (slopeR R m2 (R.r (xh - R.r (yh / m2))) x)

/-- `HeavySide`: heaviside.py:117 -/
def heavyR (x0 y0 y1 x : ℝ) : ℝ :=
  let d := R.r (x0 - x)
  R.r (R.r (y1 * (if d < 0 then 0 else if d = 0 then R.r (1 / 2 * R.r (y0 + y1)) else 1)) + y0)

end
end Rnd
end SW
