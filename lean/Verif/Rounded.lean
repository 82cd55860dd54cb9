import Mathlib.Analysis.SpecialFunctions.Pow.Real
import Mathlib.Data.Int.Log
import Mathlib.Algebra.Order.Round

/-!
# Model: computations with rounding after every operation

The other files compute with exact reals.  Here finite floating-point results are modelled: every arithmetic operation is the exact one followed by a
rounding.  `Rounding` says what is used of it - every IEEE rounding direction "to nearest" and "toward zero" qualifies - and `binary p` is
round-to-nearest-even with `p` binary digits (53 in numpy).  Exponents are unbounded: overflow and underflow are not modelled.  The order in which
numpy and pandas add the terms of a sum (from left to right, pairwise, by lanes) is an arbitrary tree.  A quotient by zero is NaN or infinite in numpy and
outside the claims (in Lean it is 0).
-/

namespace SW
namespace Rnd

noncomputable section

/-- a rounding: monotone, symmetric, exact on what it returns and on 1 -/
structure Rounding where
  r : ℝ → ℝ
  mono : Monotone r
  odd : ∀ x, r (-x) = - r x
  idem : ∀ x, r (r x) = r x
  one : r 1 = 1

/-- a number of the format -/
def Rounding.Rep (R : Rounding) (x : ℝ) : Prop := R.r x = x

/-! ### binary formats -/

/-- nearest integer, ties to even -/
def rne (x : ℝ) : ℤ :=
  if Int.fract x < 1 / 2 then ⌊x⌋ else if 1 / 2 < Int.fract x then ⌊x⌋ + 1 else if ⌊x⌋ % 2 = 0 then ⌊x⌋ else ⌊x⌋ + 1

/-- exponent of the last place of `x` with `p` binary digits -/
def lastExp (p : ℕ) (x : ℝ) : ℤ := Int.log 2 |x| - (p - 1)

/-- round to nearest even with `p` binary digits (IEEE-754 binary64: `p = 53`), unbounded exponent -/
def binary (p : ℕ) (x : ℝ) : ℝ := if x = 0 then 0 else rne (x / 2 ^ lastExp p x) * 2 ^ lastExp p x

/-! ### sums -/

/-- an order of summation: which terms are added when -/
inductive Order where
  | term (i : ℕ)
  | add (a b : Order)

def Order.terms : Order → List ℕ
  | .term i => [i]
  | .add a b => a.terms ++ b.terms

/-- an order of summation of the terms 0, ..., n-1 -/
def Order.Of (n : ℕ) (S : Order) : Prop := S.terms.Perm (List.range n)

/-- the computed sum of the terms `f` -/
def Order.sum (R : Rounding) (f : ℕ → ℝ) : Order → ℝ
  | .term i => f i
  | .add a b => R.r (a.sum R f + b.sum R f)

/-- x, y, z from left to right -/
def xyz : Order := .add (.add (.term 0) (.term 1)) (.term 2)

/-! ### Turbulence: core/alfvenic_turbulence.py -/

/-- `z_plus`, `z_minus`: alfvenic_turbulence.py:150-164; components 0, 1, 2 of measured fluctuations -/
def zPlus (R : Rounding) (v b : ℕ → ℝ) (i : ℕ) : ℝ := R.r (v i + b i)
def zMinus (R : Rounding) (v b : ℕ → ℝ) (i : ℕ) : ℝ := R.r (v i - b i)

/-- `0.5 * z.pow(2).sum(axis=1)`: alfvenic_turbulence.py:172-211 -/
def energy (R : Rounding) (S : Order) (z : ℕ → ℝ) : ℝ := R.r (1 / 2 * S.sum R (fun i => R.r (z i * z i)))

/-- difference over sum: `normalized_residual_energy`, `normalized_cross_helicity`: alfvenic_turbulence.py:228-240, 261-269 -/
def contrast (R : Rounding) (a b : ℝ) : ℝ := R.r (R.r (a - b) / R.r (a + b))

def sigmaC (R : Rounding) (S : Order) (v b : ℕ → ℝ) : ℝ := contrast R (energy R S (zPlus R v b)) (energy R S (zMinus R v b))
def sigmaR (R : Rounding) (S : Order) (v b : ℕ → ℝ) : ℝ := contrast R (energy R S v) (energy R S b)

/-- `cross_helicity`: alfvenic_turbulence.py:252-258 -/
def crossHelicity (R : Rounding) (S : Order) (v b : ℕ → ℝ) : ℝ := R.r (1 / 2 * S.sum R (fun i => R.r (v i * b i)))

/-- `alfven_ratio`, `elsasser_ratio`: alfvenic_turbulence.py:275-288 -/
def ratio (R : Rounding) (a b : ℝ) : ℝ := R.r (a / b)

/-! ### Vectors: core/vector.py -/

/-- `mag`, `rho`: vector.py:72-110: `pow(2).sum(axis=1).pow(0.5)` of three or two components (numpy computes the power 0.5 as a square root) -/
def mag (R : Rounding) (S : Order) (v : ℕ → ℝ) : ℝ := R.r (Real.sqrt (S.sum R (fun i => R.r (v i * v i))))

/-- `unit_vector`: vector.py:207-217 -/
def unit (R : Rounding) (S : Order) (v : ℕ → ℝ) (i : ℕ) : ℝ := R.r (v i / mag R S v)

/-- `cos_theta`: vector.py:261-290 -/
def cosTheta (R : Rounding) (S : Order) (v w : ℕ → ℝ) : ℝ := S.sum R (fun i => R.r (unit R S v i * unit R S w i))

/-! ### Plasma: core/plasma.py -/

/-- total `number_density` of measured species: plasma.py:817-827 -/
def density (R : Rounding) (S : Order) (n : ℕ → ℝ) : ℝ := S.sum R n

/-- `dv`, one component: plasma.py:1122-1128 -/
def flow (R : Rounding) (v0 v1 : ℝ) : ℝ := R.r (v0 - v1)

/-! ### Normalisations and fits -/

/-- `g.divide(g.max())`: sidc.py:422-423; hist2d.py:174-179 -/
def byMax (R : Rounding) (m x : ℝ) : ℝ := R.r (x / m)

/-- `g.subtract(g.min()).divide(g.max() - g.min())`: sidc.py:432-433 -/
def feature (R : Rounding) (lo hi x : ℝ) : ℝ := R.r (R.r (x - lo) / R.r (hi - lo))

/-- `cdf.index / cdf.index.max()` for `n + 2` data: hist1d.py:163 -/
def position (R : Rounding) (n i : ℕ) : ℝ := R.r ((i : ℝ) / ((n : ℝ) + 1))

/-- a sum of squared differences: fitfunctions/core.py:366-367 -/
def squares (R : Rounding) (S : Order) (y f : ℕ → ℝ) : ℝ := S.sum R (fun i => R.r (R.r (y i - f i) * R.r (y i - f i)))

/-- `rsq`: fitfunctions/core.py:357-370; `m` is the computed mean -/
def rsq (R : Rounding) (S : Order) (y fit : ℕ → ℝ) (m : ℝ) : ℝ :=
  R.r (1 - R.r (squares R S y fit / squares R S y (fun _ => m)))

/-- linear `chisq_dof` with weights: fitfunctions/core.py:724-730 -/
def chisq (R : Rounding) (S : Order) (y fit w : ℕ → ℝ) (dof : ℕ) : ℝ :=
  R.r (S.sum R (fun i => R.r (R.r (R.r (fit i - y i) / w i) * R.r (R.r (fit i - y i) / w i))) / dof)

end
end Rnd
end SW
