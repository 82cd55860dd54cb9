import Verif.RoundFit

/-!
# Model: the remaining fit functions and the distance to the Sun with rounding

Power laws, the Moyal function, the composites of `composite.py`, the saturating hinges, and `Spacecraft.distance2sun`, in the order of operations of the source,
every operation rounded.
-/

namespace SW
namespace Rnd

noncomputable section

/-- the computed power (`x ** b` of numpy): for positive bases and 0 it is nonnegative, rises with the base for nonnegative and falls for nonpositive exponents,
and 1 to any power is 1; 0 to a positive power is 0 -/
structure PowLib where
  pw : ℝ → ℝ → ℝ
  nonneg : ∀ x b, 0 ≤ x → 0 ≤ pw x b
  up : ∀ x y b, 0 ≤ x → x ≤ y → 0 ≤ b → pw x b ≤ pw y b
  down : ∀ x y b, 0 < x → x ≤ y → b ≤ 0 → pw y b ≤ pw x b
  one : ∀ b, pw 1 b = 1
  zero : ∀ b, 0 < b → pw 0 b = 0

variable (R : Rounding) (L : Lib R) (P : PowLib)

/-- `PowerLaw`: power_laws.py:20-21 -/
def powerR (A b x : ℝ) : ℝ := R.r (A * P.pw x b)

/-- `PowerLawPlusC`: power_laws.py:72-73 -/
def powerCR (A b c x : ℝ) : ℝ := R.r (R.r (A * P.pw x b) + c)

/-- `PowerLawOffCenter`: power_laws.py:115-116 -/
def powerOffR (A b x0 x : ℝ) : ℝ := R.r (A * P.pw (R.r (x - x0)) b)

/-- `Moyal`: moyal.py:29-36 -/
def moyalR (mu sigma A x : ℝ) : ℝ :=
  let q := R.r (R.r (x - mu) / sigma)
  let t := R.r (q * q)
  let a := L.ex (R.r (1 / 2 * R.r (t - L.ex t)))
  R.r (A * R.r (L.ex a - 1))

/-- `np.heaviside(d, h)` -/
def stepAt (h d : ℝ) : ℝ := if d < 0 then 0 else if d = 0 then h else 1

/-- `GaussianPlusHeavySide`: composite.py:113-122 -/
def gaussPlusR (x0 y0 y1 mu sigma A x : ℝ) : ℝ :=
  R.r (gaussR R L mu sigma A x + R.r (R.r (y1 * stepAt (1 / 2) (R.r (x0 - x))) + y0))

/-- `GaussianTimesHeavySide`: composite.py:294-299 -/
def gaussTimesR (x0 mu sigma A x : ℝ) : ℝ := R.r (gaussR R L mu sigma A x * stepAt 1 (R.r (x - x0)))

/-- `GaussianTimesHeavySidePlusHeavySide`: composite.py:473-484 -/
def gaussTimesPlusR (x0 y1 mu sigma A x : ℝ) : ℝ :=
  R.r (R.r (gaussR R L mu sigma A x * stepAt 1 (R.r (x - x0))) + R.r (y1 * stepAt 1 (R.r (x0 - x))))

/-- `HingeSaturation`: hinge.py:116-123; `flat` is `abs(m2) <= 1e-15` -/
def hingeSatR (flat : Bool) (xh yh x1 m2 x : ℝ) : ℝ :=
  let m1 := R.r (yh / R.r (xh - x1))
  min (slopeR R m1 x1 x) (if flat then yh else slopeR R m2 (R.r (xh - R.r (yh / m2))) x)

/-- `Saturation`: hinge.py:537-544; `tn`, `at_`: the computed tangent and its inverse -/
def saturationR (tn at_ : ℝ → ℝ) (x1 xs s theta x : ℝ) : ℝ :=
  let m1 := R.r (s / R.r (xs - x1))
  let m2 := tn (R.r (at_ m1 - theta))
  min (slopeR R m1 x1 x) (slopeR R m2 (R.r (xs - R.r (s / m2))) x)

/-! ### distance to the Sun -/

/-- the position in metres from the Sun in `GSE`: spacecraft.py:163-174.  The signs and the added zeros are exact. -/
def gseR (re au : ℝ) (x y z : ℝ) : ℕ → ℝ := fun i => if i = 0 then R.r (R.r (-x * re) + au) else if i = 1 then R.r (y * re) else R.r (z * re)

/-- the position in metres in `HCI`: spacecraft.py:176-178 -/
def hciR (rs : ℝ) (x y z : ℝ) : ℕ → ℝ := fun i => if i = 0 then R.r (x * rs) else if i = 1 then R.r (y * rs) else R.r (z * rs)

/-- `distance2sun` from the position in metres: spacecraft.py:185; `units.distance2sun` is 1 -/
def distR (S : Order) (v : ℕ → ℝ) : ℝ := R.r (mag R S v / 1)

end
end Rnd
end SW
