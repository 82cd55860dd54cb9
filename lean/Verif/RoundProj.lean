import Verif.RoundPhys2

/-!
# Model: projections and the ratio of distribution functions with rounding

As in `Verif/Rounded.lean`: components 0, 1, 2, every operation rounded, any order of summation.
-/

namespace SW
namespace Rnd

noncomputable section

/-- `Vector.project(b).par`: vector.py:249-257; `T`: order of the sums, `U` that of `mag` -/
def projParR (R : Rounding) (T U : Order) (v b : ℕ → ℝ) : ℝ := T.sum R (fun i => R.r (v i * unit R U b i))

/-- `Vector.project(b).per`: vector.py:258-263 -/
def projPerR (R : Rounding) (T U : Order) (v b : ℕ → ℝ) : ℝ :=
  mag R T (fun i => R.r (v i - R.r (unit R U b i * projParR R T U v b)))

/-- a component of `velocity(s, project_m2q=True)`: plasma.py:1056-1065 -/
def m2qR (R : Rounding) (K : Const) (d : RData) (i : ℕ) (s : String) : ℝ :=
  R.r (vel d i s * R.r (Real.sqrt (R.r (K.mInMp s / K.chargeState s))))

/-- the drift from the core: plasma.py:1618 with 1122-1128 -/
def beamDriftR (R : Rounding) (K : Const) (d : RData) (beam core : String) (i : ℕ) : ℝ := flow R (m2qR R K d i beam) (m2qR R K d i core)

/-- the exponent `dvw`: plasma.py:1618-1619; the sum of two terms has one order -/
def dvwSqR (R : Rounding) (T U : Order) (K : Const) (d : RData) (beam core : String) : ℝ :=
  let par := R.r (projParR R T U (beamDriftR R K d beam core) (field d) / d.w core "par")
  let per := R.r (projPerR R T U (beamDriftR R K d beam core) (field d) / d.w core "per")
  R.r (R.r (par * par) + R.r (per * per))

/-- the argument of the logarithm: plasma.py:1621-1623 -/
def vdfCoefR (R : Rounding) (d : RData) (beam core : String) : ℝ :=
  let per := R.r (d.w core "per" / d.w beam "per")
  R.r (R.r (d.n beam / d.n core) * R.r (R.r (d.w core "par" / d.w beam "par") * R.r (per * per)))

/-- `vdf_ratio`: plasma.py:1618-1624 -/
def vdfRatioR (R : Rounding) (T U : Order) (lg : ℝ → ℝ) (K : Const) (d : RData) (beam core : String) : ℝ :=
  R.r (lg (vdfCoefR R d beam core) + dvwSqR R T U K d beam core)

end
end Rnd
end SW
