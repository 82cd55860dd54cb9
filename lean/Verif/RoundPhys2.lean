import Verif.RoundPhys

/-!
# Model: anisotropic Alfven speed and heat flux with rounding

As in `Verif/RoundPhys.lean`: the formulas of `Verif/PlasmaPhys.lean` for measured values, in the order of operations of the source, every operation
rounded.  numpy's power 3 is a library function `cb`.
-/

namespace SW
namespace Rnd

noncomputable section

/-- `afsq` of the pressures `par` and `per`: plasma.py:1288-1308.  `T` is the order in which the squares of the field are added.  The sum of the
columns `par * -1` and `per * 1` is the same rounded difference with `sum(axis=1)` and with `groupby(...).sum()` -/
def afsqOfR (R : Rounding) (T : Order) (K : Const) (d : RData) (par per : ℝ) : ℝ :=
  let bsq := T.sum R (fun i => R.r (field d i * field d i))
  let coeff := R.r (R.r (K.mu0 * K.uPth) / R.r (K.uB * K.uB))
  R.r (1 + R.r (R.r (R.r (per - par) / bsq) * coeff))

/-- `afsq` of the sum of the species `ps`: plasma.py:1290-1308 -/
def afsqTotR (R : Rounding) (T : Order) (K : Const) (d : RData) (ps : List String) : ℝ :=
  afsqOfR R T K d (pthTotR R K d "par" ps) (pthTotR R K d "per" ps)

/-- `caani`: plasma.py:1344-1351; `V` is the order in which `mag` adds the squares, `T` that of `afsq` -/
def caaniR (R : Rounding) (S T V : Order) (pw : ℝ → ℝ → ℝ) (K : Const) (d : RData) (ps : List String) : ℝ :=
  R.r (caOfR R V pw K d (rhoTotR R S K d ps) * R.r (Real.sqrt (afsqTotR R T K d ps)))

/-- the velocity components of the species -/
def vel (d : RData) (i : ℕ) : String → ℝ := if i = 0 then d.vx else if i = 1 then d.vy else d.vz

/-- `self.dv(s, scom).project(self.b).par`: plasma.py:1755-1756, 1122-1128; vector.py:249-257.  `T`: order of `mag`, `U`: of the projection -/
def driftParR (R : Rounding) (S T U : Order) (K : Const) (d : RData) (ps : List String) (s : String) : ℝ :=
  U.sum R (fun i => R.r (flow R (vel d i s) (comOfR R S K d ps (vel d i)) * unit R T (field d) i))

/-- heat flux of one species before the units, of its parallel drift `v`: plasma.py:1758-1764 -/
def qOfR (R : Rounding) (cb : ℝ → ℝ) (K : Const) (d : RData) (s : String) (v : ℝ) : ℝ :=
  R.r (R.r (cb v + R.r (R.r (v * R.r (d.w s "par" * d.w s "par")) * (3 / 2))) * rhoR R K d s)

/-- the factor of the units: plasma.py:1769 -/
def qCoeffR (R : Rounding) (cb : ℝ → ℝ) (K : Const) : ℝ := R.r (R.r (K.uRho * cb K.uV) / K.uQpar)

/-- `heat_flux(*ps)` of the species `s`: plasma.py:1748-1771 -/
def heatEachR (R : Rounding) (S T U : Order) (cb : ℝ → ℝ) (K : Const) (d : RData) (ps : List String) (s : String) : ℝ :=
  R.r (qCoeffR R cb K * qOfR R cb K d s (driftParR R S T U K d ps s))

/-- `heat_flux("a+p1+...")`: plasma.py:1765-1771; `V`: order of the sum of the species -/
def heatTotR (R : Rounding) (S T U V : Order) (cb : ℝ → ℝ) (K : Const) (d : RData) (ps : List String) : ℝ :=
  R.r (qCoeffR R cb K * across R V ps (fun s => qOfR R cb K d s (driftParR R S T U K d ps s)))

end
end Rnd
end SW
