import Verif.RoundPhys

/-!
# Model: estimated electrons with rounding

`Plasma.estimate_electrons` of `Verif/PlasmaPhys.lean` for a row of measured values, in the order of operations of the source, every operation rounded.
The power -1 of the electron mass is a library function `pw`; the square of the thermal speed is a product, as in numpy.
-/

namespace SW
namespace Rnd

noncomputable section

/-- one row of the estimated electrons; the parallel and the perpendicular thermal speed are `w` -/
structure ElecRow where
  n : ℝ
  vx : ℝ
  vy : ℝ
  vz : ℝ
  w : ℝ

/-- `niqi` of a species: plasma.py:1686, 1693 -/
def chargeDensR (R : Rounding) (K : Const) (d : RData) (s : String) : ℝ := R.r (d.n s * K.chargeState s)

/-- `ne`: plasma.py:1687, 1694; `S` is the order of the sum over the species -/
def elecNR (R : Rounding) (S : Order) (K : Const) (d : RData) (ps : List String) : ℝ :=
  if ps.length = 1 then chargeDensR R K d (ps.headD "") else across R S ps (chargeDensR R K d)

/-- a component (`f` of the species) of `niqivi`: plasma.py:1688, 1695 -/
def fluxR (R : Rounding) (K : Const) (d : RData) (ps : List String) (f : String → ℝ) : ℝ :=
  if ps.length = 1 then R.r (f (ps.headD "") * chargeDensR R K d (ps.headD "")) else kahan R (ps.map fun s => R.r (f s * chargeDensR R K d s))

/-- a component of `ve`: plasma.py:1697 -/
def elecVR (R : Rounding) (S : Order) (K : Const) (d : RData) (ps : List String) (f : String → ℝ) : ℝ :=
  R.r (fluxR R K d ps f / elecNR R S K d ps)

/-- `we`: plasma.py:1699-1702; `t` is the proton population -/
def elecWR (R : Rounding) (S : Order) (pw : ℝ → ℝ → ℝ) (K : Const) (d : RData) (ps : List String) (t : String) : ℝ :=
  R.r (Real.sqrt (R.r (R.r (R.r (d.n t / elecNR R S K d ps) * pw (K.mInMp "e") (-1)) * R.r (d.w t "scalar" * d.w t "scalar"))))

/-- the row, or nothing where it is masked: plasma.py:1705-1710 -/
def elecRowR (R : Rounding) (S : Order) (pw : ℝ → ℝ → ℝ) (K : Const) (d : RData) (ps : List String) (t : String) : Option ElecRow :=
  if elecNR R S K d ps = 0 then none
  else some ⟨elecNR R S K d ps, elecVR R S K d ps d.vx, elecVR R S K d ps d.vy, elecVR R S K d ps d.vz, elecWR R S pw K d ps t⟩

/-- `estimate_electrons`: plasma.py:1645-1727, with `protonOf` of `Verif/PlasmaPhys.lean` -/
def elecR (R : Rounding) (S : Order) (pw : ℝ → ℝ → ℝ) (K : Const) (d : RData) (ps : List String) : Except PyErr (Option ElecRow) :=
  match protonOf ps with
  | .error e => .error e
  | .ok t => .ok (elecRowR R S pw K d ps t)

end
end Rnd
end SW
