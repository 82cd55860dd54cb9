import Verif.PlasmaPhys
import Verif.Labels

/-!
# Unit factors and species constants

Models `/repo/solarwindpy/core/units_constants.py`.  The values SciPy supplies (elementary charge, masses, mass ratios) are parameters;
decimal literals are exact reals.
-/

namespace SW
namespace Uc

noncomputable section

/-- `Units`: units_constants.py:139-197 -/
structure Units where
  bfield : ℝ
  b : ℝ
  v : ℝ
  w : ℝ
  dv : ℝ
  ca : ℝ
  cs : ℝ
  cfms : ℝ
  pth : ℝ
  temperature : ℝ
  n : ℝ
  rho : ℝ
  beta : ℝ
  lnlambda : ℝ
  nuc : ℝ
  nc : ℝ
  qpar : ℝ
  distance2sun : ℝ
  specificEntropy : ℝ

/-- the arguments of the constructor: units_constants.py:170-187 (fields with `init=False` cannot be given); `none` = default -/
structure Given where
  bfield : Option ℝ := none
  v : Option ℝ := none
  pth : Option ℝ := none
  temperature : Option ℝ := none
  n : Option ℝ := none
  beta : Option ℝ := none
  lnlambda : Option ℝ := none
  nuc : Option ℝ := none
  nc : Option ℝ := none
  qpar : Option ℝ := none
  distance2sun : Option ℝ := none

/-- `Units(...)` with `__post_init__`: units_constants.py:170-197; `mp`, `e`: SciPy's `m_p` and `e` -/
def mkUnits (mp e : ℝ) (g : Given) : Units where
  bfield := g.bfield.getD 1e-9
  b := g.bfield.getD 1e-9
  v := g.v.getD 1e3
  w := g.v.getD 1e3
  dv := g.v.getD 1e3
  ca := g.v.getD 1e3
  cs := g.v.getD 1e3
  cfms := g.v.getD 1e3
  pth := g.pth.getD 1e-12
  temperature := g.temperature.getD 1e5
  n := g.n.getD 1e6
  rho := g.n.getD 1e6 * mp
  beta := g.beta.getD 1
  lnlambda := g.lnlambda.getD 1
  nuc := g.nuc.getD 1e-7
  nc := g.nc.getD 1
  qpar := g.qpar.getD 1e-7
  distance2sun := g.distance2sun.getD 1
  specificEntropy := 1e4 / e

/-- SciPy's values for the particles -/
structure Codata where
  e : ℝ
  mp : ℝ
  ma : ℝ
  me : ℝ
  aInMp : ℝ
  eInMp : ℝ
  uP : ℝ
  uA : ℝ
  uE : ℝ

/-- `_m_in_mp`: units_constants.py:38-49 -/
def mInMp (c : Codata) : List (String × ℝ) := [
  ("p", 1), ("p1", 1), ("p2", 1), ("pm", 1), ("p_bimax", 1), ("a", c.aInMp), ("a1", c.aInMp), ("a2", c.aInMp), ("a_bimax", c.aInMp),
  ("e", c.eInMp)]

/-- `_charges`: units_constants.py:51-62 -/
def charges (c : Codata) : List (String × ℝ) := [
  ("e", -c.e), ("p", c.e), ("p1", c.e), ("p2", c.e), ("pm", c.e), ("p_bimax", c.e), ("a", 2 * c.e), ("a1", 2 * c.e), ("a2", 2 * c.e),
  ("a_bimax", 2 * c.e)]

/-- `_charge_states`: units_constants.py:64-75 -/
def chargeStates : List (String × ℝ) := [
  ("e", -1), ("p", 1), ("p1", 1), ("p2", 1), ("pm", 1), ("p_bimax", 1), ("a", 2), ("a1", 2), ("a2", 2), ("a_bimax", 2)]

/-- `_masses`: units_constants.py:77-88 -/
def masses (c : Codata) : List (String × ℝ) := [
  ("e", c.me), ("p", c.mp), ("p1", c.mp), ("p2", c.mp), ("pm", c.mp), ("p_bimax", c.mp), ("a_bimax", c.ma), ("a", c.ma), ("a1", c.ma),
  ("a2", c.ma)]

/-- `_m_amu`: units_constants.py:90-101 -/
def mAmu (c : Codata) : List (String × ℝ) := [
  ("a", c.uA), ("a1", c.uA), ("a2", c.uA), ("a_bimax", c.uA), ("p", c.uP), ("p1", c.uP), ("p2", c.uP), ("pm", c.uP), ("p_bimax", c.uP),
  ("e", c.uE)]

/-- `_polytropic_index`: units_constants.py:36 -/
def polytropic : List (String × ℝ) := [("par", 3), ("per", 2), ("scalar", 5 / 3)]

/-- The plasma computes with these unit factors and this polytropic index: `Base._init_units`, `Base._init_constants`, core/base.py:129-133. -/
structure Uses (K : Const) (u : Units) : Prop where
  b : K.uB = u.b
  v : K.uV = u.v
  pth : K.uPth = u.pth
  temperature : K.uT = u.temperature
  n : K.uN = u.n
  rho : K.uRho = u.rho
  nuc : K.uNuc = u.nuc
  qpar : K.uQpar = u.qpar
  entropy : K.uS = u.specificEntropy
  gamma : K.gamma = (polytropic.lookup "scalar").getD 0

end
end Uc
end SW
