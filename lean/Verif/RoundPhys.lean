import Verif.Rounded
import Verif.PlasmaPhys

/-!
# Model: densities, pressures, temperatures and speeds with rounding

The formulas of `Verif/PlasmaPhys.lean` for measured values, in the order of operations of the source, every operation rounded.  Species are named by a
list, as after `_chk_species`.  Square roots are correctly rounded; other powers are computed by a library function `pw`, about which the theorems assume
an accuracy.  Constants and units are numbers of the format.
-/

namespace SW
namespace Rnd

noncomputable section

/-- the running sum and compensation of pandas' `groupby(...).sum()` (Kahan), which pandas starts at `(0, 0)` -/
def kahanStep (R : Rounding) (s : ℝ × ℝ) (x : ℝ) : ℝ × ℝ :=
  let y := R.r (x - s.2)
  let t := R.r (s.1 + y)
  (t, R.r (R.r (t - s.1) - y))

/-- pandas' `groupby(...).sum()` of measured values (pandas/_libs/groupby.pyx, `group_sum`), used in plasma.py:921-922, 946-947 -/
def kahan (R : Rounding) (l : List ℝ) : ℝ := (l.foldl (kahanStep R) (0, 0)).1

/-- `sum(axis=1)` of the columns of the species `ps` -/
def across (R : Rounding) (S : Order) (ps : List String) (f : String → ℝ) : ℝ := S.sum R (fun i => f (ps.getD i ""))

/-- `Ion.mass_density`: ions.py:186-190 -/
def rhoR (R : Rounding) (K : Const) (d : RData) (s : String) : ℝ := R.r (d.n s * K.mInMp s)

/-- `Plasma.mass_density`: plasma.py:833-857 -/
def rhoTotR (R : Rounding) (S : Order) (K : Const) (d : RData) (ps : List String) : ℝ := across R S ps (rhoR R K d)

/-- `w * units.w`, squared: ions.py:222-224, 238-239 -/
def wsqR (R : Rounding) (K : Const) (d : RData) (c s : String) : ℝ :=
  let w := R.r (d.w s c * K.uV)
  R.r (w * w)

/-- `Ion.pth`: ions.py:229-241 -/
def pthR (R : Rounding) (K : Const) (d : RData) (c s : String) : ℝ :=
  R.r (R.r (1 / 2 / K.uPth) * R.r (wsqR R K d c s * R.r (rhoR R K d s * K.uRho)))

/-- `Plasma.pth`: plasma.py:896-923 -/
def pthTotR (R : Rounding) (K : Const) (d : RData) (c : String) (ps : List String) : ℝ := kahan R (ps.map (pthR R K d c))

/-- `Ion.temperature`: ions.py:213-226 -/
def tempR (R : Rounding) (K : Const) (d : RData) (c s : String) : ℝ :=
  R.r (R.r (R.r (1 / 2 * K.m s) / R.r (K.kbJ * K.uT)) * wsqR R K d c s)

/-- `Plasma.temperature`: plasma.py:925-948 -/
def tempTotR (R : Rounding) (K : Const) (d : RData) (c : String) (ps : List String) : ℝ := kahan R (ps.map (tempR R K d c))

/-- the magnetic field of the row -/
def field (d : RData) (i : ℕ) : ℝ := if i = 0 then d.bx else if i = 1 then d.by_ else d.bz

/-- plasma.py:989-999, of the pressure `p`; `T` is the order in which the squares of the field are added -/
def betaOfR (R : Rounding) (T : Order) (K : Const) (d : RData) (p : ℝ) : ℝ :=
  let b := mag R T (field d)
  R.r (R.r (p / R.r (b * b)) * R.r (R.r (2 * K.mu0) * R.r (K.uPth / R.r (K.uB * K.uB))))

/-- plasma.py:1207-1214; ions.py:251-255 -/
def csOfR (R : Rounding) (K : Const) (p rho : ℝ) : ℝ :=
  R.r (R.r (Real.sqrt (R.r (R.r (R.r (p * K.uPth) / R.r (rho * K.uRho)) * K.gamma))) / K.uV)

/-- plasma.py:1240-1247 -/
def caOfR (R : Rounding) (T : Order) (pw : ℝ → ℝ → ℝ) (K : Const) (d : RData) (rho : ℝ) : ℝ :=
  R.r (R.r (pw rho (-(1 / 2)) * mag R T (field d)) * R.r (K.uB / R.r (R.r (Real.sqrt (R.r (K.uRho * K.mu0))) * K.uV)))

/-- plasma.py:1853-1868; ions.py:273-277 -/
def entropyOfR (R : Rounding) (pw : ℝ → ℝ → ℝ) (K : Const) (p rho : ℝ) : ℝ :=
  R.r (R.r (R.r (p * K.uPth) * pw (R.r (rho * K.uRho)) (-K.gamma)) / K.uS)

/-- plasma.py:1026-1033; ions.py:206-208 -/
def aniOfR (R : Rounding) (pw : ℝ → ℝ → ℝ) (par per : ℝ) : ℝ := R.r (pw par (-1) * pw per 1)

/-- a component (`f` of the species) of the centre-of-mass velocity: plasma.py:1076-1087 -/
def comOfR (R : Rounding) (S : Order) (K : Const) (d : RData) (ps : List String) (f : String → ℝ) : ℝ :=
  R.r (kahan R (ps.map fun s => R.r (f s * rhoR R K d s)) / rhoTotR R S K d ps)

/-- the squared drift of a species from the centre of mass: plasma.py:1166-1175 with 1124-1128 -/
def driftSqR (R : Rounding) (S : Order) (K : Const) (d : RData) (ps : List String) (s : String) : ℝ :=
  kahan R ([d.vx, d.vy, d.vz].map fun f => R.r (flow R (f s) (comOfR R S K d ps f) * flow R (f s) (comOfR R S K d ps f)))

/-- `pdynamic` of species in the frame of the centre of mass: plasma.py:1161-1177, 1187; `T` is the order of the last sum -/
def pdynamicR (R : Rounding) (S T : Order) (K : Const) (d : RData) (ps : List String) : ℝ :=
  R.r (across R T ps (fun s => R.r (driftSqR R S K d ps s * rhoR R K d s)) * R.r (R.r (R.r (1 / 2 * K.uRho) * R.r (K.uV * K.uV)) / K.uPth))

end
end Rnd
end SW
