import Verif.RoundPhys2

/-!
# Model: Coulomb logarithm and collision rate with rounding

As in `Verif/RoundPhys.lean`: the formulas of `Verif/PlasmaPhys.lean` for measured values, in the order of operations of the source, every operation
rounded.  The logarithm, the exponential, the error function and the power -3 are library functions.
-/

namespace SW
namespace Rnd

noncomputable section

/-- temperature of a species in eV: plasma.py:1398-1399 -/
def tempEvR (R : Rounding) (K : Const) (d : RData) (s : String) : ℝ := R.r (R.r (tempR R K d "scalar" s * K.uT) * K.kbEV)

/-- `r0`, `r1`: plasma.py:1395-1396, 1401-1402 -/
def debyeR (R : Rounding) (K : Const) (d : RData) (s : String) : ℝ :=
  R.r (R.r (R.r (d.n s * K.uN) * R.r (K.chargeState s * K.chargeState s)) / tempEvR R K d s)

/-- argument of the logarithm: plasma.py:1390-1406 -/
def coulombR (R : Rounding) (K : Const) (d : RData) (a b : String) : ℝ :=
  let right := R.r (Real.sqrt (R.r (debyeR R K d a + debyeR R K d b)))
  let left := R.r (R.r (R.r (K.chargeState a * K.chargeState b) * R.r (K.mAmu a + K.mAmu b)) /
    R.r (R.r (K.mAmu a * tempEvR R K d b) + R.r (K.mAmu b * tempEvR R K d a)))
  R.r (left * right)

/-- `lnlambda` of two species, `lg` being `np.log`: plasma.py:1390-1408 (`units.lnlambda = 1`) -/
def lnlambdaR (R : Rounding) (lg : ℝ → ℝ) (K : Const) (d : RData) (a b : String) : ℝ := R.r (R.r 29.9 - lg (coulombR R K d a b))

/-- library functions of `nuc` -/
structure CollLib where
  erf : ℝ → ℝ
  exp : ℝ → ℝ
  powm3 : ℝ → ℝ

/-- longitudinal diffusion rate of the normalised drift `x`: plasma.py:1484-1486 -/
def ldrR (R : Rounding) (L : CollLib) (x : ℝ) : ℝ :=
  let c := R.r (2 / R.r (Real.sqrt (R.r Real.pi)))
  let ldr2 := R.r (x * R.r (c * L.exp (-R.r (x * x))))
  R.r (L.powm3 x * R.r (L.erf x - ldr2))

/-- plasma.py:1459-1464 -/
def collCoeffR (R : Rounding) (K : Const) (a b : String) : ℝ :=
  let q := R.r (R.r (K.charge a * K.charge a) * R.r (K.charge b * K.charge b))
  let mu := R.r (R.r (K.m a * K.m b) / R.r (K.m a + K.m b))
  R.r (q / R.r (R.r (R.r (R.r (4 * R.r Real.pi) * R.r (K.e0 * K.e0)) * K.m a) * mu))

/-- combined thermal speed: plasma.py:1471-1474 -/
def wabR (R : Rounding) (K : Const) (d : RData) (a b : String) : ℝ :=
  R.r (R.r (Real.sqrt (R.r (R.r (d.w a "par" * d.w a "par") + R.r (d.w b "par" * d.w b "par")))) * K.uV)

/-- rate of the longitudinal diffusion rate `ldr`: plasma.py:1466-1468, 1488-1491 -/
def rateR (R : Rounding) (L : CollLib) (K : Const) (d : RData) (lnl : ℝ) (a b : String) (ldr : ℝ) : ℝ :=
  R.r (R.r (collCoeffR R K a b * R.r (R.r (R.r (R.r (d.n b * K.uN) * lnl) * ldr) * L.powm3 (wabR R K d a b))) / K.uNuc)

/-- normalised drift of two species: plasma.py:1476-1477; vector.py:91-99 with 1124-1128, `T`: order of `mag` -/
def dvwR (R : Rounding) (T : Order) (K : Const) (d : RData) (a b : String) : ℝ :=
  R.r (R.r (mag R T (fun i => flow R (vel d i a) (vel d i b)) * K.uV) / wabR R K d a b)

/-- `nuc(a, b, both_species=False)`: plasma.py:1456-1491 -/
def nuabR (R : Rounding) (T : Order) (lg : ℝ → ℝ) (L : CollLib) (K : Const) (d : RData) (a b : String) : ℝ :=
  rateR R L K d (lnlambdaR R lg K d a b) a b (ldrR R L (dvwR R T K d a b))

/-- `nuc(a, b)`: plasma.py:1493-1502; the power 1 is exact, `inv` is the power -1.  The columns are sorted by name, which the product does not notice -/
def nucR (R : Rounding) (T : Order) (lg : ℝ → ℝ) (L : CollLib) (inv : ℝ → ℝ) (K : Const) (d : RData) (a b : String) : ℝ :=
  let nuab := nuabR R T lg L K d a b
  R.r (nuab + R.r (nuab * R.r (rhoR R K d a * inv (rhoR R K d b))))

end
end Rnd
end SW
