import Verif.Fl
import Verif.PyStr
import Verif.Vector

/-!
# Model: core/alfvenic_turbulence.py

All inputs share one time index (the code only warns otherwise; misaligned indices are not modelled).
A series is a function of the row number; `t i` is the time stamp of row `i` in integer nanoseconds.  For a time offset as window
the stamps must not decrease (pandas refuses unordered stamps; it accepts decreasing ones, which is not modelled).
-/

namespace SW
noncomputable section
open Classical

/-- The rolling window: a time offset in nanoseconds (`"15min"`) or a number of rows. -/
inductive Window where
  | offset (w : ℤ)
  | rows (n : ℕ)

/-- Rows in the (trailing, right-closed) window that ends at row `i`: pandas `rolling(window)` looks back from
the current row, excluding a row exactly one offset earlier. -/
def windowRows (W : Window) (t : ℕ → ℤ) (i : ℕ) : List ℕ :=
  match W with
  | .offset w => (List.range (i + 1)).filter (fun j => decide (t i - w < t j))
  | .rows n => (List.range (i + 1)).filter (fun j => decide (i < j + n))

/-- the measured (finite) values among the given rows; pandas' rolling kernels treat +-inf as missing -/
def measuredOf (x : ℕ → Fl) (rows : List ℕ) : List ℝ :=
  rows.filterMap (fun j => match x j with
    | .fin a => some a
    | _ => none)

/-- `rolling(window, min_periods).agg("mean")` at row `i` -/
def rollMean (W : Window) (minPeriods : ℕ) (t : ℕ → ℤ) (x : ℕ → Fl) (i : ℕ) : Fl :=
  let m := measuredOf x (windowRows W t i)
  if m.length < minPeriods then .nan else .fin m.sum / .fin m.length

/-- `deltas = data.subtract(agged)`, core/alfvenic_turbulence.py:420-425 -/
def delta (W : Window) (minPeriods : ℕ) (t : ℕ → ℤ) (x : ℕ → Fl) (i : ℕ) : Fl :=
  x i - rollMean W minPeriods t x i

/-- Unit conversion of the field to Alfven units, core/alfvenic_turbulence.py:333-339.
`coef = units.b / (sqrt(units.rho * mu0) * units.v)` is passed as one number. -/
def alfvenUnits (coef : ℝ) (rho b : Fl) : Fl := b / Fl.sqrt rho * .fin coef

/-- a vector time series -/
structure V3s where
  x : ℕ → Fl
  y : ℕ → Fl
  z : ℕ → Fl

/-- component-wise fluctuations -/
def V3s.delta (s : V3s) (W : Window) (mp : ℕ) (t : ℕ → ℤ) (i : ℕ) : V3 :=
  ⟨SW.delta W mp t s.x i, SW.delta W mp t s.y i, SW.delta W mp t s.z i⟩

/-- `np.sign` -/
def flSign : Fl → Fl
  | .nan => .nan
  | .pinf => .fin 1
  | .ninf => .fin (-1)
  | .fin a => if 0 < a then .fin 1 else if a < 0 then .fin (-1) else .fin 0

/-- `AlfvenicTurbulence._clean_species_for_setting`, core/alfvenic_turbulence.py:436-448;
`none` is a non-string argument. -/
def turbSpecies (species : Option String) : Except PyErr String :=
  match species with
  | none => .error .typeError
  | some s =>
    if 1 < s.toList.count ',' then .error .valueError
    else .ok (pyJoin ',' ((pySplit ',' s).map (fun p => pyJoin '+' (pySorted (pySplit '+' p)))))

/-- Inputs of `set_data` sharing one index. `sc` is the spacecraft vector: its position and its distance to the
Sun in metres (`distance2sun * units.distance2sun`). -/
structure TurbIn where
  t : ℕ → ℤ
  v : V3s
  b : V3s
  rho : ℕ → Fl
  coef : ℝ

/-- Stored state of an `AlfvenicTurbulence` object. -/
structure Turb where
  /-- `self.data["v"]` at row `i` -/
  dv : ℕ → V3
  /-- `self.data["b"]` at row `i` -/
  db : ℕ → V3
  /-- `self.polarity` -/
  polarity : Option (ℕ → Fl)
  species : String

/-- The field in Alfven units before averaging. -/
def TurbIn.bca (I : TurbIn) : V3s :=
  ⟨fun i => alfvenUnits I.coef (I.rho i) (I.b.x i), fun i => alfvenUnits I.coef (I.rho i) (I.b.y i),
   fun i => alfvenUnits I.coef (I.rho i) (I.b.z i)⟩

/-- `rolling(window, min_periods)` refuses a number of rows below `min_periods`, core/alfvenic_turbulence.py:423 -/
def windowCheck (W : Window) (mp : ℕ) : Except PyErr Unit :=
  match W with
  | .offset _ => .ok ()
  | .rows n => if n < mp then .error .valueError else .ok ()

/-- `set_data` with `raffaella_version=False`, core/alfvenic_turbulence.py:295-434. -/
def turbSet (I : TurbIn) (species : Option String) (W : Window := .offset 900000000000) (mp : ℕ := 5) :
    Except PyErr Turb := do
  let sp ← turbSpecies species
  windowCheck W mp
  return { dv := fun i => I.v.delta W mp I.t i, db := fun i => I.bca.delta W mp I.t i, polarity := none,
           species := sp }

/-- spacecraft information used by the rectified version: position row and distance in metres -/
structure ScIn where
  pos : ℕ → V3
  dist : ℕ → Fl

/-- the spiral correction `r * cos_colat * omega`, core/alfvenic_turbulence.py:385-407 -/
def spiralCorrection (sc : ScIn) (omega : ℝ) (i : ℕ) : Fl :=
  let p := sc.pos i
  let r := Fl.sqrt (Fl.sumAll [Fl.sq p.x, Fl.sq p.y, Fl.sq p.z])
  let rr := Fl.sqrt (Fl.sumAll [Fl.sq p.x, Fl.sq p.y])
  (sc.dist i * .fin (1 / 1000)) * (rr / r) * .fin omega

/-- the measurements after conversion GSE -> RTN and subtraction of the spiral speed -/
def raffV (I : TurbIn) (sc : ScIn) (omega : ℝ) : V3s :=
  ⟨fun i => I.v.x i * .fin (-1), fun i => I.v.y i * .fin (-1) - spiralCorrection sc omega i,
   fun i => I.v.z i * .fin 1⟩

/-- the field in RTN, Alfven units -/
def raffB (I : TurbIn) : V3s :=
  ⟨fun i => I.bca.x i * .fin (-1), fun i => I.bca.y i * .fin (-1), fun i => I.bca.z i * .fin 1⟩

/-- polarity, core/alfvenic_turbulence.py:412-418: sign of the in-plane `v . b` (NaN products skipped) -/
def raffPolarity (I : TurbIn) (sc : ScIn) (omega : ℝ) (i : ℕ) : Fl :=
  flSign (Fl.sumSkip [(raffV I sc omega).x i * (raffB I).x i, (raffV I sc omega).y i * (raffB I).y i])

/-- `set_data` with `raffaella_version=True`: the exception if `sc_vector is None`. -/
def turbSetRaff (I : TurbIn) (sc : Option ScIn) (omega : ℝ) (species : Option String)
    (W : Window := .offset 900000000000) (mp : ℕ := 5) : Except PyErr Turb := do
  let sp ← turbSpecies species
  match sc with
  | none => throw .valueError
  | some sc =>
    windowCheck W mp
    return { dv := fun i => (raffV I sc omega).delta W mp I.t i, db := fun i => (raffB I).delta W mp I.t i,
             polarity := some (raffPolarity I sc omega), species := sp }

namespace Turb

/-- `velocity`, core/alfvenic_turbulence.py:108-111 -/
def v (T : Turb) (i : ℕ) : V3 := T.dv i

/-- `bfield`, core/alfvenic_turbulence.py:118-129 -/
def b (T : Turb) (i : ℕ) : V3 :=
  match T.polarity with
  | none => T.db i
  | some p => ⟨(T.db i).x * p i, (T.db i).y * p i, (T.db i).z * p i⟩

/-- `z_plus`, core/alfvenic_turbulence.py:149-153 -/
def zp (T : Turb) (i : ℕ) : V3 := ⟨(T.v i).x + (T.b i).x, (T.v i).y + (T.b i).y, (T.v i).z + (T.b i).z⟩

/-- `z_minus`, core/alfvenic_turbulence.py:160-164 -/
def zm (T : Turb) (i : ℕ) : V3 := ⟨(T.v i).x - (T.b i).x, (T.v i).y - (T.b i).y, (T.v i).z - (T.b i).z⟩

/-- `0.5 * u.pow(2).sum(axis=1)` -/
def energy (u : V3) : Fl := .fin (1 / 2) * Fl.sumSkip [Fl.sq u.x, Fl.sq u.y, Fl.sq u.z]

/-- `e_plus`, core/alfvenic_turbulence.py:171-175 -/
def ep (T : Turb) (i : ℕ) : Fl := energy (T.zp i)
/-- `e_minus`, core/alfvenic_turbulence.py:182-186 -/
def em (T : Turb) (i : ℕ) : Fl := energy (T.zm i)
/-- `kinetic_energy`, core/alfvenic_turbulence.py:193-197 -/
def ev (T : Turb) (i : ℕ) : Fl := energy (T.v i)
/-- `magnetic_energy`, core/alfvenic_turbulence.py:204-210 -/
def eb (T : Turb) (i : ℕ) : Fl := energy (T.b i)
/-- `total_energy`, core/alfvenic_turbulence.py:217-220 -/
def etot (T : Turb) (i : ℕ) : Fl := T.ev i + T.eb i
/-- `residual_energy`, core/alfvenic_turbulence.py:227-230 -/
def eres (T : Turb) (i : ℕ) : Fl := T.ev i - T.eb i
/-- `normalized_residual_energy`, core/alfvenic_turbulence.py:237-240 -/
def sigmaR (T : Turb) (i : ℕ) : Fl := T.eres i / T.etot i
/-- `cross_helicity`, core/alfvenic_turbulence.py:252-258 -/
def crossHelicity (T : Turb) (i : ℕ) : Fl :=
  .fin (1 / 2) * Fl.sumSkip [(T.v i).x * (T.b i).x, (T.v i).y * (T.b i).y, (T.v i).z * (T.b i).z]
/-- `normalized_cross_helicity`, core/alfvenic_turbulence.py:260-268 -/
def sigmaC (T : Turb) (i : ℕ) : Fl := (T.ep i - T.em i) / (T.ep i + T.em i)
/-- `alfven_ratio`, core/alfvenic_turbulence.py:275-278 -/
def rA (T : Turb) (i : ℕ) : Fl := T.ev i / T.eb i
/-- `elsasser_ratio`, core/alfvenic_turbulence.py:285-288 -/
def rE (T : Turb) (i : ℕ) : Fl := T.em i / T.ep i

end Turb
end
end SW
