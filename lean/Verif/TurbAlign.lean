import Verif.Turbulence
import Mathlib.Data.Finset.Sort

/-!
# `AlfvenicTurbulence.set_data` on inputs with different time stamps

core/alfvenic_turbulence.py:295-434 for velocity, field and density whose indices differ (the code logs a warning and goes on).  An
index is a set of time stamps in nanoseconds, each at most once; frames are kept in time order.  `DataFrame.divide(Series, axis=0)` and
`pd.concat(axis=1, sort=True)` take the union of the indices and put NaN where an input has no row.  Repeated stamps (pandas raises
or multiplies rows) are not modelled.
-/

namespace SW
noncomputable section
open Classical

/-- a series of numbers by time stamp -/
structure Stamped where
  idx : Finset ℤ
  val : ℤ → Fl

/-- the value at a stamp after `reindex`: NaN where there is no row -/
def Stamped.at (s : Stamped) (τ : ℤ) : Fl := if τ ∈ s.idx then s.val τ else .nan

/-- a frame with columns x, y, z by time stamp -/
structure Stamped3 where
  idx : Finset ℤ
  x : ℤ → Fl
  y : ℤ → Fl
  z : ℤ → Fl

def Stamped3.atx (s : Stamped3) (τ : ℤ) : Fl := if τ ∈ s.idx then s.x τ else .nan
def Stamped3.aty (s : Stamped3) (τ : ℤ) : Fl := if τ ∈ s.idx then s.y τ else .nan
def Stamped3.atz (s : Stamped3) (τ : ℤ) : Fl := if τ ∈ s.idx then s.z τ else .nan

/-- `b_in.divide(rho.pipe(np.sqrt), axis=0).multiply(coef)`, core/alfvenic_turbulence.py:333-339: rows of either input -/
def alignedField (coef : ℝ) (b : Stamped3) (rho : Stamped) : Stamped3 :=
  ⟨b.idx ∪ rho.idx, fun τ => alfvenUnits coef (rho.at τ) (b.atx τ), fun τ => alfvenUnits coef (rho.at τ) (b.aty τ),
   fun τ => alfvenUnits coef (rho.at τ) (b.atz τ)⟩

/-- the stamp of row `i` of a frame with this index -/
def stampOf (S : Finset ℤ) (i : ℕ) : ℤ := (S.sort (· ≤ ·)).getD i 0

/-- a column of the concatenated frame by row number -/
def column (S : Finset ℤ) (f : ℤ → Fl) (i : ℕ) : Fl := f (stampOf S i)

/-- `set_data` with `raffaella_version=False` on any three indices; the index of the stored frame and the object. -/
def turbSetAligned (coef : ℝ) (v b : Stamped3) (rho : Stamped) (species : Option String) (W : Window := .offset 900000000000)
    (mp : ℕ := 5) : Except PyErr (Finset ℤ × Turb) := do
  let sp ← turbSpecies species
  let bca := alignedField coef b rho
  let S := v.idx ∪ bca.idx
  windowCheck W mp
  let dv : V3s := ⟨column S v.atx, column S v.aty, column S v.atz⟩
  let db : V3s := ⟨column S bca.atx, column S bca.aty, column S bca.atz⟩
  return (S, { dv := fun i => dv.delta W mp (stampOf S) i, db := fun i => db.delta W mp (stampOf S) i, polarity := none, species := sp })

end
end SW
