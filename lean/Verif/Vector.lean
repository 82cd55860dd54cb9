import Verif.Fl
import Verif.PyStr
import Mathlib.Analysis.SpecialFunctions.Complex.Arg
import Mathlib.Analysis.SpecialFunctions.Trigonometric.Arctan

/-!
# Model: core/vector.py and core/tensor.py, one row at a time

`np.arctan2(y, x)` is modelled, for finite arguments, by `Complex.arg (x + i y)` (IEEE signed zeros are not
distinguished); a NaN argument gives NaN. `np.rad2deg(x)` is `x * 180 / π`.
-/

namespace SW
noncomputable section
open Classical

/-- One row of a `Vector`'s Cartesian data. -/
structure V3 where
  x : Fl
  y : Fl
  z : Fl

namespace V3

/-- a fully measured row -/
def ofReal (x y z : ℝ) : V3 := ⟨.fin x, .fin y, .fin z⟩

/-- `Vector.mag`, core/vector.py:73-84 (`skipna=False`). -/
def mag (v : V3) : Fl := Fl.sqrt (Fl.sumAll [Fl.sq v.x, Fl.sq v.y, Fl.sq v.z])

/-- `Vector.rho`, core/vector.py:97-108. -/
def rho (v : V3) : Fl := Fl.sqrt (Fl.sumAll [Fl.sq v.x, Fl.sq v.y])

/-- `np.rad2deg(np.arctan2(y, x))` for finite arguments, NaN when one is NaN (infinities: not modelled, NaN). -/
def atan2deg (y x : Fl) : Fl :=
  match y, x with
  | .fin a, .fin b => .fin (Complex.arg ⟨b, a⟩ * 180 / Real.pi)
  | _, _ => .nan

/-- `Vector.colatitude`, core/vector.py:121-132. -/
def colatitude (v : V3) : Fl := atan2deg v.z v.rho

/-- `Vector.latitude`, core/vector.py:145-155. -/
def latitude (v : V3) : Fl := atan2deg v.rho v.z

/-- `Vector.longitude`, core/vector.py:157-168. -/
def longitude (v : V3) : Fl := atan2deg v.y v.x

/-- `Vector.unit_vector`, core/vector.py:204-215. -/
def uv (v : V3) : V3 := ⟨v.x / v.mag, v.y / v.mag, v.z / v.mag⟩

/-- `Vector.project`, parallel part, core/vector.py:228-266: `par = (cart * uv).sum(axis=1)`, NaN skipped. -/
def projPar (v b : V3) : Fl := Fl.sumSkip [v.x * b.uv.x, v.y * b.uv.y, v.z * b.uv.z]

/-- `Vector.project`, perpendicular part. -/
def projPer (v b : V3) : Fl :=
  Fl.sqrt (Fl.sumSkip [Fl.sq (v.x - b.uv.x * projPar v b), Fl.sq (v.y - b.uv.y * projPar v b),
    Fl.sq (v.z - b.uv.z * projPar v b)])

/-- `Vector.cos_theta`, core/vector.py:268-293. -/
def cosTheta (v b : V3) : Fl := Fl.sumSkip [v.uv.x * b.uv.x, v.uv.y * b.uv.y, v.uv.z * b.uv.z]

end V3

/-- `BField.pressure`, core/vector.py:299-320. -/
def bPressure (uB mu0 uPth : ℝ) (b : V3) : Fl := Fl.sq b.mag * .fin (uB ^ 2 / (2 * mu0 * uPth))

/-- Attributes a `Vector`/`Tensor` instance has: resolving a name that is not among them falls through to
`__getattr__`, which neither class (nor any base) defines. `attrs` is the list of defined attribute names. -/
def getAttribute (attrs : List String) (name : String) : Except PyErr Unit :=
  if attrs.contains name then .ok () else .error .attributeError

/-- Names defined on `Vector` and its bases (core/vector.py, core/base.py) -- `__getattr__` is not among
them. -/
def vectorAttrs : List String :=
  ["__init__", "__call__", "__str__", "__eq__", "set_data", "mag", "magnitude", "rho", "colat", "colatitude", "lat", "latitude",
   "longitude", "lon", "r", "cartesian", "unit_vector", "uv", "project", "cos_theta", "logger", "units",
   "constants", "data", "head", "tail", "mi_tuples"]

/-- Names defined on `Tensor` and its bases (core/tensor.py, core/base.py). -/
def tensorAttrs : List String :=
  ["__init__", "__call__", "__str__", "__eq__", "set_data", "_validate_data", "magnitude", "logger", "units",
   "constants", "data", "head", "tail", "mi_tuples"]

/-- `Vector.__call__(component)`, core/vector.py:33-46: `return self.__getattr__(component)`. -/
def vectorCall (_component : String) : Except PyErr Unit := getAttribute vectorAttrs "__getattr__"

/-- `Tensor.__call__(component)`, core/tensor.py:30-49. -/
def tensorCall (_component : String) : Except PyErr Unit := getAttribute tensorAttrs "__getattr__"

/-- State of a `Tensor`: the stored frame. Constructor, core/tensor.py:19-28: validates and stores. `ok` says
whether the frame has the required columns "per", "par", "scalar". -/
def tensorInit {F : Type} (ok : F → Bool) (data : F) : Except PyErr F :=
  if ok data then .ok data else .error .valueError

/-- `Tensor.set_data(new)`, core/tensor.py:51-65: validates only; returns the stored frame afterwards. -/
def tensorSetData {F : Type} (ok : F → Bool) (stored new : F) : Except PyErr Unit × F :=
  (if ok new then .ok () else .error .valueError, stored)

/-- `Vector.set_data(new)`, core/vector.py:48-70: validates and stores. -/
def vectorSetData {F : Type} (ok : F → Bool) (stored new : F) : Except PyErr Unit × F :=
  if ok new then (.ok (), new) else (.error .valueError, stored)

/-! ### Helper lemmas -/
namespace V3

theorem mag_ofReal (x y z : ℝ) : (ofReal x y z).mag = .fin (Real.sqrt (x ^ 2 + y ^ 2 + z ^ 2)) := by
  unfold mag ofReal
  simp only [Fl.sq_fin, Fl.sumAll_cons, Fl.sumAll_nil, Fl.zero_def, Fl.fin_add]
  rw [Fl.sqrt_fin _ (by positivity)]; congr 2; ring

theorem rho_ofReal (x y z : ℝ) : (ofReal x y z).rho = .fin (Real.sqrt (x ^ 2 + y ^ 2)) := by
  unfold rho ofReal
  simp only [Fl.sq_fin, Fl.sumAll_cons, Fl.sumAll_nil, Fl.zero_def, Fl.fin_add]
  rw [Fl.sqrt_fin _ (by positivity)]; congr 2; ring

/-- squared length -/
def nsq (x y z : ℝ) : ℝ := x ^ 2 + y ^ 2 + z ^ 2

theorem nsq_pos {x y z : ℝ} (h : (x, y, z) ≠ (0, 0, 0)) : 0 < nsq x y z := by
  unfold nsq
  by_contra hn
  apply h
  have hx : x ^ 2 = 0 := le_antisymm (by nlinarith [sq_nonneg x, sq_nonneg y, sq_nonneg z]) (sq_nonneg x)
  have hy : y ^ 2 = 0 := le_antisymm (by nlinarith [sq_nonneg x, sq_nonneg y, sq_nonneg z]) (sq_nonneg y)
  have hz : z ^ 2 = 0 := le_antisymm (by nlinarith [sq_nonneg x, sq_nonneg y, sq_nonneg z]) (sq_nonneg z)
  simp only [pow_eq_zero_iff, ne_eq, OfNat.ofNat_ne_zero, not_false_eq_true] at hx hy hz
  rw [hx, hy, hz]

theorem uv_ofReal (x y z : ℝ) (h : (x, y, z) ≠ (0, 0, 0)) :
    (ofReal x y z).uv = ofReal (x / Real.sqrt (nsq x y z)) (y / Real.sqrt (nsq x y z))
      (z / Real.sqrt (nsq x y z)) := by
  have hp : Real.sqrt (nsq x y z) ≠ 0 := (Real.sqrt_pos.mpr (nsq_pos h)).ne'
  unfold uv
  rw [mag_ofReal]
  change V3.mk (Fl.fin x / Fl.fin (Real.sqrt (nsq x y z))) (Fl.fin y / Fl.fin (Real.sqrt (nsq x y z)))
    (Fl.fin z / Fl.fin (Real.sqrt (nsq x y z))) = _
  rw [Fl.fin_div _ _ hp, Fl.fin_div _ _ hp, Fl.fin_div _ _ hp]
  rfl

theorem projPar_ofReal (x y z a b c : ℝ) (h : (a, b, c) ≠ (0, 0, 0)) :
    projPar (ofReal x y z) (ofReal a b c) = .fin ((x * a + y * b + z * c) / Real.sqrt (nsq a b c)) := by
  unfold projPar
  rw [uv_ofReal a b c h]
  simp only [ofReal, Fl.fin_mul, Fl.sumSkip_cons_fin, Fl.sumSkip_nil, Fl.zero_def, Fl.fin_add]
  congr 1; ring

theorem projPer_ofReal (x y z a b c : ℝ) (h : (a, b, c) ≠ (0, 0, 0)) :
    projPer (ofReal x y z) (ofReal a b c) =
      .fin (Real.sqrt (nsq x y z - (x * a + y * b + z * c) ^ 2 / nsq a b c)) := by
  have hp := nsq_pos h
  have hs := Real.sq_sqrt hp.le
  have hs0 : Real.sqrt (nsq a b c) ≠ 0 := (Real.sqrt_pos.mpr hp).ne'
  unfold projPer
  rw [projPar_ofReal x y z a b c h, uv_ofReal a b c h]
  simp only [ofReal, Fl.fin_mul, Fl.fin_sub, Fl.sq_fin, Fl.sumSkip_cons_fin, Fl.sumSkip_nil, Fl.zero_def,
    Fl.fin_add]
  rw [Fl.sqrt_fin _ (by positivity)]
  congr 2
  set r := Real.sqrt (nsq a b c) with hr
  have hn : nsq a b c = r ^ 2 := hs.symm
  rw [hn]
  have hn' : a ^ 2 + b ^ 2 + c ^ 2 = r ^ 2 := hn
  field_simp
  unfold nsq
  set d := x * a + y * b + z * c with hd
  have : (r ^ 2 * x - a * d) ^ 2 + ((r ^ 2 * y - b * d) ^ 2 + ((r ^ 2 * z - c * d) ^ 2)) =
      r ^ 2 * (r ^ 2 * (x ^ 2 + y ^ 2 + z ^ 2) - d ^ 2) := by
    have : (r ^ 2 * x - a * d) ^ 2 + ((r ^ 2 * y - b * d) ^ 2 + ((r ^ 2 * z - c * d) ^ 2)) =
      r ^ 2 * r ^ 2 * (x ^ 2 + y ^ 2 + z ^ 2) - 2 * r ^ 2 * d * (x * a + y * b + z * c) +
        (a ^ 2 + b ^ 2 + c ^ 2) * d ^ 2 := by ring
    rw [this, ← hd, hn']; ring
  nlinarith [this]

end V3
end
end SW
