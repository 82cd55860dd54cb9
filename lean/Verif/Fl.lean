import Mathlib.Analysis.SpecialFunctions.Pow.Real
import Mathlib.Tactic.Linarith
import Mathlib.Tactic.Ring
import Mathlib.Tactic.FieldSimp
import Mathlib.Tactic.Positivity

/-!
# IEEE-754 values without rounding

`Fl` models the numpy/pandas `float64` used throughout `/repo/solarwindpy`: the special values
`nan`, `+inf`, `-inf` and *exact* reals.  Simplifications (see DESIGN.md): no rounding, no overflow of
finite results, no signed zeros.
-/

namespace SW

/-- numpy `float64`, exact. -/
inductive Fl where
  | nan
  | pinf
  | ninf
  | fin (r : ℝ)

namespace Fl
noncomputable section
open Classical

instance : Zero Fl := ⟨fin 0⟩
instance : One Fl := ⟨fin 1⟩
instance : Coe ℝ Fl := ⟨fin⟩
instance : Inhabited Fl := ⟨nan⟩

/-- `np.isnan` -/
def isNaN : Fl → Prop
  | nan => True
  | _ => False

/-- `np.isfinite` -/
def isFinite : Fl → Prop
  | fin _ => True
  | _ => False

/-- IEEE negation. -/
def neg : Fl → Fl
  | nan => nan
  | pinf => ninf
  | ninf => pinf
  | fin a => fin (-a)

/-- IEEE addition. -/
def add : Fl → Fl → Fl
  | nan, _ => nan
  | _, nan => nan
  | fin a, fin b => fin (a + b)
  | pinf, ninf => nan
  | ninf, pinf => nan
  | pinf, _ => pinf
  | _, pinf => pinf
  | ninf, _ => ninf
  | _, ninf => ninf

/-- signed infinity times a finite number of sign `a`. -/
def infMul (pos : Bool) (a : ℝ) : Fl :=
  if a = 0 then nan else if (0 < a) = (pos = true) then pinf else ninf

/-- IEEE multiplication. -/
def mul : Fl → Fl → Fl
  | nan, _ => nan
  | _, nan => nan
  | fin a, fin b => fin (a * b)
  | pinf, fin a => infMul true a
  | fin a, pinf => infMul true a
  | ninf, fin a => infMul false a
  | fin a, ninf => infMul false a
  | pinf, pinf => pinf
  | ninf, ninf => pinf
  | pinf, ninf => ninf
  | ninf, pinf => ninf

/-- IEEE division (zeros unsigned: `x/0` has the sign of `x`). -/
def div : Fl → Fl → Fl
  | nan, _ => nan
  | _, nan => nan
  | fin a, fin b =>
      if b = 0 then (if 0 < a then pinf else if a < 0 then ninf else nan) else fin (a / b)
  | fin _, pinf => fin 0
  | fin _, ninf => fin 0
  | pinf, fin b => if b < 0 then ninf else pinf
  | ninf, fin b => if b < 0 then pinf else ninf
  | pinf, pinf => nan
  | pinf, ninf => nan
  | ninf, pinf => nan
  | ninf, ninf => nan

instance : Neg Fl := ⟨neg⟩
instance : Add Fl := ⟨add⟩
instance : Sub Fl := ⟨fun a b => add a (neg b)⟩
instance : Mul Fl := ⟨mul⟩
instance : Div Fl := ⟨div⟩

/-- `np.sqrt` / `.pow(0.5)` -/
def sqrt : Fl → Fl
  | nan => nan
  | pinf => pinf
  | ninf => nan
  | fin a => if a < 0 then nan else fin (Real.sqrt a)

/-- `.pow(2)` -/
def sq (x : Fl) : Fl := x * x

/-- `.pow(3)` -/
def cube (x : Fl) : Fl := x * x * x

/-- `x ** e` for a non-integer exponent `e` (`Series.pow(-0.5)`, `rho.pow(-gamma)`, `10.0**x` is `exp10`). -/
def rpow (x : Fl) (e : ℝ) : Fl :=
  match x with
  | nan => nan
  | ninf => if e < 0 then fin 0 else pinf
  | pinf => if e < 0 then fin 0 else pinf
  | fin a => if a < 0 then nan else if a = 0 then (if e < 0 then pinf else fin 0) else fin (a ^ e)

/-- `np.log` -/
def log : Fl → Fl
  | nan => nan
  | pinf => pinf
  | ninf => nan
  | fin a => if a < 0 then nan else if a = 0 then ninf else fin (Real.log a)

/-- IEEE `<`. -/
def lt : Fl → Fl → Prop
  | nan, _ => False
  | _, nan => False
  | fin a, fin b => a < b
  | ninf, ninf => False
  | ninf, _ => True
  | _, ninf => False
  | pinf, _ => False
  | _, pinf => True

/-- IEEE `<=`. -/
def le : Fl → Fl → Prop
  | nan, _ => False
  | _, nan => False
  | fin a, fin b => a ≤ b
  | ninf, _ => True
  | _, pinf => True
  | _, ninf => False
  | pinf, _ => False

/-- absolute value -/
def abs : Fl → Fl
  | nan => nan
  | pinf => pinf
  | ninf => pinf
  | fin a => fin |a|

/-- `DataFrame.sum(axis=1, skipna=True)` / `groupby(...).sum()`: NaNs are skipped and the empty sum
is `0.0` (pandas `min_count=0`). -/
def sumSkip (l : List Fl) : Fl := l.foldr (fun x acc => if x.isNaN then acc else x + acc) 0

/-- `DataFrame.sum(axis=1, skipna=False)`. -/
def sumAll (l : List Fl) : Fl := l.foldr (fun x acc => x + acc) 0

/-- `DataFrame.product(axis=1)` / `groupby(...).prod()`: NaNs are skipped, empty product `1.0`. -/
def prodSkip (l : List Fl) : Fl := l.foldr (fun x acc => if x.isNaN then acc else x * acc) 1

/-! ### Computation rules -/

@[simp] theorem isNaN_nan : isNaN nan := trivial
@[simp] theorem isNaN_fin (a : ℝ) : ¬ isNaN (fin a) := id
@[simp] theorem isNaN_pinf : ¬ isNaN pinf := id
@[simp] theorem isNaN_ninf : ¬ isNaN ninf := id
@[simp] theorem isFinite_fin (a : ℝ) : isFinite (fin a) := trivial
@[simp] theorem not_isFinite_nan : ¬ isFinite nan := id
@[simp] theorem not_isFinite_pinf : ¬ isFinite pinf := id
@[simp] theorem not_isFinite_ninf : ¬ isFinite ninf := id

theorem isFinite_iff {x : Fl} : isFinite x ↔ ∃ a, x = fin a := by
  cases x <;> simp

theorem isNaN_iff {x : Fl} : isNaN x ↔ x = nan := by
  cases x <;> simp

theorem zero_def : (0 : Fl) = fin 0 := rfl
theorem one_def : (1 : Fl) = fin 1 := rfl
@[simp] theorem fin_add (a b : ℝ) : fin a + fin b = fin (a + b) := rfl
@[simp] theorem fin_neg (a : ℝ) : -fin a = fin (-a) := rfl
@[simp] theorem fin_sub (a b : ℝ) : fin a - fin b = fin (a - b) := by
  show fin (a + -b) = _; rw [sub_eq_add_neg]
@[simp] theorem fin_mul (a b : ℝ) : fin a * fin b = fin (a * b) := rfl
theorem fin_div (a b : ℝ) (h : b ≠ 0) : fin a / fin b = fin (a / b) := by
  show (if b = 0 then _ else _) = _; rw [if_neg h]
@[simp] theorem nan_add (x : Fl) : nan + x = nan := rfl
@[simp] theorem add_nan (x : Fl) : x + nan = nan := by cases x <;> rfl
@[simp] theorem nan_mul (x : Fl) : nan * x = nan := rfl
@[simp] theorem mul_nan (x : Fl) : x * nan = nan := by cases x <;> rfl
@[simp] theorem nan_div (x : Fl) : nan / x = nan := rfl
@[simp] theorem div_nan (x : Fl) : x / nan = nan := by cases x <;> rfl
@[simp] theorem neg_nan : -nan = nan := rfl
@[simp] theorem nan_sub (x : Fl) : nan - x = nan := rfl
@[simp] theorem sub_nan (x : Fl) : x - nan = nan := by cases x <;> rfl
@[simp] theorem sqrt_nan : sqrt nan = nan := rfl
@[simp] theorem sq_nan : sq nan = nan := rfl
@[simp] theorem sq_fin (a : ℝ) : sq (fin a) = fin (a ^ 2) := by
  show fin (a * a) = _; rw [pow_two]
@[simp] theorem cube_fin (a : ℝ) : cube (fin a) = fin (a ^ 3) := by
  show fin (a * a * a) = _; congr 1; ring
theorem sqrt_fin (a : ℝ) (h : 0 ≤ a) : sqrt (fin a) = fin (Real.sqrt a) := by
  show (if a < 0 then _ else _) = _; rw [if_neg (not_lt.mpr h)]
theorem rpow_fin (a e : ℝ) (h : 0 < a) : rpow (fin a) e = fin (a ^ e) := by
  show (if a < 0 then _ else if a = 0 then _ else _) = _
  rw [if_neg (not_lt.mpr h.le), if_neg h.ne']
theorem log_fin (a : ℝ) (h : 0 < a) : log (fin a) = fin (Real.log a) := by
  show (if a < 0 then _ else if a = 0 then _ else _) = _
  rw [if_neg (not_lt.mpr h.le), if_neg h.ne']
@[simp] theorem lt_fin (a b : ℝ) : lt (fin a) (fin b) ↔ a < b := Iff.rfl
@[simp] theorem le_fin (a b : ℝ) : le (fin a) (fin b) ↔ a ≤ b := Iff.rfl
@[simp] theorem not_lt_nan (x : Fl) : ¬ lt x nan := by cases x <;> exact id
@[simp] theorem not_nan_lt (x : Fl) : ¬ lt nan x := id
@[simp] theorem not_le_nan (x : Fl) : ¬ le x nan := by cases x <;> exact id
@[simp] theorem not_nan_le (x : Fl) : ¬ le nan x := id
@[simp] theorem fin_inj {a b : ℝ} : fin a = fin b ↔ a = b := ⟨fun h => by injection h, fun h => h ▸ rfl⟩

/-- the two comparisons agree: away from NaN the order is total, and `<` is the strict part of `<=` -/
theorem lt_iff_not_le (x y : Fl) (hx : ¬ x.isNaN) (hy : ¬ y.isNaN) : lt x y ↔ ¬ le y x := by
  cases x <;> cases y <;> simp_all [lt, le]

theorem neg_add_rev (x y : Fl) : -(x - y) = y - x := by
  cases x <;> cases y <;> first | rfl | (show fin _ = fin _; congr 1; ring)

theorem add_comm' (x y : Fl) : x + y = y + x := by
  cases x <;> cases y <;> first | rfl | (show fin _ = fin _; congr 1; ring)

theorem mul_comm' (x y : Fl) : x * y = y * x := by
  cases x <;> cases y <;> first | rfl | (show fin _ = fin _; congr 1; ring)

theorem sq_sub_comm (x y : Fl) : sq (x - y) = sq (y - x) := by
  cases x <;> cases y <;> first | rfl | (simp; ring)

instance : Std.Commutative (α := Fl) (· + ·) := ⟨add_comm'⟩

/-- Associativity holds except for cancelling infinities; it holds on non-infinite values. -/
theorem add_assoc_noninf (x y z : Fl) : (x + y) + z = x + (y + z) ∨
    (∃ s ∈ [x, y, z], s = pinf) ∨ (∃ s ∈ [x, y, z], s = ninf) := by
  cases x <;> cases y <;> cases z <;> simp [add_assoc]

@[simp] theorem sumSkip_nil : sumSkip [] = 0 := rfl
theorem sumSkip_cons (x : Fl) (l : List Fl) :
    sumSkip (x :: l) = if x.isNaN then sumSkip l else x + sumSkip l := rfl
@[simp] theorem sumSkip_cons_nan (l : List Fl) : sumSkip (nan :: l) = sumSkip l := by
  rw [sumSkip_cons, if_pos isNaN_nan]
@[simp] theorem sumSkip_cons_fin (a : ℝ) (l : List Fl) :
    sumSkip (fin a :: l) = fin a + sumSkip l := by
  rw [sumSkip_cons, if_neg (isNaN_fin a)]
@[simp] theorem sumAll_nil : sumAll [] = 0 := rfl
@[simp] theorem sumAll_cons (x : Fl) (l : List Fl) : sumAll (x :: l) = x + sumAll l := rfl
@[simp] theorem prodSkip_nil : prodSkip [] = 1 := rfl
@[simp] theorem prodSkip_cons_fin (a : ℝ) (l : List Fl) :
    prodSkip (fin a :: l) = fin a * prodSkip l := by
  show (if (fin a).isNaN then _ else _) = _
  rw [if_neg (isNaN_fin a)]; rfl
@[simp] theorem prodSkip_cons_nan (l : List Fl) : prodSkip (nan :: l) = prodSkip l := by
  show (if nan.isNaN then _ else _) = _
  rw [if_pos isNaN_nan]; rfl

/-- The NaN-skipping sum of finite values is the real sum. -/
theorem sumSkip_fin {α} (l : List α) (f : α → ℝ) :
    sumSkip (l.map fun a => fin (f a)) = fin (l.map f).sum := by
  induction l with
  | nil => rfl
  | cons a l ih => simp [ih]

theorem sumSkip_fin' {α} (l : List α) (F : α → Fl) (f : α → ℝ) (h : ∀ a ∈ l, F a = fin (f a)) :
    sumSkip (l.map F) = fin (l.map f).sum := by
  rw [← sumSkip_fin]; congr 1; exact List.map_congr_left h

theorem sumAll_fin' {α} (l : List α) (F : α → Fl) (f : α → ℝ) (h : ∀ a ∈ l, F a = fin (f a)) :
    sumAll (l.map F) = fin (l.map f).sum := by
  induction l with
  | nil => rfl
  | cons a l ih =>
    have h1 := h a (by simp)
    have h2 := ih (fun b hb => h b (by simp [hb]))
    simp [h1, h2]

/-- A NaN-propagating sum is NaN as soon as one term is. -/
theorem sumAll_nan (l : List Fl) (h : nan ∈ l) : sumAll l = nan := by
  induction l with
  | nil => simp at h
  | cons x l ih =>
    rcases List.mem_cons.mp h with h | h
    · rw [← h]; simp
    · rw [sumAll_cons, ih h]; simp

end
end Fl
end SW
