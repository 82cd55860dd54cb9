import Verif.RoundPhys
import Verif.Instability

/-!
# Model: stability bins with rounding

`Verif/Instability.lean` with every operation rounded.  The decimal literals of the table are rounded to numbers of the format when the file is read; numpy's
power is a library function `pw`, about which the theorems say what they assume.
-/

namespace SW
namespace Rnd

noncomputable section
open Classical Insta

/-- a finite result is rounded, the special values are kept -/
def rnd (R : Rounding) : Fl → Fl
  | .fin x => .fin (R.r x)
  | y => y

/-- the entries of the table as read by Python: verscharen2016.py:30-65, 135-139 (`float(a)` of a float) -/
def readIn (R : Rounding) (p : Abc) : Abc := ⟨R.r p.a, R.r p.b, R.r p.c⟩

/-- `x ** b` with a positive exponent: verscharen2016.py:140; power one is exact, a negative base under another power is NaN -/
def npowR (pw : ℝ → ℝ → ℝ) (x : Fl) (b : ℝ) : Fl :=
  if b = 1 then x else
    match x with
    | .nan => .nan
    | .pinf => .pinf
    | .ninf => .pinf
    | .fin a => if a < 0 then .nan else .fin (pw a b)

/-- `beta_ani_inst`: verscharen2016.py:107-140 -/
def thresholdR (R : Rounding) (pw : ℝ → ℝ → ℝ) (beta : Fl) (p : Abc) : Fl :=
  let q := readIn R p
  rnd R (1 + rnd R (Fl.fin q.a / npowR pw (rnd R (beta - Fl.fin q.c)) q.b))

/-- verscharen2016.py:348-357, the comparison, missing where the threshold is NaN -/
def initialR (R : Rounding) (pw : ℝ → ℝ → ℝ) (p : Kind → Abc) (beta ani : Fl) (k : Kind) : Option Bool :=
  let t := thresholdR R pw beta (p k)
  if t.isNaN then none else some (decide (test k ani t))

/-- verscharen2016.py:360-411: the missing entries are filled and the bin is chosen as in `Insta.stability` (pandas < 2) -/
def stabilityR (R : Rounding) (pw : ℝ → ℝ → ℝ) (growth : Int) (beta ani : Fl) : Except PyErr Int := do
  let p ← params growth
  let st := fillAll (initialR R pw p beta ani)
  if kinds.all (fun k => (st k).isSome) then bin (fun k => (st k).getD false) else .error .valueError

end
end Rnd
end SW
