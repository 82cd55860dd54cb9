import Verif.Rounded
import Verif.Spiral

/-!
# Model: the adaptive mesh with rounded midpoints

`Verif/Spiral.lean` with the only arithmetic of the refinement, the midpoint, computed with rounding.
-/

namespace SW
namespace Rnd

open Spiral

noncomputable section

/-- `0.5 * (x0 + x1)`: spiral.py:210 -/
def midpoint (R : Rounding) (a b : ℝ) : ℝ := R.r (1 / 2 * R.r (a + b))

/-- `split_this_cell`: spiral.py:212-226 -/
def splitR (R : Rounding) (c : Cell) : List Cell :=
  let xh := midpoint R c.x0 c.x1
  let yh := midpoint R c.y0 c.y1
  [⟨c.x0, xh, c.y0, yh⟩, ⟨xh, c.x1, c.y0, yh⟩, ⟨xh, c.x1, yh, c.y1⟩, ⟨c.x0, xh, yh, c.y1⟩]

/-- one pass of the loop: spiral.py:200-237, 333-341 -/
def stepR (R : Rounding) (m : ℕ) (pts : List Pt) (s : State) : State :=
  (s.1 ++ s.2.filter (fun c => decide (cellCount pts c ≤ m)),
   (s.2.filter (fun c => decide (m < cellCount pts c))).flatMap (splitR R))

open Classical in
/-- `while nbins_to_replace > 0`: spiral.py:333-341, at most `fuel` tests; `none`: still running -/
def runR (R : Rounding) (m : ℕ) (pts : List Pt) : ℕ → State → Option (List Cell)
  | 0, _ => none
  | fuel + 1, s => if ∀ c ∈ s.2, cellCount pts c ≤ m then some s.mesh else runR R m pts fuel (stepR R m pts s)

/-- `generate_mesh`: spiral.py:291-356 -/
def generateR (R : Rounding) (m : ℕ) (pts : List Pt) (init : List Cell) (fuel : ℕ) : Option (List Cell) :=
  runR R m (inMesh init pts) fuel ([], init)

/-- the last edge, `np.max([0.01, 1.01 * b.max()])`, where `M` is the largest edge: spiral.py:547; the decimal literals are rounded too -/
def lastEdge (R : Rounding) (M : ℝ) : ℝ := max (R.r (1 / 100)) (R.r (R.r (101 / 100) * M))

end
end Rnd
end SW
