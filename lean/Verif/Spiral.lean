import Verif.Fl
import Verif.PyStr
import Mathlib.Data.List.Sort

/-!
# Adaptive mesh ("spiral") plots

Models `/repo/solarwindpy/plotting/spiral.py`: edges, refinement loop, bin numbers, cell filter.  Coordinates of cells are exact
reals, data are `Fl` (they may be missing or infinite).  Drawing and the contour interpolation are not modelled.
-/

namespace SW
namespace Spiral

noncomputable section
open Classical

/-- a mesh row `[x0, x1, y0, y1]` -/
structure Cell where
  x0 : ℝ
  x1 : ℝ
  y0 : ℝ
  y1 : ℝ

abbrev Pt := Fl × Fl

/-- `(x >= x0) & (x < x1) & (y >= y0) & (y < y1)`: spiral.py:33-38, 56. -/
def inCell (c : Cell) (p : Pt) : Prop :=
  Fl.le (.fin c.x0) p.1 ∧ Fl.lt p.1 (.fin c.x1) ∧ Fl.le (.fin c.y0) p.2 ∧ Fl.lt p.2 (.fin c.y1)

/-- `get_counts_per_bin` for one bin: spiral.py:27-41. -/
def cellCount (pts : List Pt) (c : Cell) : Nat := pts.countP (fun p => decide (inCell c p))

/-- `np.quantile(d, q)` (linear interpolation) of sorted data `s`. -/
def quantile (s : List ℝ) (q : ℝ) : ℝ :=
  let h := q * ((s.length : ℝ) - 1)
  let k := ⌊h⌋₊
  s.getD k 0 + (h - k) * (s.getD (k + 1) (s.getD k 0) - s.getD k 0)

/-- `np.max` of a list. -/
def npMax : List ℝ → ℝ
  | [] => 0
  | a :: l => l.foldl max a

/-- `b[-1] = np.max([0.01, 1.01 * b.max()])`: spiral.py:547. -/
def extendLast (b : List ℝ) : List ℝ := b.dropLast ++ [max 0.01 (1.01 * npMax b)]

/-- `calc_initial_bins` for an integer number of bins: spiral.py:535-547 (`d` are the finite data). -/
def initialBins (d : List ℝ) (n : Nat) : List ℝ :=
  extendLast ((List.range (n + 1)).map (fun i : Nat => quantile (d.insertionSort (· ≤ ·)) ((i : ℝ) / n)))

/-- `calc_initial_bins` for an array of edges: returns (edges used, the caller's array afterwards); the array is modified in place. -/
def initialBinsArray (b : List ℝ) : List ℝ × List ℝ := (extendLast b, extendLast b)

/-- `initialize_bins`: spiral.py:173-198. -/
def initialMesh (xb yb : List ℝ) : List Cell :=
  (xb.zip xb.tail).flatMap (fun a => (yb.zip yb.tail).map (fun b => ⟨a.1, a.2, b.1, b.2⟩))

/-- `split_this_cell`: spiral.py:212-226. -/
def split (c : Cell) : List Cell :=
  let xh := 0.5 * (c.x0 + c.x1)
  let yh := 0.5 * (c.y0 + c.y1)
  [⟨c.x0, xh, c.y0, yh⟩, ⟨xh, c.x1, c.y0, yh⟩, ⟨xh, c.x1, yh, c.y1⟩, ⟨c.x0, xh, yh, c.y1⟩]

/-- The refinement state: finished cells (rows of earlier arrays that were not overwritten with NaN) and the active array. -/
abbrev State := List Cell × List Cell

/-- one pass of the loop: `process_one_spiral_step`, spiral.py:200-237, 333-341. -/
def step (m : Nat) (pts : List Pt) (s : State) : State :=
  (s.1 ++ s.2.filter (fun c => decide (cellCount pts c ≤ m)),
   (s.2.filter (fun c => decide (m < cellCount pts c))).flatMap split)

/-- the mesh of a state: spiral.py:343-346 (`vstack`, NaN rows dropped) -/
def State.mesh (s : State) : List Cell := s.1 ++ s.2

/-- `while nbins_to_replace > 0`: spiral.py:333-341, at most `fuel` tests; `none`: still running. -/
def run (m : Nat) (pts : List Pt) : Nat → State → Option (List Cell)
  | 0, _ => none
  | fuel + 1, s => if ∀ c ∈ s.2, cellCount pts c ≤ m then some s.mesh else run m pts fuel (step m pts s)

/-- the data the refinement looks at: spiral.py:303-317. -/
def inMesh (init : List Cell) (pts : List Pt) : List Pt :=
  pts.filter (fun p => decide (p.1.isFinite ∧ p.2.isFinite ∧
    (∃ c ∈ init, Fl.le (.fin c.x0) p.1) ∧ (∃ c ∈ init, Fl.le p.1 (.fin c.x1)) ∧
    (∃ c ∈ init, Fl.le (.fin c.y0) p.2) ∧ (∃ c ∈ init, Fl.le p.2 (.fin c.y1))))

/-- `generate_mesh`: spiral.py:291-356. -/
def generate (m : Nat) (pts : List Pt) (init : List Cell) (fuel : Nat) : Option (List Cell) :=
  run m (inMesh init pts) fuel ([], init)

/-- `fill = -9999`: spiral.py:46. -/
def fillBin : Int := -9999

/-- `calculate_bin_number_with_numba` for one datum: spiral.py:44-61; `order` is the order in which the parallel loop
(`prange`) reaches the bins. -/
def binNumber (mesh : List Cell) (order : List Nat) (p : Pt) : Int :=
  order.foldl (fun (z : Int) (i : Nat) => if ∃ c, mesh[i]? = some c ∧ inCell c p then (i : Int) else z) fillBin

/-- `build_cat`: spiral.py:411-421.  `Categorical.remove_categories` has no `inplace` argument in pandas ≥ 2 (required by
pyproject.toml:37): TypeError. -/
def buildCat (ids : List Int) : Except PyErr (List Int) :=
  if fillBin ∈ ids then .error .typeError else .ok ids

/-- `if size:` / `if density:`, spiral.py:121, 125: a missing (`False`) or zero threshold is off -/
def active (q : Option ℝ) : Option ℝ := q.filter (fun v => decide (v ≠ 0))

/-- `np.quantile` rejects quantiles outside [0,1] -/
def badQuantile (q : Option ℝ) : Prop := ∃ v, active q = some v ∧ ¬ (0 ≤ v ∧ v ≤ 1)

/-- `cell_filter`: spiral.py:101-137; `size`/`density` thresholds or off.  Returns one flag per cell; `np.bincount` rejects
negative ids.  Cell areas are non-zero (a zero area would divide by zero). -/
def cellFilter (mesh : List Cell) (ids : List Int) (size density : Option ℝ) : Except PyErr (List Bool) :=
  if badQuantile size ∨ badQuantile density then .error .valueError else
  let dA := mesh.map (fun c => (c.x1 - c.x0) * (c.y1 - c.y0))
  let tk := dA.map (fun a => match active size with
    | none => true
    | some q => decide (a < quantile (dA.insertionSort (· ≤ ·)) q))
  match active density with
  | none => .ok tk
  | some q =>
      if ∃ z ∈ ids, z < 0 then .error .valueError
      else
        let dens := (List.range mesh.length).map (fun i : Nat => ((ids.count (i : Int) : ℕ) : ℝ) / dA.getD i 0)
        .ok (List.zipWith (fun b d => b && decide (quantile (dens.insertionSort (· ≤ ·)) q < d)) tk dens)

end
end Spiral
end SW
