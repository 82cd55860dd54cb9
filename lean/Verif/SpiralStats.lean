import Verif.Spiral

/-!
# Model: what `SpiralMesh.calculate_bin_number` reports about the mesh

`/repo/solarwindpy/plotting/spiral.py:358-404`.  Times and texts of the messages are not modelled, only which messages there are and the numbers in them.
-/

namespace SW
namespace Spiral

noncomputable section
open Classical

/-- the numbers in the messages, and the result: spiral.py:374-404; `none`: no message -/
structure BinReport where
  zbin : List Int
  /-- number of fill values (warning of 374-380) -/
  outside : Option Nat
  /-- `bin_frequency` -/
  freq : List Nat
  /-- "Largest bin population" -/
  largest : Nat
  /-- "... bins are empty" -/
  empty : Nat
  /-- "bins went unvisited" -/
  unvisited : Option Nat
  /-- "bins visited more than once" -/
  repeated : Option Nat

/-- `np.bincount(ids, minlength=n)` of nonnegative numbers; numpy's array is longer than `n` if a number is `n` or more -/
def bincount (ids : List Int) (n : Nat) : List Nat :=
  (List.range (max n (ids.foldl (fun a z => max a (z.toNat + 1)) 0))).map fun i : Nat => ids.count (i : Int)

/-- `bin_visited`: spiral.py:50, 59; the loop reaches the bins in the order `order` -/
def visits (n : Nat) (order : List Nat) : List Nat := (List.range n).map fun i => order.count i

/-- `calculate_bin_number`: spiral.py:358-404.  `bin_frequency.max()` of an empty array is a ValueError. -/
def binReport (mesh : List Cell) (order : List Nat) (pts : List Pt) : Except PyErr BinReport :=
  let zbin := pts.map (binNumber mesh order)
  let seen := visits mesh.length order
  let freq := bincount (zbin.filter (· ≠ fillBin)) mesh.length
  if freq = [] then .error .valueError
  else if (mesh.length : Int) - freq.length ≠ 0 then .error .valueError
  else .ok ⟨zbin, if fillBin ∈ zbin then some (zbin.count fillBin) else none, freq, freq.foldl max 0, freq.count 0,
    if seen.all (· ≠ 0) then none else some (seen.count 0),
    if seen.any (1 < ·) then some (seen.countP (1 < ·)) else none⟩

end
end Spiral
end SW
