import Verif.Rounded

/-!
# Model: densities of histograms with rounding

The normalisations `"d"`, `"cd"`, `"rd"` of counts on linear axes (`Verif/Hist.lean` with exact reals), every operation rounded.  Counts and their sums are
integers in pandas; they are taken to be exact (below `2^53`).
-/

namespace SW
namespace Rnd

noncomputable section

/-- `IntervalIndex.length`: `right - left` of the bin between the edges `e i` and `e (i + 1)` -/
def width (R : Rounding) (e : ℕ → ℝ) (i : ℕ) : ℝ := R.r (e (i + 1) - e i)

/-- `agg.divide(dx.multiply(n))`: hist1d.py:178-183; `k` bins with counts `c` -/
def density1R (R : Rounding) (k : ℕ) (e : ℕ → ℝ) (c : ℕ → ℕ) (i : ℕ) : ℝ :=
  R.r ((c i : ℝ) / R.r (width R e i * ((∑ j ∈ Finset.range k, c j : ℕ) : ℝ)))

/-- `agg.divide(dx, level="x").divide(dy, level="y").divide(N)`: hist2d.py:180-197; `k` by `l` bins -/
def density2R (R : Rounding) (k l : ℕ) (ex ey : ℕ → ℝ) (c : ℕ → ℕ → ℕ) (i j : ℕ) : ℝ :=
  R.r (R.r (R.r ((c i j : ℝ) / width R ex i) / width R ey j) / ((∑ a ∈ Finset.range k, ∑ b ∈ Finset.range l, c a b : ℕ) : ℝ))

/-- `agg.divide(N, level="x").divide(dy, level="y")`: hist2d.py:199-207, column `i` -/
def columnR (R : Rounding) (l : ℕ) (ey : ℕ → ℝ) (c : ℕ → ℕ → ℕ) (i j : ℕ) : ℝ :=
  R.r (R.r ((c i j : ℝ) / ((∑ b ∈ Finset.range l, c i b : ℕ) : ℝ)) / width R ey j)

/-- `agg.divide(N, level="y").divide(dx, level="x")`: hist2d.py:209-217, row `j` -/
def rowR (R : Rounding) (k : ℕ) (ex : ℕ → ℝ) (c : ℕ → ℕ → ℕ) (i j : ℕ) : ℝ :=
  R.r (R.r ((c i j : ℝ) / ((∑ a ∈ Finset.range k, c a j : ℕ) : ℝ)) / width R ex i)

end
end Rnd
end SW
