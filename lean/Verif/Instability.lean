import Verif.Fl
import Verif.PyStr
import Mathlib.Data.List.Sort

/-!
# Model: instability thresholds (solarwindpy/instabilities/verscharen2016.py)

One row (beta, anisotropy) at a time; every step of the code is elementwise on the rows.
-/

namespace SW
namespace Insta

noncomputable section
open Classical

/-- verscharen2016.py:24 the four instabilities, in table order -/
inductive Kind where
  | AIC | FMW | MM | OFI
  deriving DecidableEq

/-- verscharen2016.py:24 sorted column order (also the order of the loop at line 360) -/
def kinds : List Kind := [.AIC, .FMW, .MM, .OFI]

/-- fit parameters a, b, c -/
structure Abc where
  a : ℝ
  b : ℝ
  c : ℝ

/-- verscharen2016.py:30-65 `insta_params` and 308-319 `set_instability_parameters` (after `int(growth_rate)`);
KeyError for other growth rates. -/
def params (growth : Int) : Except PyErr (Kind → Abc) :=
  if growth = -4 then .ok fun
    | .AIC => ⟨0.367, 0.364, 0.011⟩
    | .FMW => ⟨-0.408, 0.529, 0.41⟩
    | .MM => ⟨0.702, 0.674, -0.009⟩
    | .OFI => ⟨-1.454, 1.023, -0.178⟩
  else if growth = -3 then .ok fun
    | .AIC => ⟨0.437, 0.428, -0.003⟩
    | .FMW => ⟨-0.497, 0.566, 0.543⟩
    | .MM => ⟨0.801, 0.763, -0.063⟩
    | .OFI => ⟨-1.39, 1.005, -0.111⟩
  else if growth = -2 then .ok fun
    | .AIC => ⟨0.649, 0.4, 0.0⟩
    | .FMW => ⟨-0.647, 0.583, 0.713⟩
    | .MM => ⟨1.04, 0.633, -0.012⟩
    | .OFI => ⟨-1.447, 1.0, -0.148⟩
  else .error .keyError

/-- numpy `x ** b` for the exponents of the table (positive, integer only if 1) -/
def npow (x : Fl) (b : ℝ) : Fl := if b = 1 then x else Fl.rpow x b

/-- verscharen2016.py:107-140 `beta_ani_inst` -/
def threshold (beta : Fl) (p : Abc) : Fl := 1 + Fl.fin p.a / npow (beta - Fl.fin p.c) p.b

/-- verscharen2016.py:102-104 `_instability_tests`: greater for AIC, MM; less for FMW, OFI -/
def test : Kind → Fl → Fl → Prop
  | .AIC, r, t => Fl.lt t r
  | .MM, r, t => Fl.lt t r
  | .FMW, r, t => Fl.lt r t
  | .OFI, r, t => Fl.lt r t

/-- verscharen2016.py:348-357: the comparison, masked (None) where the threshold is NaN -/
def initial (p : Kind → Abc) (beta ani : Fl) (k : Kind) : Option Bool :=
  let t := threshold beta (p k)
  if t.isNaN then none else some (decide (test k ani t))

/-- verscharen2016.py:367-371: one pass of the loop: a missing entry becomes "all others are unstable", missing others
counting as False -/
def fillStep (k : Kind) (st : Kind → Option Bool) : Kind → Option Bool := fun j =>
  if j = k then
    match st k with
    | some b => some b
    | none => some ((kinds.filter (· ≠ k)).all (fun o => (st o).getD false))
  else st j

/-- verscharen2016.py:360-371: the columns are updated in place in order -/
def fillAll (st : Kind → Option Bool) : Kind → Option Bool := kinds.foldl (fun s k => fillStep k s) st

/-- verscharen2016.py:373-378: after the loop nothing may be missing -/
def isUnstable (p : Kind → Abc) (beta ani : Fl) : Except PyErr (Kind → Bool) :=
  let st := fillAll (initial p beta ani)
  if kinds.all (fun k => (st k).isSome) then .ok (fun k => (st k).getD false) else .error .valueError

/-- verscharen2016.py:380-411 `_calc_stability_bin`: masks applied in order to the fill value -/
def bin (u : Kind → Bool) : Except PyErr Int :=
  let b : Int := -9999
  let b := if kinds.all (fun k => !(u k)) then 2 else b
  let b := if u .AIC && !(u .MM) then 3 else b
  let b := if u .MM then 4 else b
  let b := if u .FMW && !(u .OFI) then 1 else b
  let b := if u .OFI then 0 else b
  if b = -9999 then .error .valueError else .ok b

/-- verscharen2016.py:350, 360 use `DataFrame.iteritems`, removed in pandas 2.0 -/
def iteritems (pandas : Nat) : Except PyErr Unit := if pandas < 2 then .ok () else .error .attributeError

/-- verscharen2016.py:165-178 construction of a `StabilityCondition`, one row: the stability bin -/
def stability (pandas : Nat) (growth : Int) (beta ani : Fl) : Except PyErr Int := do
  let p ← params growth
  iteritems pandas
  let u ← isUnstable p beta ani
  bin u

/-- verscharen2016.py:499-508 `plot_contours` reaches `Series.iteritems` before drawing; the kinds have been validated -/
def plotContours {α : Type} (pandas : Nat) (upper : List String) (draw : α) : Except PyErr α := do
  if upper.all (fun x => x ∈ ["AIC", "FMW", "MM", "OFI"]) then pure () else throw PyErr.valueError
  iteritems pandas
  return draw

/-- verscharen2016.py:567-588 legend handles: `none` is the blank rectangle -/
def legendHandles {H : Type} (im : Int → Kind → H) : List (Option H) :=
  [none, none, none, none, none,
   none, some (im (-2) .MM), some (im (-2) .AIC), some (im (-2) .FMW), some (im (-2) .OFI),
   none, some (im (-3) .MM), some (im (-3) .AIC), some (im (-3) .FMW), some (im (-3) .OFI),
   none, some (im (-4) .MM), some (im (-4) .AIC), some (im (-4) .FMW), some (im (-4) .OFI)]

/-- verscharen2016.py:591-612 legend labels -/
def legendLabels : List String :=
  ["", "$\\mathrm{AIC}$", "$\\mathrm{FMW}$", "$\\mathrm{MM}$", "$\\mathrm{OFI}$"] ++
  ["$-2$"] ++ ["", "", "", ""] ++ ["$-3$"] ++ ["", "", "", ""] ++ ["$-4$"] ++ ["", "", "", ""]

/-- matplotlib fills a legend column by column; with 20 entries and `ncol=4` (line 619) each column has 5 -/
def legendCell {β : Type} (l : List β) (row col : Nat) : Option β := l[col * 5 + row]?

/-! ## colours and names of the bins, verscharen2016.py:221-306 -/

/-- verscharen2016.py:221-232 `stability_map`, in the order of the source -/
def stabilityMap : List (Int × String) :=
  [(4, "MM"), (3, "Between\nAIC &\nMM"), (2, "Stable"), (1, "Between\nFMW &\nOFI"), (0, "OFI")]

/-- verscharen2016.py:234-238 `stability_map_inverse` -/
def stabilityMapInverse : List (String × Int) := stabilityMap.map fun kv => (kv.2, kv.1)

/-- verscharen2016.py:287-289 the tick formatter: `self.stability_map[val]`, KeyError off the bins -/
def tickText (val : ℝ) : Except PyErr String :=
  match stabilityMap.find? fun kv => decide ((kv.1 : ℝ) = val) with
  | some kv => .ok kv.2
  | none => .error .keyError

/-- verscharen2016.py:290 `sorted(self.stability_map.keys())` -/
def ticks : List Int := (stabilityMap.map (·.1)).insertionSort (· ≤ ·)

/-- verscharen2016.py:282-285 smallest and largest key, minus and plus one half -/
def normLimits : ℝ × ℝ := (((stabilityMap.map (·.1)).foldl min 4 : Int) - 1 / 2, ((stabilityMap.map (·.1)).foldl max 4 : Int) + 1 / 2)

/-- `mpl.colors.Normalize(vmin, vmax)` -/
def normalize (lim : ℝ × ℝ) (v : ℝ) : ℝ := (v - lim.1) / (lim.2 - lim.1)

/-- matplotlib's `Colormap.__call__` for `N` colours: `int(X * N)`, the last colour at X = 1, none (the under and over colours) outside -/
def colourIndex (N : Nat) (X : ℝ) : Option Nat :=
  if X < 0 ∨ 1 < X then none else if X = 1 then some (N - 1) else some ⌊X * N⌋₊

/-- matplotlib's `ListedColormap.resampled(lut)` of a list of `M` colours: entry `i` is the colour at `linspace(0, 1, lut)[i]` -/
def resampled (M lut : Nat) (i : Nat) : Option Nat := colourIndex M ((i : ℝ) / ((lut - 1 : Nat) : ℝ))

/-- verscharen2016.py:267-271 `plt.cm.get_cmap("Paired", len(self.stability_map))`; "Paired" has 12 colours.  `get_cmap` was removed from
`plt.cm` in matplotlib 3.9. -/
def cmapEntry (mpl : Nat × Nat) (i : Nat) : Except PyErr (Option Nat) :=
  if mpl.1 < 3 ∨ (mpl.1 = 3 ∧ mpl.2 < 9) then .ok (resampled 12 stabilityMap.length i) else .error .attributeError

/-- the colour (an entry of "Paired") a value is drawn in, with `cmap` and `norm` of the object -/
def colourOf (mpl : Nat × Nat) (v : ℝ) : Except PyErr (Option Nat) :=
  match colourIndex stabilityMap.length (normalize normLimits v) with
  | some i => cmapEntry mpl i
  | none => cmapEntry mpl 0 >>= fun _ => .ok none

/-- verscharen2016.py:292-306 `cbar_kwargs` builds the colour map, so it fails when that does -/
def cbarKwargs (mpl : Nat × Nat) : Except PyErr (List Int) := do
  let _ ← cmapEntry mpl 0
  return ticks

end
end Insta
end SW
