import Verif.Hist
import Verif.Spiral

/-!
# Orbit plots, scatter plots, colour bars

Models `/repo/solarwindpy/plotting/orbits.py`, `scatter.py`, the colour-bar helper of `base.py`, and from `hist2d.py`
`_limit_color_norm` and `id_data_above_contour`.  Times are integers.  Drawing itself is not modelled: a drawn colour bar is the axes
it is attached to.
-/

namespace SW
namespace Orb

noncomputable section
open Classical

/-! ### Orbit legs -/

/-- order of `IntervalIndex.sort_values`: by left, then right end -/
def lexLe (a b : Int × Int) : Prop := a.1 < b.1 ∨ (a.1 = b.1 ∧ a.2 ≤ b.2)

/-- `OrbitPlot.set_orbit`: orbits.py:49-53.  `isIvl`: the argument is an `IntervalIndex` (right-closed intervals `(l, r]`, `l < r`);
`sort_values` is lexicographic. -/
def setOrbit (isIvl : Bool) (o : List (Int × Int)) : Except PyErr (List (Int × Int)) :=
  if isIvl then .ok (o.insertionSort lexLe) else .error .typeError

inductive Leg where
  | inbound
  | outbound
  deriving DecidableEq

/-- `IntervalIndex.is_overlapping` of right-closed intervals: `pd.cut` refuses such bins -/
def overlapping (o : List (Int × Int)) : Prop := ¬ o.Pairwise (fun a b => a.2 ≤ b.1 ∨ b.2 ≤ a.1)

/-- orbits.py:59-63: the interval holding the time, the first one renamed "Inbound", the second "Outbound", others missing -/
def leg (a b : Int × Int) (t : Int) : Option Leg :=
  if a.1 < t ∧ t ≤ a.2 then some .inbound else if b.1 < t ∧ t ≤ b.2 then some .outbound else none

/-- the "Orbit" column of `OrbitPlot.make_cut`: orbits.py:55-73 -/
def legs (o : List (Int × Int)) (times : List Int) : Except PyErr (List (Option Leg)) :=
  if overlapping o then .error .valueError
  else
    match o with
    | a :: b :: _ => .ok (times.map (leg a b))
    | _ => .error .indexError

/-! ### Aggregation by leg -/

/-- cell of a 3-level aggregate: `grouped` (orbits.py:34-38) does not pass `observed`, so every combination of x bin, y bin and leg
occurs, with count 0 and a missing mean where there are no data (pandas 2). -/
def legVal (zs : List Fl) (cuts : List (Option Nat × Option Nat × Option Leg)) (fcn : Option Hist.Fcn) (c0 c1 : Option ℝ)
    (l : Leg) (i j : Nat) : Fl :=
  if Hist.climKeep c0 c1 (Hist.count (Hist.grp zs cuts (some i, some j, some l))) then
    Hist.aggVal (Hist.chooseFcn fcn zs) (Hist.grp zs cuts (some i, some j, some l))
  else .nan

/-- a value for every leg and cell -/
abbrev LGrid := Leg → Hist.Grid

/-- `Hist2D._axis_normalizer` (hist2d.py:163-232) on the 3-level aggregate, reached through `Hist2D.agg` (orbits.py:187): columns,
rows and totals run over both legs. -/
def normBoth (ex ey : List ℝ) (logx logy : Bool) (axnorm : Option String) (a : LGrid) : Except PyErr LGrid :=
  let nx := ex.length - 1
  let ny := ey.length - 1
  match axnorm with
  | none => .ok a
  | some s =>
    if s = "c" then .ok (fun l i j => a l i j / Act.gmax (Hist.col (a .inbound) ny i ++ Hist.col (a .outbound) ny i))
    else if s = "r" then .ok (fun l i j => a l i j / Act.gmax (Hist.row (a .inbound) nx j ++ Hist.row (a .outbound) nx j))
    else if s = "t" then .ok (fun l i j => a l i j / Act.gmax (Hist.cells (a .inbound) nx ny ++ Hist.cells (a .outbound) nx ny))
    else if s = "d" then
      .ok (fun l i j => a l i j / .fin (Hist.dens logx (Hist.width ex i)) / .fin (Hist.dens logy (Hist.width ey j)) /
        Fl.sumSkip (Hist.cells (a .inbound) nx ny ++ Hist.cells (a .outbound) nx ny))
    else if s = "cd" then
      .ok (fun l i j => a l i j / Fl.sumSkip (Hist.col (a .inbound) ny i ++ Hist.col (a .outbound) ny i) / .fin (Hist.width ey j))
    else if s = "rd" then
      .ok (fun l i j => a l i j / Fl.sumSkip (Hist.row (a .inbound) nx j ++ Hist.row (a .outbound) nx j) / .fin (Hist.width ex i))
    else .error .valueError

/-- `OrbitHist2D.agg`: orbits.py:183-211: `Hist2D.agg` (normalise, then the value limits, hist2d.py:234-249) and then the normaliser
again within each leg (`_disable_both` is always true) -/
def orbitAgg (ex ey : List ℝ) (logx logy : Bool) (axnorm : Option String) (a0 a1 : Option ℝ) (a : LGrid) : Except PyErr LGrid := do
  let g ← normBoth ex ey logx logy axnorm a
  let m : LGrid := fun l i j => Hist.alimMask a0 a1 (g l i j)
  let gi ← Hist.norm2 ex ey logx logy axnorm (m .inbound)
  let go ← Hist.norm2 ex ey logx logy axnorm (m .outbound)
  .ok (fun l => match l with
    | .inbound => gi
    | .outbound => go)

/-! ### Drawing a leg -/

/-- `_limit_color_norm(norm)` hist2d.py:258-270, for z data `zs` (finite numbers).  A norm is its `(vmin, vmax, clip)`. -/
structure CNorm where
  vmin : Option ℝ
  vmax : Option ℝ
  clip : Bool

def limitNorm (axnorm : Option String) (zs : List ℝ) (norm : Option CNorm) : Except PyErr (Option CNorm) :=
  if axnorm = some "c" ∨ axnorm = some "r" then .ok norm
  else
    match norm with
    | none => .error .attributeError
    | some n => .ok (some ⟨some (n.vmin.getD (Spiral.quantile (zs.insertionSort (· ≤ ·)) 0.01)),
      some (n.vmax.getD (Spiral.quantile (zs.insertionSort (· ≤ ·)) 0.99)), true⟩)

/-- the default `norm` of `Hist2D.make_plot`: hist2d.py:378-386; `user`: the keyword `norm` -/
def defaultNorm (axnorm : Option String) (user : Option (Option CNorm)) : Option CNorm :=
  match user with
  | some n => n
  | none =>
    if axnorm = some "c" ∨ axnorm = some "r" then some ⟨some 0, some 1, true⟩
    else if axnorm = some "d" ∨ axnorm = some "cd" ∨ axnorm = some "rd" then some ⟨none, none, true⟩
    else none

/-- the colour limits of `Hist2D.make_plot(limit_color_norm)`: hist2d.py:378-389 -/
def hist2dNorm (axnorm : Option String) (zs : List ℝ) (user : Option (Option CNorm)) (limit : Bool) : Except PyErr (Option CNorm) :=
  if limit then limitNorm axnorm zs (defaultNorm axnorm user) else .ok (defaultNorm axnorm user)

/-- the colour scale of `OrbitHist2D._put_agg_on_ax`: orbits.py:280-286 -/
def aggNorm (axnorm : Option String) (zs : List ℝ) (user : Option (Option CNorm)) (limit : Bool) : Except PyErr (Option CNorm) :=
  let norm := match user with
    | some n => n
    | none => if axnorm = some "c" ∨ axnorm = some "r" then some ⟨some 0, some 1, false⟩ else none
  if limit then limitNorm axnorm zs norm else .ok norm

/-- `OrbitHist2D._put_agg_on_ax`: orbits.py:266-301; the colour-bar helper takes one positional argument (hist2d.py:251) but gets two -/
def putAgg (axnorm : Option String) (zs : List ℝ) (user : Option (Option CNorm)) (limit cbar : Bool) : Except PyErr Unit := do
  let _ ← aggNorm axnorm zs user limit
  if cbar then .error .typeError else .ok ()

/-- the leg named by `kind`: orbits.py:333-342 (`kind.lower()[0]` of an empty text is an IndexError, which is not caught) -/
def kindOf (kind : String) : Except PyErr Leg :=
  match kind.toList with
  | [] => .error .indexError
  | c :: _ =>
    if c.toLower = 'i' then .ok .inbound
    else if c.toLower = 'o' then .ok .outbound
    else if c.toLower = 'b' then .error .notImplemented
    else .error .valueError

/-- `make_one_plot`: orbits.py:303-353, with an aggregate that could be computed -/
def makeOne (kind : String) (axnorm : Option String) (zs : List ℝ) (user : Option (Option CNorm)) (limit cbar : Bool) :
    Except PyErr Leg := do
  let l ← kindOf kind
  let _ ← putAgg axnorm zs user limit cbar
  .ok l

/-- `make_in_out_plot`: orbits.py:355-391: inbound without, outbound with colour bar -/
def makeInOut (axnorm : Option String) (zs : List ℝ) (user : Option (Option CNorm)) (limit cbar : Bool) : Except PyErr Unit := do
  let _ ← putAgg axnorm zs user limit false
  putAgg axnorm zs user limit cbar

/-- `_format_in_out_axes`: orbits.py:138-143: x limits (left, right) of the two axes -/
def inOutLimits (i o : ℝ × ℝ) : (ℝ × ℝ) × (ℝ × ℝ) :=
  let x0 := min (min i.1 i.2) (min o.1 o.2)
  let x1 := max (max i.1 i.2) (max o.1 o.2)
  ((x1, x0), (x0, x1))

/-! ### Scatter plots -/

/-- a `pd.Series` with distinct integer labels -/
abbrev Ser := List (Int × Fl)

def Ser.get (s : Ser) (k : Int) : Fl :=
  match s.find? (fun p => decide (p.1 = k)) with
  | some p => p.2
  | none => .nan

/-- index of `pd.DataFrame({"x": x, "y": y})`: kept if equal, else the sorted union -/
def unionIdx (a b : List Int) : List Int := if a = b then a else ((a ++ b).dedup).insertionSort (· ≤ ·)

/-- one point: label, x, y, z -/
structure Pt where
  k : Int
  x : Fl
  y : Fl
  z : Fl

/-- the z column: 1 everywhere unless given: base.py:267-270 -/
def zAt (z : Option Ser) (k : Int) : Fl :=
  match z with
  | none => .fin 1
  | some z => z.get k

/-- `PlotWithZdata.set_data`: base.py:264-278 -/
def setData (x y : Ser) (z : Option Ser) : Except PyErr (List Pt) :=
  let rows := (unionIdx (x.map Prod.fst) (y.map Prod.fst)).map (fun k =>
    (⟨k, x.get k, y.get k, zAt z k⟩ : Pt))
  let d := rows.filter (fun p => decide (¬ p.x.isNaN ∧ ¬ p.y.isNaN ∧ ¬ p.z.isNaN))
  if d = [] then .error .valueError else .ok d

/-- the keywords `ax` and `cax` in the caller's `cbar_kwargs` dictionary -/
structure CbKw where
  ax : Option Nat
  cax : Option Nat
  deriving DecidableEq

/-- `CbarMaker._make_cbar`: base.py:229-256: the axes the colour bar goes to -/
def makeCbar (kw : CbKw) : Except PyErr Nat :=
  match kw.ax, kw.cax with
  | some _, some _ => .error .valueError
  | some a, none => .ok a
  | none, some c => .ok c
  | none, none => .error .valueError

/-- the colour bar of a plot on axes `ax`, and the caller's dictionary afterwards: scatter.py:85-92 (same text at hist2d.py:397-405,
620-625, 775-778, spiral.py:682-690, 722-725) -/
def addCbar (ax : Nat) (kw : Option CbKw) : Except PyErr Nat × Option CbKw :=
  match kw with
  | none => (makeCbar ⟨some ax, none⟩, none)
  | some k =>
    let k' : CbKw := if k.cax = none ∧ k.ax = none then { k with ax := some ax } else k
    (makeCbar k', some k')

/-- `Scatter.make_plot`: scatter.py:64-98.  Result: whether the points are coloured, and the colour bar's axes.  `clip`: the class has
no `clip_data`. -/
def scatterPlot (data : List Pt) (clip : Bool) (cbar : Bool) (ax : Nat) (kw : Option CbKw) :
    Except PyErr (Bool × Option Nat) × Option CbKw :=
  if clip then (.error .attributeError, kw)
  else
    let colour := decide (1 < ((data.map Pt.z).dedup).length)
    if cbar ∧ colour then
      match addCbar ax kw with
      | (.ok c, kw') => (.ok (colour, some c), kw')
      | (.error e, kw') => (.error e, kw')
    else (.ok (colour, none), kw)

/-! ### Data above a contour -/

/-- position of the first and last cell of a column with value at least `level` -/
def hull (ny : Nat) (level : ℝ) (v : Nat → Fl) : Option (Nat × Nat) :=
  let idx := (List.range ny).filter (fun j => decide (Fl.le (.fin level) (v j)))
  match idx.head?, idx.getLast? with
  | some b, some t => some (b, t)
  | _, _ => none

/-- one column of `Hist2D.id_data_above_contour`: hist2d.py:1124-1129; the extreme interval of an empty selection has no `left` -/
def aboveCol (ex ey : List ℝ) (level : ℝ) (i : Nat) (v : Nat → Fl) (data : List (Fl × Fl)) (acc : List (Option Nat)) :
    Except PyErr (List (Option Nat)) :=
  match hull (ey.length - 1) level v with
  | none => .error .attributeError
  | some (b, t) =>
    .ok (List.zipWith (fun (d : Fl × Fl) o =>
      if Hist.inIvl (ex.getD i 0) (ex.getD (i + 1) 0) d.1 ∧ Hist.inIvl (ey.getD b 0) (ey.getD (t + 1) 0) d.2 then some i else o) data acc)

/-- `Hist2D.id_data_above_contour`: hist2d.py:1104-1135.  `cols`: the x bins occurring in the aggregate. -/
def idAbove (ex ey : List ℝ) (level : ℝ) (g : Hist.Grid) (data : List (Fl × Fl)) : List Nat → List (Option Nat) →
    Except PyErr (List (Option Nat))
  | [], acc => .ok acc
  | i :: is, acc => do
    let acc ← aboveCol ex ey level i (g i) data acc
    idAbove ex ey level g data is acc

end
end Orb
end SW
