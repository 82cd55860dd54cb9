import Verif.PlasmaData

/-!
# Model: swapping proton populations (solarwindpy/tools/__init__.py)
-/

namespace SW
namespace Swap

open _root_.SW.Frame
noncomputable section
open Classical

/-- tools/__init__.py:67-68 `data.xs(s, axis=1, level="S")`: the columns of one species, labelled by `(M, C)`.
KeyError if there is none. -/
def xs {ι : Type} (f : Frame ι) (s : String) : Except PyErr (List ((String × String) × (ι → Fl))) :=
  if s ∈ f.cols.map Col.s then
    .ok ((f.filter (fun p => p.1.s = s)).map (fun p => ((p.1.m, p.1.c), p.2)))
  else .error .keyError

/-- tools/__init__.py:70-71 `p1.n`: the number density. AttributeError without a column of measurement "n". Modelled for
frames where "n" has the single component "". -/
def density {ι : Type} (p : List ((String × String) × (ι → Fl))) : Except PyErr (ι → Fl) :=
  match p.find? (fun q => q.1.1 = "n") with
  | none => .error .attributeError
  | some q => if q.1.2 = "" then .ok q.2 else .error .other

/-- tools/__init__.py:73 `n2.divide(n1) > 1.0` -/
def swapMask {ι : Type} (n1 n2 : ι → Fl) (i : ι) : Prop := Fl.lt 1 (n2 i / n1 i)

/-- tools/__init__.py:76-81 `p1.mask(swap, p2_into_p1, axis=0)`: on swapped rows the values of the other population.
`dropna(how="all")` of lines 76-77 drops no swapped row (its density is not NaN), so it is not modelled. -/
def exchange {ι : Type} (swap : ι → Prop) (p q : List ((String × String) × (ι → Fl))) :
    List ((String × String) × (ι → Fl)) :=
  List.zipWith (fun a b => (a.1, fun i => if swap i then b.2 i else a.2 i)) p q

/-- label of the column recording the swaps (tools/__init__.py:74) -/
def swappedCol : Col := ⟨"swapped_protons", "", ""⟩

/-- tools/__init__.py:83-85: the species label is put back -/
def relabel {ι : Type} (s : String) (p : List ((String × String) × (ι → Fl))) : Frame ι :=
  p.map (fun q => (⟨q.1.1, q.1.2, s⟩, q.2))

/-- the Boolean column as numbers -/
def asFl {ι : Type} (swap : ι → Prop) (i : ι) : Fl := if swap i then Fl.fin 1 else Fl.fin 0

/-- tools/__init__.py:96 `chk <= 1` after dropping NaN, for one row -/
def checkRow (x : Fl) : Prop := x.isNaN ∨ Fl.le x 1

/-- tools/__init__.py:35-112 `swap_protons`. Simplifications: the order of the columns (`sort_index`) is not modelled;
modelled for equal label lists of p1 and p2 only (`other` otherwise: pandas then replaces by position); logging omitted. -/
def swapProtons {ι : Type} (f : Frame ι) : Except PyErr (Frame ι × (ι → Prop)) := do
  let p1 ← xs f "p1"
  let p2 ← xs f "p2"
  let n1 ← density p1
  let n2 ← density p2
  let swap := swapMask n1 n2
  if p1.map Prod.fst = p2.map Prod.fst then
    let new : Frame ι := f.filter (fun p => p.1.s ≠ "p1" ∧ p.1.s ≠ "p2") ++
      relabel "p1" (exchange swap p1 p2) ++ relabel "p2" (exchange swap p2 p1) ++ [(swappedCol, asFl swap)]
    match Frame.get new ⟨"n", "", "p2"⟩ with
    | none => .error .keyError
    | some m2 => if ∀ i, checkRow (m2 i / m2 i) then .ok (new, swap) else .error .assertionError
  else .error .other

end
end Swap
end SW
