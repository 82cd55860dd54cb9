import Verif.PlasmaPhys
import Verif.Turbulence

/-!
# Model: `Plasma.build_alfvenic_turbulence` (core/plasma.py)

A plasma over time is one row `o i` per row number `i`, with time stamp `t i`; `isTime` says whether the index of the
plasma's frames is a `DatetimeIndex`.
-/

namespace SW
noncomputable section
open Classical

/-- A vector time series from its rows. -/
def V3s.ofRows (v : ℕ → V3) : V3s := ⟨fun i => (v i).x, fun i => (v i).y, fun i => (v i).z⟩

/-- The rows of a series computed row by row: pandas computes the column at once, so an exception is raised for the
whole column. The species arguments alone decide it, so that looking at row 0 is enough. -/
def rowsOf {α : Type} (dflt : α) (f : ℕ → Except PyErr (Res α)) : Except PyErr (ℕ → α) :=
  match f 0 with
  | .error e => .error e
  | .ok (.each _) => .error .other
  | .ok (.total _) => .ok fun i => match f i with
    | .ok (.total a) => a
    | _ => dflt

/-- the same for `dv`, which always gives one vector -/
def asRes {α : Type} : Except PyErr α → Except PyErr (Res α)
  | .error e => .error e
  | .ok a => .ok (.total a)

/-- the conversion factor of the field, core/alfvenic_turbulence.py:333-337 -/
def alfvenCoef (K : Const) : ℝ := K.uB / (Real.sqrt (K.uRho * K.mu0) * K.uV)

/-- The velocity and the mass density handed to the turbulence object, core/plasma.py:1796-1817 -/
def turbInputs (K : Const) (o : ℕ → Obs) (ions : List String) (species : String) :
    Except PyErr ((ℕ → V3) × (ℕ → Fl)) :=
  match pySplit ',' species with
  | [a] =>
    match chkSpecies ions [.str a] with
    | .error e => .error e
    | .ok _ =>
      match rowsOf ⟨.nan, .nan, .nan⟩ (fun i => velocity K (o i) ions [species] false) with
      | .error e => .error e
      | .ok v => match rowsOf .nan (fun i => massDensity K (o i) ions [species]) with
        | .error e => .error e
        | .ok r => .ok (v, r)
  | [a, b] =>
    match chkSpecies ions [.str a] with
    | .error e => .error e
    | .ok l0 => match chkSpecies ions [.str b] with
      | .error e => .error e
      | .ok l1 =>
        match rowsOf ⟨.nan, .nan, .nan⟩ (fun i => asRes (dv K (o i) ions (pyJoin '+' l0) (pyJoin '+' l1) false)) with
        | .error e => .error e
        | .ok v => match rowsOf .nan (fun i => massDensity K (o i) ions [pyJoin '+' l1]) with
          | .error e => .error e
          | .ok r => .ok (v, r)
  | _ => .error .valueError

/-- `Plasma.build_alfvenic_turbulence`, core/plasma.py:1776-1822; the `TypeError` for an index without times is
core/alfvenic_turbulence.py:316-321. -/
def buildTurb (K : Const) (o : ℕ → Obs) (ions : List String) (isTime : Bool) (t : ℕ → ℤ) (species : String)
    (W : Window := .offset 900000000000) (mp : ℕ := 5) : Except PyErr Turb :=
  match turbInputs K o ions species with
  | .error e => .error e
  | .ok (v, r) =>
    match turbSpecies (some species) with
    | .error e => .error e
    | .ok _ =>
      if isTime then
        turbSet ⟨t, V3s.ofRows v, V3s.ofRows (fun i => (o i).b), r, alfvenCoef K⟩ (some species) W mp
      else .error .typeError

end
end SW
