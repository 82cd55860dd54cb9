import Verif.PlasmaIO
import Verif.PlasmaPhys

/-!
# A plasma as an object: attributes, copies, histories of setters

Models `/repo/solarwindpy/core/plasma.py:199-257, 495-551, 598-789, 1712-1727` and the attribute protocol of Python as far as these use it.
-/

namespace SW
namespace PObj

/-! ## Attribute access

`object.__getattribute__` first looks in the class, then in the instance dictionary; if that raises `AttributeError`, including one raised by
the body of a property, `Plasma.__getattr__` is called. -/

/-- what attribute access returns -/
inductive Val where
  /-- a method or other class attribute -/
  | bound (name : String)
  /-- an instance variable -/
  | inst (name : String)
  /-- an ion -/
  | ion (species : String)
  deriving DecidableEq

/-- the properties of `Plasma` and the attribute of `self` their body reads: core/plasma.py:214-272, 530-538, 788-796, core/base.py:79-121
(`epoch` goes on to `.index` of the data, which does not matter here) -/
def properties : List (String × String) := [("epoch", "data"), ("spacecraft", "_spacecraft"), ("sc", "spacecraft"),
  ("auxiliary_data", "_auxiliary_data"), ("aux", "auxiliary_data"), ("log_plasma_at_init", "_log_plasma_at_init"), ("species", "_species"),
  ("ions", "_ions"), ("bfield", "_bfield"), ("b", "bfield"), ("logger", "_logger"), ("units", "_units"), ("constants", "_constants"),
  ("data", "_data")]

/-- the methods of `Plasma`, `Base`, `Core` and `object` -/
def methods : List String := ["__init__", "__getattr__", "set_log_plasma_stats", "save", "load_from_file", "_set_species", "_chk_species",
  "_set_ions", "drop_species", "set_spacecraft", "set_auxiliary_data", "_log_object_at_load", "set_data", "number_density", "n", "mass_density",
  "rho", "thermal_speed", "w", "pth", "temperature", "beta", "anisotropy", "velocity", "v", "dv", "pdynamic", "pdv", "sound_speed", "cs", "ca",
  "afsq", "caani", "lnlambda", "nuc", "nc", "vdf_ratio", "estimate_electrons", "heat_flux", "qpar", "build_alfvenic_turbulence", "S",
  "specific_entropy", "kinetic_energy_flux", "Wk",
  "mi_tuples", "_clean_species_for_setting", "head", "tail", "__str__", "__eq__", "_init_logger", "_init_units", "_init_constants",
  "_conform_species", "_verify_datetimeindex",
  "__class__", "__doc__", "__module__", "__dict__", "__weakref__", "__new__", "__repr__", "__hash__", "__getattribute__", "__setattr__",
  "__delattr__", "__lt__", "__le__", "__ne__", "__gt__", "__ge__", "__reduce_ex__", "__reduce__", "__getstate__", "__subclasshook__",
  "__init_subclass__", "__format__", "__sizeof__", "__dir__", "__abstractmethods__", "__annotations__", "_abc_impl"]

/-- a (possibly incompletely initialised) plasma: its instance variables and the index of `_ions` -/
structure Inst where
  vars : List String
  ions : List String

/-- attribute access with at most `n` nested calls; `none`: the calls nest deeper.  core/plasma.py:208-212; `super().__getattr__` does not
exist, so the fallback of the fallback is an `AttributeError` -/
def get (o : Inst) : Nat → String → Option (Except PyErr Val)
  | 0, _ => none
  | n + 1, a =>
    let fallback : Option (Except PyErr Val) :=
      match get o n "ions" with
      | none => none
      | some (.error e) => some (.error e)
      | some (.ok _) => if a ∈ o.ions then some (.ok (.ion a)) else some (.error .attributeError)
    match properties.lookup a with
    | some nxt =>
      match get o n nxt with
      | none => none
      | some (.ok v) => some (.ok v)
      | some (.error .attributeError) => fallback
      | some (.error e) => some (.error e)
    | none =>
      if a ∈ methods then some (.ok (.bound a))
      else if a ∈ o.vars then some (.ok (.inst a))
      else fallback

/-- `hasattr`: only `AttributeError` is turned into `False` -/
def hasAttr (o : Inst) (n : Nat) (a : String) : Option (Except PyErr Bool) :=
  match get o n a with
  | none => none
  | some (.ok _) => some (.ok true)
  | some (.error .attributeError) => some (.ok false)
  | some (.error e) => some (.error e)

/-- `copy.copy`, `copy.deepcopy` and `pickle.loads` create an object without instance variables, ask it for `__setstate__` and, if there is none,
fill in the instance variables (`copy._reconstruct`, `pickle.load_build`) -/
def rebuild (o : Inst) (n : Nat) : Option (Except PyErr Inst) :=
  match hasAttr ⟨[], []⟩ n "__setstate__" with
  | none => none
  | some (.error e) => some (.error e)
  | some (.ok _) => some (.ok o)

/-- the instance variables of a constructed plasma: core/plasma.py:199-206 -/
def fullVars : List String := ["_logger", "_species", "_log_plasma_at_init", "_units", "_constants", "_data", "_bfield", "_ions", "_spacecraft",
  "_auxiliary_data"]

/-! ## Histories of setters -/

/-- a frame with its time index -/
structure Tab where
  idx : List ℤ
  fr : Frame ℤ

/-- the state of a plasma: what was used to fill `data`, the magnetic field and the ions, and what is attached -/
structure PState where
  species : List String
  data : Tab
  bfield : Tab
  ions : List String
  ionData : Tab
  sc : Option (List ℤ)
  aux : Option (List ℤ × List Col)

/-- `Plasma.set_data`: core/plasma.py:724-786 on an existing plasma.  The data is stored (771) before the field is taken from it (784), the ions
are not taken again. -/
noncomputable def setData' (st : PState) (new : Tab) : Except PyErr Unit × PState :=
  if new.idx = [] ∨ new.fr = [] then (.error .valueError, st)
  else if !(plasmaM.all (fun m => (new.fr.cols.map Col.m).contains m)
      && plasmaC.all (fun c => (new.fr.cols.map Col.c).contains c)
      && (st.species ++ [""]).all (fun s => (new.fr.cols.map Col.s).contains s)) then (.error .keyError, st)
  else
    let data := (Frame.sel new.fr (keepCol st.species)).dropDup
    if (data.sel (fun c => c.m == "w" && (c.c == "par" || c.c == "per"))).isEmpty then (.error .keyError, st)
    else
      let d : Tab := ⟨new.idx, buildData st.species new.fr⟩
      let st1 := { st with data := d }
      if (data.sel (fun c => c.m == "b")).isEmpty then (.error .attributeError, st1)
      else if (data.sel (fun c => c.m == "b" && c.s == "")).isEmpty then (.error .keyError, st1)
      else if !(["x", "y", "z"].all (fun k => data.cols.contains ⟨"b", k, ""⟩)) then (.error .valueError, st1)
      else (.ok (), { st1 with bfield := d })

/-- `Plasma.set_spacecraft`, for a `Spacecraft` with the right column names: core/plasma.py:623-635 -/
def setSc' (st : PState) (new : Option (List ℤ)) : Except PyErr Unit × PState :=
  match new with
  | none => (.ok (), { st with sc := none })
  | some idx => if idx = st.data.idx then (.ok (), { st with sc := some idx }) else (.error .assertionError, st)

/-- `Plasma.set_auxiliary_data`, for a frame with a time index and the right column names: core/plasma.py:662-676 -/
def setAux' (st : PState) (new : Option (List ℤ × List Col)) : Except PyErr Unit × PState :=
  match new with
  | none => (.ok (), { st with aux := none })
  | some (idx, cols) =>
    if idx ≠ st.data.idx then (.error .assertionError, st)
    else if cols.any (fun c => st.data.fr.cols.contains c) then (.error .valueError, st)
    else (.ok (), { st with aux := some (idx, cols) })

/-- one row as the query methods see it: the ions' densities, velocities and thermal speeds, the field of `bfield` -/
def PState.obs (st : PState) (i : ℤ) : Obs :=
  let g := fun (t : Tab) (c : Col) => ((Frame.get t.fr c).map (· i)).getD .nan
  { n := fun s => g st.ionData ⟨"n", "", s⟩
    v := fun s => ⟨g st.ionData ⟨"v", "x", s⟩, g st.ionData ⟨"v", "y", s⟩, g st.ionData ⟨"v", "z", s⟩⟩
    w := fun s c => g st.ionData ⟨"w", c, s⟩
    b := ⟨g st.bfield ⟨"b", "x", ""⟩, g st.bfield ⟨"b", "y", ""⟩, g st.bfield ⟨"b", "z", ""⟩⟩ }

/-- the columns of the estimated electrons: core/plasma.py:1706-1716 -/
noncomputable def electronCols (K : Const) (st : PState) (tkw : String) : Frame ℤ :=
  let e := fun i => electronsOf K (st.obs i) st.species tkw
  [(⟨"n", "", "e"⟩, fun i => (e i).n), (⟨"v", "x", "e"⟩, fun i => (e i).v.x), (⟨"v", "y", "e"⟩, fun i => (e i).v.y),
    (⟨"v", "z", "e"⟩, fun i => (e i).v.z), (⟨"w", "par", "e"⟩, fun i => (e i).w), (⟨"w", "per", "e"⟩, fun i => (e i).w)]

/-- `Plasma._set_species` then `set_data` then `_set_ions`: core/plasma.py:1721-1725, 495-503, 540-551 -/
noncomputable def refill (st : PState) (species : List String) (new : Tab) : Except PyErr Unit × PState :=
  match cleanSpecies species with
  | .error e => (.error e, st)
  | .ok s0 =>
    match setData' { st with species := s0 } new with
    | (.error e, st1) => (.error e, st1)
    | (.ok _, st1) =>
      match setIonsSpecies s0 with
      | .error e => (.error e, st1)
      | .ok s1 =>
        match ionChecks st1.data.fr s1 with
        | .error e => (.error e, st1)
        | .ok _ => (.ok (), { st1 with species := s1, ions := s1, ionData := st1.data })

/-- `Plasma.estimate_electrons(inplace=True)` on a plasma whose ions and data share the time index: core/plasma.py:1639-1727.  Electron columns
already in the data (there are none in a constructed plasma without electrons) would only be overwritten. -/
noncomputable def electronsInplace (K : Const) (st : PState) : Except PyErr Unit × PState :=
  match protonOf st.species with
  | .error e => (.error e, st)
  | .ok tkw =>
    if st.data.fr.cols.any (fun c => (electronCols K st tkw).cols.contains c) then (.ok (), st)
    else refill st (pySorted (st.species ++ ["e"])) ⟨st.data.idx, st.data.fr ++ electronCols K st tkw⟩

/-- `Plasma(data, *species)`: core/plasma.py:199-206, through `mkPlasma` -/
noncomputable def construct (new : Tab) (species : List String) : Except PyErr PState :=
  if new.idx = [] then .error .valueError
  else match mkPlasma new.fr species with
    | .error e => .error e
    | .ok p => .ok ⟨p.species, ⟨new.idx, p.data⟩, ⟨new.idx, p.data⟩, p.species, ⟨new.idx, p.data⟩, none, none⟩

/-- what a user may call -/
inductive Op where
  | setData (new : Tab)
  | setSc (new : Option (List ℤ))
  | setAux (new : Option (List ℤ × List Col))
  | electrons

/-- one call; errors are the caller's business -/
noncomputable def step (K : Const) (st : PState) : Op → PState
  | .setData new => (setData' st new).2
  | .setSc new => (setSc' st new).2
  | .setAux new => (setAux' st new).2
  | .electrons => (electronsInplace K st).2

end PObj
end SW
