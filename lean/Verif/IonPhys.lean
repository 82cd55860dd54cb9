import Verif.PlasmaPhys

/-!
# Model: the physics properties of one `Ion` (core/ions.py), one row at a time

`rhoS` (`PlasmaPhys`) is `Ion.mass_density`, `pthS` and `tempS` are one component of `Ion.pth` and `Ion.temperature`. The components of the thermal
speed are those of the data the ion was built from: `par` and `per` are required, `scalar` is not (core/ions.py:136-146); `comps` lists them (others than
these three are not modelled).
-/

namespace SW
noncomputable section
open Classical

variable (K : Const) (o : Obs)

/-- `product(axis=1, skipna=False)` of two factors -/
def prod2 (x y : Fl) : Fl := x * y

/-- `Ion.w`, core/ions.py:166-173: a `Tensor` of the thermal speeds, whose constructor wants all three components, core/tensor.py:67-83; every
property below that uses the thermal speed goes through it. -/
def ionW (comps : List String) : Except PyErr Unit :=
  if ["per", "par", "scalar"].all (fun c => comps.contains c) then .ok () else .error .valueError

/-- `Ion.pth`, core/ions.py:229-241, by component -/
def ionPth (comps : List String) (s : String) : Except PyErr (List (String × Fl)) :=
  (ionW comps).map (fun _ => comps.map (fun c => (c, pthS K o c s)))

/-- `Ion.temperature`, core/ions.py:213-226, by component -/
def ionTemp (comps : List String) (s : String) : Except PyErr (List (String × Fl)) :=
  (ionW comps).map (fun _ => comps.map (fun c => (c, tempS K o c s)))

/-- `Ion.anisotropy`, core/ions.py:198-210: the product does not skip missing factors. -/
def ionAnisotropy (comps : List String) (s : String) : Except PyErr Fl :=
  (ionW comps).map (fun _ => prod2 (.fin 1 / pthS K o "par" s) (pthS K o "per" s))

/-- one component of `Ion.cs`, core/ions.py:244-257: the scalar polytropic index for every component -/
def csS (c s : String) : Fl :=
  Fl.sqrt ((pthS K o c s * .fin K.uPth) / (rhoS K o s * .fin K.uRho) * .fin K.gamma) / .fin K.uV

/-- `Ion.cs`, core/ions.py:244-257, by component -/
def ionCs (comps : List String) (s : String) : Except PyErr (List (String × Fl)) :=
  (ionW comps).map (fun _ => comps.map (fun c => (c, csS K o c s)))

/-- `Ion.specific_entropy`, core/ions.py:260-279 -/
def ionEntropy (comps : List String) (s : String) : Except PyErr Fl :=
  (ionW comps).map (fun _ => (pthS K o "scalar" s * .fin K.uPth) * Fl.rpow (rhoS K o s * .fin K.uRho) (-K.gamma) / .fin K.uS)

/-- `Ion.__eq__`, core/ions.py:81-96: `none` is `NotImplemented` (the other object is not an ion); `same` is `DataFrame.equals`. -/
def ionEq {δ : Type} (same : δ → δ → Bool) (a : String × δ) (b : Option (String × δ)) : Option Bool :=
  match b with
  | none => none
  | some b => some (a.1 == b.1 && same a.2 b.2)

end
end SW
