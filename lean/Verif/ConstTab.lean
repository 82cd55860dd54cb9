import Verif.PlasmaPhys
import Verif.Units

/-!
# Model: which constants a plasma query looks up (core/plasma.py, core/ions.py, core/units_constants.py)

`PlasmaPhys` takes the constants of a species as total functions.  In the code they are look-ups in tables with ten rows
(core/units_constants.py:38-101), which raise KeyError for any other name, while a plasma can be built with any species names.  Here the
methods are modelled again with partial tables: `known s` says that `s` has a row; every other detail is that of `PlasmaPhys`.
-/

namespace SW
noncomputable section
open Classical

/-- the look-up `table.loc[s]` (core/ions.py:188, 221; core/plasma.py:1062, 1391-1395, 1464-1466, 1676): KeyError without a row -/
def look {α : Type} (known : String → Bool) (s : String) (a : α) : Except PyErr α :=
  if known s then .ok a else .error .keyError

/-- the names with a row in every table, core/units_constants.py:38-101 -/
def tabulated : List String := ["p", "p1", "p2", "pm", "p_bimax", "a", "a1", "a2", "a_bimax", "e"]

/-- `query` with a fallible value for each species: the values of all species are computed before they are combined
(e.g. core/plasma.py:851-857). -/
def queryT {α β : Type} (ions args : List String) (ev : String → Except PyErr α) (tot : List α → β) (one : α → β) :
    Except PyErr (Res β) :=
  match resolve ions args with
  | .error e => .error e
  | .ok sl => match forEach ev sl with
    | .error e => .error e
    | .ok vs => if args.length = 1 then .ok (.total (tot vs)) else .ok (.each (sl.zip (vs.map one)))

variable (known : String → Bool) (K : Const) (o : Obs)

/-- `Plasma.mass_density`, core/plasma.py:833-857, by `Ion.mass_density`, core/ions.py:186-191 -/
def massDensityT (ions args : List String) : Except PyErr (Res Fl) :=
  queryT ions args (fun s => look known s (rhoS K o s)) Fl.sumSkip id

/-- `Plasma.pth`, core/plasma.py:896-923, by `Ion.pth`, core/ions.py:229-241 -/
def pthT (ions : List String) (c : String) (args : List String) : Except PyErr (Res Fl) :=
  queryT ions args (fun s => look known s (pthS K o c s)) Fl.sumSkip id

/-- `Plasma.temperature`, core/plasma.py:925-948, by `Ion.temperature`, core/ions.py:213-226 -/
def temperatureT (ions : List String) (c : String) (args : List String) : Except PyErr (Res Fl) :=
  queryT ions args (fun s => look known s (tempS K o c s)) Fl.sumSkip id

/-- `Plasma.beta`, core/plasma.py:950-1000 -/
def betaT (ions : List String) (c : String) (args : List String) : Except PyErr (Res Fl) :=
  queryT ions args (fun s => look known s (pthS K o c s)) (fun l => betaOf K o (Fl.sumSkip l)) (betaOf K o)

/-- two pressures of a species -/
def pair (f g : String → Fl) (s : String) : Fl × Fl := (f s, g s)

/-- `Plasma.anisotropy`, core/plasma.py:1002-1035 -/
def anisotropyT (ions args : List String) : Except PyErr (Res Fl) :=
  queryT ions args (fun s => look known s (pair (pthS K o "par") (pthS K o "per") s))
    (fun l => aniOf (Fl.sumSkip (l.map Prod.fst)) (Fl.sumSkip (l.map Prod.snd))) (fun p => aniOf p.1 p.2)

/-- `Plasma.sound_speed`, core/plasma.py:1194-1220 -/
def soundSpeedT (ions args : List String) : Except PyErr (Res Fl) :=
  queryT ions args (fun s => look known s (pair (pthS K o "scalar") (rhoS K o) s))
    (fun l => csOf K (Fl.sumSkip (l.map Prod.fst)) (Fl.sumSkip (l.map Prod.snd))) (fun p => csOf K p.1 p.2)

/-- `Plasma.ca`, core/plasma.py:1226-1251 -/
def caT (ions args : List String) : Except PyErr (Res Fl) :=
  queryT ions args (fun s => look known s (rhoS K o s)) (fun l => caOf K o (Fl.sumSkip l)) (caOf K o)

/-- `Plasma.afsq`, core/plasma.py:1253-1314 -/
def afsqT (ions : List String) (pdyn : Bool) (args : List String) : Except PyErr (Res Fl) :=
  if pdyn then .error .notImplemented
  else queryT ions args (fun s => look known s (pair (pthS K o "par") (pthS K o "per") s))
    (fun l => afsqOf K o (Fl.sumSkip (l.map Prod.fst)) (Fl.sumSkip (l.map Prod.snd))) (fun p => afsqOf K o p.1 p.2)

/-- `Plasma.caani`, core/plasma.py:1316-1351 -/
def caaniT (ions : List String) (pdyn : Bool) (args : List String) : Except PyErr Fl :=
  match chkSpecies ions (args.map .str) with
  | .error e => .error e
  | .ok st =>
    let ssum := pyJoin '+' st
    match caT known K o ions [ssum] with
    | .error e => .error e
    | .ok (.each _) => .error .other
    | .ok (.total c) => match afsqT known K o ions pdyn [ssum] with
      | .error e => .error e
      | .ok (.each _) => .error .other
      | .ok (.total a) => .ok (c * Fl.sqrt a)

/-- `Plasma.specific_entropy`, core/plasma.py:1828-1872 -/
def specificEntropyT (ions args : List String) : Except PyErr (Res Fl) :=
  queryT ions args (fun s => look known s (pair (pthS K o "scalar") (rhoS K o) s))
    (fun l => entropyOf K (Fl.sumSkip (l.map Prod.fst)) (Fl.sumSkip (l.map Prod.snd))) (fun p => entropyOf K p.1 p.2)

/-- `Plasma.velocity`, core/plasma.py:1037-1090: constants are looked up for the m/q projection (1061-1063) and, for the centre of mass of
several species, for their mass densities (1078); several arguments need none. -/
def velocityT (ions args : List String) (proj : Bool) : Except PyErr (Res V3) :=
  match chkSpecies ions (args.map .str) with
  | .error e => .error e
  | .ok [s] =>
    if !ions.contains s then .error .keyError
    else if proj then match look known s (m2q K s) with
      | .error e => .error e
      | .ok k => .ok (.total (V3.scale k (o.v s)))
    else .ok (.total (o.v s))
  | .ok st =>
    if proj then .error .notImplemented
    else if st.any (fun s => !ions.contains s) then .error .keyError
    else if args.length = 1 then match forEach (fun s => look known s (rhoS K o s)) st.dedup with
      | .error e => .error e
      | .ok _ => .ok (.total (vCom K o st.dedup))
    else .ok (.each (st.map fun s => (s, o.v s)))

/-- `Plasma.dv`, core/plasma.py:1096-1132 -/
def dvT (ions : List String) (s0 s1 : String) (proj : Bool) : Except PyErr V3 :=
  if s0 = s1 then .error .notImplemented
  else match velocityT known K o ions [s0] proj with
    | .error e => .error e
    | .ok (.each _) => .error .other
    | .ok (.total v0) => match velocityT known K o ions [s1] proj with
      | .error e => .error e
      | .ok (.each _) => .error .other
      | .ok (.total v1) => .ok (V3.sub v0 v1)

/-- `Plasma.pdynamic`, core/plasma.py:1134-1188 -/
def pdynamicT (ions args : List String) (proj : Bool) : Except PyErr Fl :=
  match chkSpecies ions (args.map .str) with
  | .error e => .error e
  | .ok st =>
    if st.length = 1 then .error .valueError
    else
      let const := 0.5 * K.uRho * K.uV ^ 2 / K.uPth
      if !proj then
        match resolve ions st with
        | .error e => .error e
        | .ok sl => match forEach (fun s => look known s (rhoS K o s)) sl with
          | .error e => .error e
          | .ok rhos =>
            match forEach (fun s => dvT known K o ions s (pyJoin '+' args) false) sl with
            | .error e => .error e
            | .ok dvs => .ok (Fl.sumSkip ((rhos.zip dvs).map fun p => V3.sqSum p.2 * p.1) * .fin const)
      else if st.length = 2 then
        match dvT known K o ions (st.getD 0 "") (st.getD 1 "") true with
        | .error e => .error e
        | .ok d => match forEach (fun s => look known s (rhoS K o s)) [st.getD 0 "", st.getD 1 ""] with
          | .error e => .error e
          | .ok r => .ok (V3.sqSum d * (Fl.prodSkip r / Fl.sumSkip r) * .fin const)
      else .error .unboundLocal

/-- `Plasma.lnlambda`, core/plasma.py:1353-1412 -/
def lnlambdaT (ions : List String) (s0 s1 : String) : Except PyErr Fl :=
  match twoSpecies ions s0 s1 with
  | .error e => .error e
  | .ok (a, b) => match look known a () with
    | .error e => .error e
    | .ok _ => look known b (lnlambdaOf K o a b)

/-- `Plasma.nuc`, core/plasma.py:1414-1504: the charges and masses (1464-1466) are looked up before the drift is formed -/
def nucT (ions : List String) (sa sb : String) (both : Bool) : Except PyErr Fl :=
  match twoSpecies ions sa sb with
  | .error e => .error e
  | .ok (a, b) => match lnlambdaT known K o ions a b with
    | .error e => .error e
    | .ok _ => match dvT known K o ions a b false with
      | .error e => .error e
      | .ok d =>
        let nuab := nuabOf K o a b d
        if both then
          .ok (nuab + nuab * Fl.prodSkip [Fl.sumSkip [rhoS K o a], .fin 1 / Fl.sumSkip [rhoS K o b]])
        else .ok nuab

/-- `Plasma.nc`, core/plasma.py:1506-1552: the expansion time uses the centre-of-mass velocity of all species of the plasma (1543) -/
def ncT (ions : List String) (sc : Option Fl) (sa sb : String) (both : Bool) : Except PyErr Fl :=
  match twoSpecies ions sa sb with
  | .error e => .error e
  | .ok (a, b) => match sc with
    | none => .error .valueError
    | some r => match velocityT known K o ions [pyJoin '+' ions] false with
      | .error e => .error e
      | .ok (.each _) => .error .other
      | .ok (.total v) => match nucT known K o ions a b both with
        | .error e => .error e
        | .ok nu => .ok (nu * .fin K.uNuc * (r / (v.mag * .fin K.uV)))

/-- `Plasma.vdf_ratio`, core/plasma.py:1554-1637 -/
def vdfRatioT (ions : List String) (beam core : String) : Except PyErr Fl :=
  match twoSpecies ions beam core with
  | .error e => .error e
  | .ok (b, c) => match dvT known K o ions b c true with
    | .error e => .error e
    | .ok d => .ok (vdfRatioOf o b c d)

/-- `Plasma.estimate_electrons(inplace=False)`, core/plasma.py:1639-1727: the charge states of all species are looked up at once (1676) -/
def estimateElectronsT (species : List String) : Except PyErr Electrons :=
  match protonOf species with
  | .error e => .error e
  | .ok tkw => match forEach (fun s => look known s (K.chargeState s)) species with
    | .error e => .error e
    | .ok _ => .ok (electronsOf K o species tkw)

/-- `Plasma.heat_flux`, core/plasma.py:1729-1774 -/
def heatFluxT (ions args : List String) : Except PyErr (Res Fl) :=
  match chkSpecies ions (args.map .str) with
  | .error e => .error e
  | .ok st =>
    if st.length ≤ 1 then .error .valueError
    else match massDensityT known K o ions st with
      | .error e => .error e
      | .ok _ =>
        match forEach (fun s => dvT known K o ions s (pyJoin '+' st) false) st with
        | .error e => .error e
        | .ok dvs =>
          let qs := (st.zip dvs).map fun p => (p.1, qparOf K o p.1 (V3.projPar p.2 o.b))
          let coeff : Fl := .fin (K.uRho * K.uV ^ 3 / K.uQpar)
          if args.length = 1 then .ok (.total (coeff * Fl.sumSkip (qs.map Prod.snd)))
          else .ok (.each (qs.map fun p => (p.1, coeff * p.2)))

end
end SW
