import Verif.PlasmaIO
import Verif.Vector

/-!
# Model: the physics methods of `Plasma` (core/plasma.py) and `Ion` (core/ions.py), one row at a time

Every method of the code is row-wise, so the model works on one observation `Obs`: the values of the plasma's
columns in one row. Constants and unit factors are arbitrary numbers of the right sign (`Const`), so nothing
depends on their CODATA values. Look-ups of constants are total here (see ConstTab); the code raises KeyError for a
species outside its tables (core/units_constants.py).
-/

namespace SW
noncomputable section
open Classical

/-- core/units_constants.py: `Constants` and `Units`. `uV` stands for `units.v = units.w = units.dv = units.ca =
units.cs` (`__post_init__`). `erf` is `scipy.special.erf`, uninterpreted. -/
structure Const where
  mInMp : String → ℝ
  chargeState : String → ℝ
  charge : String → ℝ
  m : String → ℝ
  mAmu : String → ℝ
  mu0 : ℝ
  e0 : ℝ
  kbJ : ℝ
  kbEV : ℝ
  gamma : ℝ
  uB : ℝ
  uV : ℝ
  uPth : ℝ
  uT : ℝ
  uN : ℝ
  uRho : ℝ
  uNuc : ℝ
  uQpar : ℝ
  uS : ℝ
  erf : ℝ → ℝ
  mInMp_pos : ∀ s, 0 < mInMp s
  m_pos : ∀ s, 0 < m s
  mAmu_pos : ∀ s, 0 < mAmu s
  mu0_pos : 0 < mu0
  e0_pos : 0 < e0
  kbJ_pos : 0 < kbJ
  kbEV_pos : 0 < kbEV
  gamma_pos : 0 < gamma
  uB_pos : 0 < uB
  uV_pos : 0 < uV
  uPth_pos : 0 < uPth
  uT_pos : 0 < uT
  uN_pos : 0 < uN
  uRho_pos : 0 < uRho
  uNuc_pos : 0 < uNuc
  uQpar_pos : 0 < uQpar
  uS_pos : 0 < uS

/-- One row of plasma data: `n[s]`, `v[s]`, `w[s][component]`, `b`. -/
structure Obs where
  n : String → Fl
  v : String → V3
  w : String → String → Fl
  b : V3

/-- The row `i` of a plasma (construction guarantees the columns exist, C03). -/
def obsAt {ι : Type} (p : Plasma ι) (i : ι) : Obs :=
  let g := fun c : Col => ((p.data.get c).map (· i)).getD .nan
  { n := fun s => g ⟨"n", "", s⟩
    v := fun s => ⟨g ⟨"v", "x", s⟩, g ⟨"v", "y", s⟩, g ⟨"v", "z", s⟩⟩
    w := fun s c => g ⟨"w", c, s⟩
    b := ⟨g ⟨"b", "x", ""⟩, g ⟨"b", "y", ""⟩, g ⟨"b", "z", ""⟩⟩ }

/-- `Series` (one string argument: the total) or `DataFrame` (several arguments: one column per species). -/
inductive Res (α : Type) where
  | total (a : α)
  | each (l : List (String × α))

/-- The common head of the query methods: `_chk_species`, then `{s: self.ions.loc[s]... for s in slist}`: a
repeated species is one dictionary entry; `ions.loc[""]` is a KeyError; `pd.concat({})` a ValueError. -/
def resolve (ions : List String) (args : List String) : Except PyErr (List String) :=
  match chkSpecies ions (args.map .str) with
  | .error e => .error e
  | .ok sl =>
    if sl.any (fun s => !ions.contains s) then .error .keyError
    else if sl.isEmpty then .error .valueError
    else .ok sl.dedup

/-- Sum over the species for one argument, per-species columns otherwise. -/
def query {α : Type} (ions args : List String) (tot : List String → α) (one : String → α) :
    Except PyErr (Res α) :=
  match resolve ions args with
  | .error e => .error e
  | .ok sl => if args.length = 1 then .ok (.total (tot sl)) else .ok (.each (sl.map fun s => (s, one s)))

variable (K : Const) (o : Obs)

/-- `Plasma.number_density`, core/plasma.py:798-827. -/
def nTot (skipna : Bool) (sl : List String) : Fl :=
  if skipna then Fl.sumSkip (sl.map o.n) else Fl.sumAll (sl.map o.n)
def numberDensity (ions : List String) (skipna : Bool) (args : List String) : Except PyErr (Res Fl) :=
  query ions args (nTot o skipna) o.n

/-- `Ion.mass_density`, core/ions.py:186-191. -/
def rhoS (s : String) : Fl := o.n s * .fin (K.mInMp s)
/-- `Plasma.mass_density`, core/plasma.py:833-857. -/
def rhoTot (sl : List String) : Fl := Fl.sumSkip (sl.map (rhoS K o))
def massDensity (ions args : List String) : Except PyErr (Res Fl) :=
  query ions args (rhoTot K o) (rhoS K o)

/-- `Plasma.thermal_speed`, core/plasma.py:863-890, component `c`. -/
def thermalSpeed (ions : List String) (c : String) (args : List String) : Except PyErr (Res Fl) :=
  if args.any (hasChar '+') then .error .notImplemented
  else query ions args (fun sl => Fl.sumSkip (sl.map fun s => o.w s c)) (fun s => o.w s c)

/-- `Ion.pth`, core/ions.py:229-241, component `c`. -/
def pthS (c s : String) : Fl :=
  .fin (0.5 / K.uPth) * (Fl.sq (o.w s c * .fin K.uV) * (rhoS K o s * .fin K.uRho))
/-- `Plasma.pth`, core/plasma.py:896-923. -/
def pthTot (c : String) (sl : List String) : Fl := Fl.sumSkip (sl.map (pthS K o c))
def pth (ions : List String) (c : String) (args : List String) : Except PyErr (Res Fl) :=
  query ions args (pthTot K o c) (pthS K o c)

/-- `Ion.temperature`, core/ions.py:213-226. -/
def tempS (c s : String) : Fl :=
  .fin (0.5 * K.m s / (K.kbJ * K.uT)) * Fl.sq (o.w s c * .fin K.uV)
/-- `Plasma.temperature`, core/plasma.py:925-948. -/
def tempTot (c : String) (sl : List String) : Fl := Fl.sumSkip (sl.map (tempS K o c))
def temperature (ions : List String) (c : String) (args : List String) : Except PyErr (Res Fl) :=
  query ions args (tempTot K o c) (tempS K o c)

/-- core/plasma.py:989-999: `pth / |b|**2 * coeff`. -/
def betaOf (p : Fl) : Fl := p / Fl.sq o.b.mag * .fin (2 * K.mu0 * (K.uPth / K.uB ^ 2))
/-- `Plasma.beta`, core/plasma.py:950-1000. -/
def beta (ions : List String) (c : String) (args : List String) : Except PyErr (Res Fl) :=
  query ions args (fun sl => betaOf K o (pthTot K o c sl)) (fun s => betaOf K o (pthS K o c s))

/-- core/plasma.py:1026-1033: `pth.pow({"par": -1, "per": 1}).product(axis=1)`, NaN factors skipped. -/
def aniOf (par per : Fl) : Fl := Fl.prodSkip [.fin 1 / par, per]
/-- `Plasma.anisotropy`, core/plasma.py:1002-1035. -/
def anisotropy (ions : List String) (args : List String) : Except PyErr (Res Fl) :=
  query ions args (fun sl => aniOf (pthTot K o "par" sl) (pthTot K o "per" sl))
    (fun s => aniOf (pthS K o "par" s) (pthS K o "per" s))

/-- Centre-of-mass velocity, core/plasma.py:1076-1087, per component: momentum and mass are summed separately,
each skipping NaN. -/
def vCom (sl : List String) : V3 :=
  let com := fun f : V3 → Fl =>
    Fl.sumSkip (sl.map fun s => f (o.v s) * rhoS K o s) / Fl.sumSkip (sl.map (rhoS K o))
  ⟨com V3.x, com V3.y, com V3.z⟩

/-- scalar multiple of a vector row -/
def V3.scale (k : Fl) (v : V3) : V3 := ⟨v.x * k, v.y * k, v.z * k⟩

/-- core/plasma.py:1060-1064: `np.sqrt(m_in_mp / charge_state)`. -/
def m2q (s : String) : Fl := Fl.sqrt (.fin (K.mInMp s) / .fin (K.chargeState s))

/-- `Plasma.velocity`, core/plasma.py:1037-1090. -/
def velocity (ions args : List String) (proj : Bool) : Except PyErr (Res V3) :=
  match chkSpecies ions (args.map .str) with
  | .error e => .error e
  | .ok [s] =>
    if !ions.contains s then .error .keyError
    else .ok (.total (if proj then V3.scale (m2q K s) (o.v s) else o.v s))
  | .ok st =>
    if proj then .error .notImplemented
    else if st.any (fun s => !ions.contains s) then .error .keyError
    else if args.length = 1 then .ok (.total (vCom K o st.dedup))
    else .ok (.each (st.map fun s => (s, o.v s)))

/-- componentwise difference -/
def V3.sub (a b : V3) : V3 := ⟨a.x - b.x, a.y - b.y, a.z - b.z⟩

/-- `Plasma.dv`, core/plasma.py:1096-1132. (A one-string `velocity` never returns several columns.) -/
def dv (ions : List String) (s0 s1 : String) (proj : Bool) : Except PyErr V3 :=
  if s0 = s1 then .error .notImplemented
  else match velocity K o ions [s0] proj with
    | .error e => .error e
    | .ok (.each _) => .error .other
    | .ok (.total v0) => match velocity K o ions [s1] proj with
      | .error e => .error e
      | .ok (.each _) => .error .other
      | .ok (.total v1) => .ok (V3.sub v0 v1)

/-- `.pow(2).sum(axis=1)` of a vector row (NaN skipped). -/
def V3.sqSum (v : V3) : Fl := Fl.sumSkip [Fl.sq v.x, Fl.sq v.y, Fl.sq v.z]

/-- evaluate a fallible function on each species -/
def forEach {α : Type} (f : String → Except PyErr α) : List String → Except PyErr (List α)
  | [] => .ok []
  | s :: l => match f s with
    | .error e => .error e
    | .ok a => match forEach f l with
      | .error e => .error e
      | .ok as => .ok (a :: as)

/-- `Plasma.pdynamic`, core/plasma.py:1134-1188. -/
def pdynamic (ions args : List String) (proj : Bool) : Except PyErr Fl :=
  match chkSpecies ions (args.map .str) with
  | .error e => .error e
  | .ok st =>
    if st.length = 1 then .error .valueError
    else
      let const := 0.5 * K.uRho * K.uV ^ 2 / K.uPth
      if !proj then
        match resolve ions st with
        | .error e => .error e
        | .ok sl =>
          match forEach (fun s => dv K o ions s (pyJoin '+' args) false) sl with
          | .error e => .error e
          | .ok dvs =>
            .ok (Fl.sumSkip ((sl.zip dvs).map fun p => V3.sqSum p.2 * rhoS K o p.1) * .fin const)
      else if st.length = 2 then
        match dv K o ions (st.getD 0 "") (st.getD 1 "") true with
        | .error e => .error e
        | .ok d =>
          let r := [rhoS K o (st.getD 0 ""), rhoS K o (st.getD 1 "")]
          .ok (V3.sqSum d * (Fl.prodSkip r / Fl.sumSkip r) * .fin const)
      else .error .unboundLocal

/-- core/plasma.py:1207-1214 -/
def csOf (p rho : Fl) : Fl :=
  Fl.sqrt ((p * .fin K.uPth) / (rho * .fin K.uRho) * .fin K.gamma) / .fin K.uV
/-- `Plasma.sound_speed`, core/plasma.py:1194-1220. -/
def soundSpeed (ions args : List String) : Except PyErr (Res Fl) :=
  query ions args (fun sl => csOf K (pthTot K o "scalar" sl) (rhoTot K o sl))
    (fun s => csOf K (pthS K o "scalar" s) (rhoS K o s))

/-- core/plasma.py:1240-1247 -/
def caOf (rho : Fl) : Fl :=
  Fl.rpow rho (-(1 / 2)) * o.b.mag * .fin (K.uB / (Real.sqrt (K.uRho * K.mu0) * K.uV))
/-- `Plasma.ca`, core/plasma.py:1226-1251. -/
def ca (ions args : List String) : Except PyErr (Res Fl) :=
  query ions args (fun sl => caOf K o (rhoTot K o sl)) (fun s => caOf K o (rhoS K o s))

/-- core/plasma.py:1288-1308 -/
def afsqOf (par per : Fl) : Fl :=
  .fin 1 + (Fl.sumSkip [par * .fin (-1), per * .fin 1] / V3.sqSum o.b) * .fin (K.mu0 * K.uPth / K.uB ^ 2)
/-- `Plasma.afsq`, core/plasma.py:1253-1314; `pdyn`: truthiness of the `pdynamic` argument. -/
def afsq (ions : List String) (pdyn : Bool) (args : List String) : Except PyErr (Res Fl) :=
  if pdyn then .error .notImplemented
  else query ions args (fun sl => afsqOf K o (pthTot K o "par" sl) (pthTot K o "per" sl))
    (fun s => afsqOf K o (pthS K o "par" s) (pthS K o "per" s))

/-- `Plasma.caani`, core/plasma.py:1316-1351. -/
def caani (ions : List String) (pdyn : Bool) (args : List String) : Except PyErr Fl :=
  match chkSpecies ions (args.map .str) with
  | .error e => .error e
  | .ok st =>
    let ssum := pyJoin '+' st
    match ca K o ions [ssum] with
    | .error e => .error e
    | .ok (.each _) => .error .other
    | .ok (.total c) => match afsq K o ions pdyn [ssum] with
      | .error e => .error e
      | .ok (.each _) => .error .other
      | .ok (.total a) => .ok (c * Fl.sqrt a)

/-- head of `lnlambda`, `nuc`, `nc`: two single species. -/
def twoSpecies (ions : List String) (a b : String) : Except PyErr (String × String) :=
  match chkSpecies ions [.str a] with
  | .error e => .error e
  | .ok sa => match chkSpecies ions [.str b] with
    | .error e => .error e
    | .ok sb =>
      match sa, sb with
      | [x], [y] => if ions.contains x && ions.contains y then .ok (x, y) else .error .keyError
      | _, _ => .error .valueError

/-- core/plasma.py:1388-1410 -/
def lnlambdaOf (a b : String) : Fl :=
  let z0 := K.chargeState a
  let z1 := K.chargeState b
  let a0 := K.mAmu a
  let a1 := K.mAmu b
  let n0 := o.n a * .fin K.uN
  let n1 := o.n b * .fin K.uN
  let T0 := tempS K o "scalar" a * .fin K.uT * .fin K.kbEV
  let T1 := tempS K o "scalar" b * .fin K.uT * .fin K.kbEV
  let r0 := n0 * .fin (z0 ^ 2) / T0
  let r1 := n1 * .fin (z1 ^ 2) / T1
  let right := Fl.sqrt (r0 + r1)
  let left := .fin (z0 * z1 * (a0 + a1)) / (.fin a0 * T1 + .fin a1 * T0)
  .fin 29.9 - Fl.log (left * right)
/-- `Plasma.lnlambda`, core/plasma.py:1353-1412 (`units.lnlambda = 1`). -/
def lnlambda (ions : List String) (s0 s1 : String) : Except PyErr Fl :=
  match twoSpecies ions s0 s1 with
  | .error e => .error e
  | .ok (a, b) => .ok (lnlambdaOf K o a b)

/-- `scipy.special.erf` -/
def Fl.erf (K : Const) : Fl → Fl
  | .nan => .nan
  | .pinf => .fin 1
  | .ninf => .fin (-1)
  | .fin a => .fin (K.erf a)
/-- `np.exp` -/
def Fl.exp : Fl → Fl
  | .nan => .nan
  | .pinf => .pinf
  | .ninf => .fin 0
  | .fin a => .fin (Real.exp a)
/-- `.pow(-3.0)` -/
def Fl.powm3 (x : Fl) : Fl := .fin 1 / Fl.cube x

/-- core/plasma.py:1456-1489: `nuab` in `units.nuc`; `d` is `dv(sa, sb)`. -/
def nuabOf (a b : String) (d : V3) : Fl :=
  let qabsq := K.charge a ^ 2 * K.charge b ^ 2
  let mu := K.m a * K.m b / (K.m a + K.m b)
  let coeff := qabsq / (4 * Real.pi * K.e0 ^ 2 * K.m a * mu)
  let nb := o.n b * .fin K.uN
  let wab := Fl.sqrt (Fl.sumSkip [Fl.sq (o.w a "par"), Fl.sq (o.w b "par")]) * .fin K.uV
  let dvw := (d.mag * .fin K.uV) / wab
  let ldr1 := Fl.erf K dvw
  let ldr2 := dvw * (.fin (2 / Real.sqrt Real.pi) * Fl.exp (-(Fl.sq dvw)))
  let ldr := Fl.powm3 dvw * (ldr1 - ldr2)
  .fin coeff * (nb * lnlambdaOf K o a b * ldr * Fl.powm3 wab) / .fin K.uNuc
/-- `Plasma.nuc`, core/plasma.py:1414-1504. The mass-density ratio multiplies `rho_a ** 1` and `rho_b ** -1`,
skipping NaN. -/
def nuc (ions : List String) (sa sb : String) (both : Bool) : Except PyErr Fl :=
  match twoSpecies ions sa sb with
  | .error e => .error e
  | .ok (a, b) => match dv K o ions a b false with
    | .error e => .error e
    | .ok d =>
      let nuab := nuabOf K o a b d
      if both then
        .ok (nuab + nuab * Fl.prodSkip [Fl.sumSkip [rhoS K o a], .fin 1 / Fl.sumSkip [rhoS K o b]])
      else .ok nuab

/-- `Plasma.nc`, core/plasma.py:1506-1552; `sc` is the row of `distance2sun` [m] when a spacecraft is attached
(`units.distance2sun = units.nc = 1`). -/
def nc (ions : List String) (sc : Option Fl) (sa sb : String) (both : Bool) : Except PyErr Fl :=
  match twoSpecies ions sa sb with
  | .error e => .error e
  | .ok (a, b) => match sc with
    | none => .error .valueError
    | some r => match velocity K o ions [pyJoin '+' ions] false with
      | .error e => .error e
      | .ok (.each _) => .error .other
      | .ok (.total v) => match nuc K o ions a b both with
        | .error e => .error e
        | .ok nu => .ok (nu * .fin K.uNuc * (r / (v.mag * .fin K.uV)))

/-- core/plasma.py:1606-1637: value of `vdf_ratio`; `d` is `dv(beam, core, project_m2q=True)`. -/
def vdfRatioOf (beam core : String) (d : V3) : Fl :=
  let par := V3.projPar d o.b
  let per := V3.projPer d o.b
  let dvw := Fl.sumSkip [Fl.sq (par / o.w core "par"), Fl.sq (per / o.w core "per")]
  let nbar := o.n beam / o.n core
  let wbar := (o.w core "par" / o.w beam "par") * Fl.sq (o.w core "per" / o.w beam "per")
  Fl.log (nbar * wbar) + dvw
/-- `Plasma.vdf_ratio`, core/plasma.py:1554-1637. -/
def vdfRatio (ions : List String) (beam core : String) : Except PyErr Fl :=
  match twoSpecies ions beam core with
  | .error e => .error e
  | .ok (b, c) => match dv K o ions b c true with
    | .error e => .error e
    | .ok d => .ok (vdfRatioOf o b c d)

/-- One row of the estimated electrons: density, velocity, thermal speed (par = per). -/
structure Electrons where
  n : Fl
  v : V3
  w : Fl

/-- core/plasma.py:1645-1676: which proton population sets the temperature. -/
def protonOf (species : List String) : Except PyErr String :=
  if species.contains "e" then .error .notImplemented
  else if !species.contains "p" && !species.contains "p1" then .error .valueError
  else if species.contains "p" && species.contains "p1" then .error .valueError
  else if species.contains "p" then .ok "p" else .ok "p1"

/-- core/plasma.py:1678-1711: charge density, current, temperature and the mask of empty rows. -/
def electronsOf (species : List String) (tkw : String) : Electrons :=
  let niqi := fun s => o.n s * .fin (K.chargeState s)
  let single := species.length = 1
  let ne := if single then niqi (species.headD "") else Fl.sumSkip (species.map niqi)
  let flux := fun f : V3 → Fl =>
    if single then f (o.v (species.headD "")) * niqi (species.headD "")
    else Fl.sumSkip (species.map fun s => f (o.v s) * niqi s)
  let wp := Fl.sumSkip [o.w tkw "scalar"]
  let nrat := Fl.sumSkip [o.n tkw] / ne
  let we := Fl.sqrt (nrat * .fin (1 / K.mInMp "e") * Fl.sq wp)
  if ne = .fin 0 then ⟨.nan, ⟨.nan, .nan, .nan⟩, .nan⟩
  else ⟨ne, ⟨flux V3.x / ne, flux V3.y / ne, flux V3.z / ne⟩, we⟩

/-- `Plasma.estimate_electrons(inplace=False)`, core/plasma.py:1639-1727. -/
def estimateElectrons (species : List String) : Except PyErr Electrons :=
  match protonOf species with
  | .error e => .error e
  | .ok tkw => .ok (electronsOf K o species tkw)

/-- core/plasma.py:1761-1769: the heat flux of one species; `dpar` is its parallel drift. -/
def qparOf (s : String) (dpar : Fl) : Fl :=
  (Fl.cube dpar + dpar * Fl.sq (o.w s "par") * .fin (3 / 2)) * rhoS K o s
/-- `Plasma.heat_flux`, core/plasma.py:1729-1774.  A repeated species is one entry of `dv` and `rho` but several columns of `w`
(1758), and the alignment repeats the former. -/
def heatFlux (ions args : List String) : Except PyErr (Res Fl) :=
  match chkSpecies ions (args.map .str) with
  | .error e => .error e
  | .ok st =>
    if st.length ≤ 1 then .error .valueError
    else match resolve ions st with
      | .error e => .error e
      | .ok _ =>
        match forEach (fun s => dv K o ions s (pyJoin '+' st) false) st with
        | .error e => .error e
        | .ok dvs =>
          let qs := (st.zip dvs).map fun p => (p.1, qparOf K o p.1 (V3.projPar p.2 o.b))
          let coeff : Fl := .fin (K.uRho * K.uV ^ 3 / K.uQpar)
          if args.length = 1 then .ok (.total (coeff * Fl.sumSkip (qs.map Prod.snd)))
          else .ok (.each (qs.map fun p => (p.1, coeff * p.2)))

/-- core/plasma.py:1853-1870 -/
def entropyOf (p rho : Fl) : Fl :=
  (p * .fin K.uPth) * Fl.rpow (rho * .fin K.uRho) (-K.gamma) / .fin K.uS
/-- `Plasma.specific_entropy`, core/plasma.py:1828-1872. -/
def specificEntropy (ions args : List String) : Except PyErr (Res Fl) :=
  query ions args (fun sl => entropyOf K (pthTot K o "scalar" sl) (rhoTot K o sl))
    (fun s => entropyOf K (pthS K o "scalar" s) (rhoS K o s))

/-- Attributes of `Units` (core/units_constants.py:171-203). -/
def unitAttrs : List String :=
  ["bfield", "b", "v", "w", "dv", "ca", "cs", "cfms", "pth", "temperature", "n", "rho", "beta", "lnlambda",
   "nuc", "nc", "qpar", "distance2sun", "specific_entropy"]

/-- `Plasma.kinetic_energy_flux`, core/plasma.py:1874-1898: every species evaluates
`Ion.kinetic_energy_flux` (core/ions.py:286-306), which divides by `self.units.kinetic_energy_flux`. -/
def kineticEnergyFlux (ions args : List String) : Except PyErr Unit :=
  match resolve ions args with
  | .error e => .error e
  | .ok sl => match forEach (fun _ => getAttribute unitAttrs "kinetic_energy_flux") sl with
    | .error e => .error e
    | .ok _ => .ok ()

/-! ### Helper lemmas -/

/-- A well-formed query: non-empty, no repetition, plain names, all available. -/
structure Valid (ions ps : List String) : Prop where
  ne : ps ≠ []
  nodup : ps.Nodup
  plus : ∀ s ∈ ps, '+' ∉ s.toList
  comma : ∀ s ∈ ps, ',' ∉ s.toList
  avail : ∀ s ∈ ps, s ∈ ions

theorem pyJoin_singleton (sep : Char) (s : String) : pyJoin sep [s] = s := by
  simp [pyJoin, Chars.join]

theorem Valid.single {ions ps : List String} (h : Valid ions ps) {s : String} (hs : s ∈ ps) :
    Valid ions [s] :=
  ⟨by simp, by simp, by simpa using h.plus s hs, by simpa using h.comma s hs, by simpa using h.avail s hs⟩

theorem Valid.perm {ions ps qs : List String} (h : Valid ions ps) (hp : ps.Perm qs) : Valid ions qs :=
  ⟨fun e => h.ne (by rw [e] at hp; exact List.perm_nil.mp hp), hp.nodup_iff.mp h.nodup,
   fun s hs => h.plus s (hp.mem_iff.mpr hs), fun s hs => h.comma s (hp.mem_iff.mpr hs),
   fun s hs => h.avail s (hp.mem_iff.mpr hs)⟩

theorem conform_join {ions ps : List String} (h : Valid ions ps) :
    conform [.str (pyJoin '+' ps)] = .ok (pySorted ps) := by
  have := conformS_eq [pyJoin '+' ps]
  simp only [] at this
  rw [pySplit_pyJoin '+' ps h.ne (fun p hp => by simpa [hasChar] using h.plus p hp)] at this
  have hcc : hasChar ',' (pyJoin '+' ps) = false := by
    rw [Bool.eq_false_iff, Ne, hasChar_pyJoin _ _ (by decide)]
    rintro ⟨p, hp, hc⟩; exact h.comma p hp (by simpa [hasChar] using hc)
  rw [if_neg (by simp [hcc]), if_neg (by simp)] at this
  exact this

theorem conform_args {ions ps : List String} (h : Valid ions ps) :
    conform (ps.map .str) = .ok (pySorted ps) := by
  have h0 := conformS_eq ps
  have hc : ¬ ps.any (hasChar ',') = true := by
    simp only [List.any_eq_true, hasChar_iff, not_exists, not_and]; exact h.comma
  have hp : ¬ ps.any (hasChar '+') = true := by
    simp only [List.any_eq_true, hasChar_iff, not_exists, not_and]; exact h.plus
  rw [if_neg hc, if_neg (by simp [hp])] at h0
  rw [show conform (ps.map .str) = conformS ps from rfl, h0]
  match ps, h with
  | [], _ => rfl
  | [s], h => simp only [pySplit_self '+' s (by simpa [hasChar] using h.plus s (by simp))]
  | _ :: _ :: _, _ => rfl

theorem chk_of_conform {ions ps : List String} (h : Valid ions ps) {args : List PyVal}
    (hc : conform args = .ok (pySorted ps)) : chkSpecies ions args = .ok (pySorted ps) := by
  rw [chkSpecies_eq, hc]
  simp only [Except.bind]
  rw [if_neg]; rintro ⟨s, hs, hn, _⟩; exact hn (h.avail s (mem_pySorted.mp hs))

theorem chk_join {ions ps : List String} (h : Valid ions ps) :
    chkSpecies ions [.str (pyJoin '+' ps)] = .ok (pySorted ps) := chk_of_conform h (conform_join h)

theorem chk_args {ions ps : List String} (h : Valid ions ps) :
    chkSpecies ions (ps.map .str) = .ok (pySorted ps) := chk_of_conform h (conform_args h)

theorem resolve_of_chk {ions ps : List String} (h : Valid ions ps) {args : List String}
    (hc : chkSpecies ions (args.map .str) = .ok (pySorted ps)) : resolve ions args = .ok (pySorted ps) := by
  unfold resolve
  rw [hc]; simp only []
  rw [if_neg, if_neg, List.dedup_eq_self.mpr ((pySorted_perm ps).nodup_iff.mpr h.nodup)]
  · rw [List.isEmpty_iff]; intro e
    exact h.ne (List.perm_nil.mp ((pySorted_perm ps).symm.trans (by rw [e])))
  · simp only [List.any_eq_true, not_exists, not_and]
    intro s hs; simpa using h.avail s (mem_pySorted.mp hs)

theorem resolve_join {ions ps : List String} (h : Valid ions ps) :
    resolve ions [pyJoin '+' ps] = .ok (pySorted ps) := resolve_of_chk h (chk_join h)

theorem resolve_args {ions ps : List String} (h : Valid ions ps) :
    resolve ions ps = .ok (pySorted ps) := resolve_of_chk h (chk_args h)

theorem query_join {α : Type} {ions ps : List String} (h : Valid ions ps) (tot : List String → α)
    (one : String → α) : query ions [pyJoin '+' ps] tot one = .ok (.total (tot (pySorted ps))) := by
  unfold query; rw [resolve_join h]; rfl

theorem query_single {α : Type} {ions ps : List String} (h : Valid ions ps) {s : String} (hs : s ∈ ps)
    (tot : List String → α) (one : String → α) : query ions [s] tot one = .ok (.total (tot [s])) := by
  have := query_join (h.single hs) tot one
  rwa [pyJoin_singleton] at this

theorem query_args {α : Type} {ions ps : List String} (h : Valid ions ps) (hl : ps.length ≠ 1)
    (tot : List String → α) (one : String → α) :
    query ions ps tot one = .ok (.each ((pySorted ps).map fun s => (s, one s))) := by
  unfold query; rw [resolve_args h]; simp only []; rw [if_neg hl]

/-- A row in which everything needed is measured: real data. -/
structure RData where
  n : String → ℝ
  vx : String → ℝ
  vy : String → ℝ
  vz : String → ℝ
  w : String → String → ℝ
  bx : ℝ
  by_ : ℝ
  bz : ℝ

/-- The row `o` holds the measured values `d` for the species `ps`. -/
structure Measured (o : Obs) (ps : List String) (d : RData) : Prop where
  n : ∀ s ∈ ps, o.n s = .fin (d.n s)
  v : ∀ s ∈ ps, o.v s = V3.ofReal (d.vx s) (d.vy s) (d.vz s)
  w : ∀ s ∈ ps, ∀ c ∈ ["par", "per", "scalar"], o.w s c = .fin (d.w s c)
  b : o.b = V3.ofReal d.bx d.by_ d.bz

def RData.obs (d : RData) : Obs :=
  ⟨fun s => .fin (d.n s), fun s => V3.ofReal (d.vx s) (d.vy s) (d.vz s), fun s c => .fin (d.w s c),
   V3.ofReal d.bx d.by_ d.bz⟩

theorem RData.measured (d : RData) (ps : List String) : Measured d.obs ps d :=
  ⟨fun _ _ => rfl, fun _ _ => rfl, fun _ _ _ _ => rfl, rfl⟩

theorem Measured.sub {o : Obs} {ps qs : List String} {d : RData} (h : Measured o ps d)
    (hs : ∀ s ∈ qs, s ∈ ps) : Measured o qs d :=
  ⟨fun s h1 => h.n s (hs s h1), fun s h1 => h.v s (hs s h1), fun s h1 => h.w s (hs s h1), h.b⟩

theorem Measured.sorted {o : Obs} {ps : List String} {d : RData} (h : Measured o ps d) :
    Measured o (pySorted ps) d := h.sub (fun _ hs => mem_pySorted.mp hs)

theorem sum_sorted (ps : List String) (f : String → ℝ) : ((pySorted ps).map f).sum = (ps.map f).sum :=
  ((pySorted_perm ps).map f).sum_eq

variable {K o} {ps : List String} {d : RData}

theorem rhoS_fin (h : Measured o ps d) {s : String} (hs : s ∈ ps) :
    rhoS K o s = .fin (d.n s * K.mInMp s) := by
  unfold rhoS; rw [h.n s hs, Fl.fin_mul]

theorem rhoTot_fin (h : Measured o ps d) : rhoTot K o ps = .fin (ps.map fun s => d.n s * K.mInMp s).sum :=
  Fl.sumSkip_fin' _ _ _ (fun _ hs => rhoS_fin h hs)

/-- pressure of one species in `units.pth` -/
def pR (K : Const) (d : RData) (c s : String) : ℝ :=
  0.5 / K.uPth * ((d.w s c * K.uV) ^ 2 * (d.n s * K.mInMp s * K.uRho))

theorem pthS_fin (h : Measured o ps d) {c : String} (hc : c ∈ ["par", "per", "scalar"]) {s : String}
    (hs : s ∈ ps) : pthS K o c s = .fin (pR K d c s) := by
  unfold pthS; rw [rhoS_fin h hs, h.w s hs c hc]; simp only [Fl.fin_mul, Fl.sq_fin]; rfl

theorem pthTot_fin (h : Measured o ps d) {c : String} (hc : c ∈ ["par", "per", "scalar"]) :
    pthTot K o c ps = .fin (ps.map (pR K d c)).sum :=
  Fl.sumSkip_fin' _ _ _ (fun _ hs => pthS_fin h hc hs)

/-- temperature of one species in `units.temperature` -/
def tR (K : Const) (d : RData) (c s : String) : ℝ :=
  0.5 * K.m s / (K.kbJ * K.uT) * (d.w s c * K.uV) ^ 2

theorem tempS_fin (h : Measured o ps d) {c : String} (hc : c ∈ ["par", "per", "scalar"]) {s : String}
    (hs : s ∈ ps) : tempS K o c s = .fin (tR K d c s) := by
  unfold tempS; rw [h.w s hs c hc]; simp only [Fl.fin_mul, Fl.sq_fin]; rfl

theorem tempTot_fin (h : Measured o ps d) {c : String} (hc : c ∈ ["par", "per", "scalar"]) :
    tempTot K o c ps = .fin (ps.map (tR K d c)).sum :=
  Fl.sumSkip_fin' _ _ _ (fun _ hs => tempS_fin h hc hs)

/-- squared field -/
def bsqR (d : RData) : ℝ := d.bx ^ 2 + d.by_ ^ 2 + d.bz ^ 2

theorem bsqR_nonneg (d : RData) : 0 ≤ bsqR d := by unfold bsqR; positivity

theorem bmag_fin (h : Measured o ps d) : o.b.mag = .fin (Real.sqrt (bsqR d)) := by
  rw [h.b, V3.mag_ofReal]; rfl

theorem bsq_fin (h : Measured o ps d) : Fl.sq o.b.mag = .fin (bsqR d) := by
  rw [bmag_fin h, Fl.sq_fin, Real.sq_sqrt (bsqR_nonneg d)]

theorem b_sqSum_fin (h : Measured o ps d) : V3.sqSum o.b = .fin (bsqR d) := by
  rw [h.b]; unfold V3.sqSum V3.ofReal bsqR
  simp only [Fl.sq_fin, Fl.sumSkip_cons_fin, Fl.sumSkip_nil, Fl.zero_def, Fl.fin_add]
  congr 1; ring

theorem betaOf_fin (h : Measured o ps d) (hb : bsqR d ≠ 0) (p : ℝ) :
    betaOf K o (.fin p) = .fin (2 * K.mu0 * (p * K.uPth) / (bsqR d * K.uB ^ 2)) := by
  unfold betaOf
  have := K.uB_pos.ne'
  rw [bsq_fin h, Fl.fin_div _ _ hb, Fl.fin_mul]; congr 1; field_simp

theorem list_sum_pos {l : List String} {f : String → ℝ} (hne : l ≠ []) (h : ∀ s ∈ l, 0 < f s) :
    0 < (l.map f).sum := by
  induction l with
  | nil => exact absurd rfl hne
  | cons a l ih =>
    rw [List.map_cons, List.sum_cons]
    by_cases hl : l = []
    · subst hl; simpa using h a (by simp)
    · have := ih hl (fun s hs => h s (by simp [hs]))
      have := h a (by simp)
      linarith

theorem list_sum_nonneg {l : List String} {f : String → ℝ} (h : ∀ s ∈ l, 0 ≤ f s) :
    0 ≤ (l.map f).sum := by
  apply List.sum_nonneg; intro x hx; obtain ⟨s, hs, rfl⟩ := List.mem_map.mp hx; exact h s hs

theorem list_sum_eq_zero_iff {l : List String} {f : String → ℝ} (h : ∀ s ∈ l, 0 ≤ f s) :
    (l.map f).sum = 0 ↔ ∀ s ∈ l, f s = 0 := by
  induction l with
  | nil => simp
  | cons a l ih =>
    have h1 := h a (by simp)
    have h2 := list_sum_nonneg (l := l) (f := f) (fun s hs => h s (by simp [hs]))
    have ih := ih (fun s hs => h s (by simp [hs]))
    rw [List.map_cons, List.sum_cons, List.forall_mem_cons, ← ih]
    constructor
    · intro e; constructor <;> linarith
    · rintro ⟨e1, e2⟩; rw [e1, e2]; ring

theorem list_sum_mul_right (l : List String) (f : String → ℝ) (k : ℝ) :
    (l.map fun s => f s * k).sum = (l.map f).sum * k := by
  induction l with
  | nil => simp
  | cons a l ih => simp only [List.map_cons, List.sum_cons, ih]; ring

theorem list_sum_mul_left (l : List String) (f : String → ℝ) (k : ℝ) :
    (l.map fun s => k * f s).sum = k * (l.map f).sum := by
  induction l with
  | nil => simp
  | cons a l ih => simp only [List.map_cons, List.sum_cons, ih]; ring

theorem list_sum_add (l : List String) (f g : String → ℝ) :
    (l.map fun s => f s + g s).sum = (l.map f).sum + (l.map g).sum := by
  induction l with
  | nil => simp
  | cons a l ih => simp only [List.map_cons, List.sum_cons, ih]; ring

theorem list_sum_sub (l : List String) (f g : String → ℝ) :
    (l.map fun s => f s - g s).sum = (l.map f).sum - (l.map g).sum := by
  induction l with
  | nil => simp
  | cons a l ih => simp only [List.map_cons, List.sum_cons, ih]; ring

/-- mass density of one species -/
def rR (K : Const) (d : RData) (s : String) : ℝ := d.n s * K.mInMp s

theorem rR_pos (K : Const) {d : RData} {s : String} (h : 0 < d.n s) : 0 < rR K d s :=
  mul_pos h (K.mInMp_pos s)

/-- centre-of-mass value of a quantity -/
def comR (K : Const) (d : RData) (ps : List String) (f : String → ℝ) : ℝ :=
  (ps.map fun s => f s * rR K d s).sum / (ps.map (rR K d)).sum

theorem comR_sorted (K : Const) (d : RData) (ps : List String) (f : String → ℝ) :
    comR K d (pySorted ps) f = comR K d ps f := by
  unfold comR; rw [sum_sorted, sum_sorted]

theorem vCom_fin (h : Measured o ps d) (hr : (ps.map (rR K d)).sum ≠ 0) :
    vCom K o ps = V3.ofReal (comR K d ps d.vx) (comR K d ps d.vy) (comR K d ps d.vz) := by
  have hden : Fl.sumSkip (ps.map (rhoS K o)) = .fin (ps.map (rR K d)).sum :=
    Fl.sumSkip_fin' _ _ _ (fun _ hs => rhoS_fin h hs)
  have num : ∀ (f : V3 → Fl) (g : String → ℝ), (∀ s ∈ ps, f (o.v s) = .fin (g s)) →
      Fl.sumSkip (ps.map fun s => f (o.v s) * rhoS K o s) = .fin (ps.map fun s => g s * rR K d s).sum := by
    intro f g hg
    apply Fl.sumSkip_fin'; intro s hs; rw [hg s hs, rhoS_fin h hs, Fl.fin_mul]; rfl
  unfold vCom
  simp only []
  rw [num V3.x d.vx (fun s hs => by rw [h.v s hs]; rfl), num V3.y d.vy (fun s hs => by rw [h.v s hs]; rfl),
    num V3.z d.vz (fun s hs => by rw [h.v s hs]; rfl), hden, Fl.fin_div _ _ hr, Fl.fin_div _ _ hr,
    Fl.fin_div _ _ hr]
  rfl

theorem velocity_single {ions : List String} (hv : Valid ions ps) {s : String} (hs : s ∈ ps) :
    velocity K o ions [s] false = .ok (.total (o.v s)) := by
  have hsv := hv.single hs
  have hc := chk_join hsv
  rw [pyJoin_singleton] at hc
  unfold velocity
  rw [show ([s].map PyVal.str) = [.str s] from rfl, hc, show pySorted [s] = [s] from rfl]
  simp [hv.avail s hs]

theorem velocity_single_proj {ions : List String} (hv : Valid ions ps) {s : String} (hs : s ∈ ps) :
    velocity K o ions [s] true = .ok (.total (V3.scale (m2q K s) (o.v s))) := by
  have hsv := hv.single hs
  have hc := chk_join hsv
  rw [pyJoin_singleton] at hc
  unfold velocity
  rw [show ([s].map PyVal.str) = [.str s] from rfl, hc, show pySorted [s] = [s] from rfl]
  simp [hv.avail s hs]

theorem sorted_length (ps : List String) : (pySorted ps).length = ps.length := (pySorted_perm ps).length_eq

theorem velocity_join {ions : List String} (hv : Valid ions ps) (hl : 2 ≤ ps.length) :
    velocity K o ions [pyJoin '+' ps] false = .ok (.total (vCom K o (pySorted ps))) := by
  have hc := chk_join hv
  unfold velocity
  rw [show ([pyJoin '+' ps].map PyVal.str) = [.str (pyJoin '+' ps)] from rfl, hc]
  have hd := List.dedup_eq_self.mpr ((pySorted_perm ps).nodup_iff.mpr hv.nodup)
  rcases hs : pySorted ps with _ | ⟨a, _ | ⟨b, l⟩⟩
  · have := sorted_length ps; rw [hs] at this; simp at this; omega
  · have := sorted_length ps; rw [hs] at this; simp at this; omega
  · have hany : ((a :: b :: l).any fun s => !ions.contains s) = false := by
      rw [List.any_eq_false]
      intro s hms
      rw [← hs] at hms
      simpa using hv.avail s (mem_pySorted.mp hms)
    simp only [hany]
    rw [← hs, hd]
    simp

theorem plain_ne_join {ions : List String} (hv : Valid ions ps) (hl : 2 ≤ ps.length) {s : String} (hs : s ∈ ps) :
    s ≠ pyJoin '+' ps := by
  intro e
  have h1 := pySplit_pyJoin '+' ps hv.ne (fun p hp => by simpa [hasChar] using hv.plus p hp)
  rw [← e, pySplit_self '+' s (by simpa [hasChar] using hv.plus s hs)] at h1
  rw [← h1] at hl; simp at hl

theorem dv_single_com {ions : List String} (hv : Valid ions ps) (hl : 2 ≤ ps.length) {s : String} (hs : s ∈ ps) :
    dv K o ions s (pyJoin '+' ps) false = .ok (V3.sub (o.v s) (vCom K o (pySorted ps))) := by
  unfold dv
  rw [if_neg (plain_ne_join hv hl hs), velocity_single hv hs, velocity_join hv hl]

theorem dv_pair {ions : List String} (hv : Valid ions ps) {a b : String} (ha : a ∈ ps) (hb : b ∈ ps) (hab : a ≠ b) :
    dv K o ions a b false = .ok (V3.sub (o.v a) (o.v b)) := by
  unfold dv
  rw [if_neg hab, velocity_single hv ha, velocity_single hv hb]

theorem V3.sub_ofReal (a b c x y z : ℝ) :
    V3.sub (V3.ofReal a b c) (V3.ofReal x y z) = V3.ofReal (a - x) (b - y) (c - z) := by
  simp [V3.sub, V3.ofReal]

theorem V3.sqSum_ofReal (a b c : ℝ) : V3.sqSum (V3.ofReal a b c) = .fin (a ^ 2 + b ^ 2 + c ^ 2) := by
  unfold V3.sqSum V3.ofReal
  simp only [Fl.sq_fin, Fl.sumSkip_cons_fin, Fl.sumSkip_nil, Fl.zero_def, Fl.fin_add]
  congr 1; ring

theorem forEach_ok {α : Type} (f : String → Except PyErr α) (g : String → α) (l : List String)
    (h : ∀ s ∈ l, f s = .ok (g s)) : forEach f l = .ok (l.map g) := by
  induction l with
  | nil => rfl
  | cons a l ih =>
    rw [forEach, h a (by simp), ih (fun s hs => h s (by simp [hs]))]; rfl

theorem zip_map_self {α : Type} (l : List String) (g : String → α) :
    l.zip (l.map g) = l.map fun s => (s, g s) := by
  induction l with
  | nil => rfl
  | cons a l ih => simp [ih]

end
end SW
