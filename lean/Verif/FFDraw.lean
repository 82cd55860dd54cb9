import Verif.DrawOpts
import Verif.FFPlot

/-!
# Model: keyword options of the plotter of a fit

`FFPlot.plot_raw`, `plot_used`, `plot_fit` and `plot_raw_used_fit`: `/repo/solarwindpy/fitfunctions/plots.py:214-522`.  As in `DrawOpts`: which calls reach the axes with
which data and keywords.  Axis formatting, the legend and the warning about missing weights are not modelled; the text box itself is in `TexFull`.
-/

namespace SW
namespace Draw

/-- the data of a plot: abscissae, values, uncertainties if there are any -/
structure Obs where
  x : List Fl
  y : List Fl
  w : Option (List Fl)

/-- the keyword arguments of `plot_raw` / `plot_used`: `plot_window`, `edge_kwargs`, `window_kwargs`, and the others -/
structure ObsKw where
  window : Bool
  edge : Option Kw
  wkw : Kw
  kw : Kw

/-- the two edges of the window: plots.py:246-254, 284-290 (raw), 382-398 (used).  The names are resolved as those of a collection, then handed to `ax.plot`. -/
def obsEdges (o : Out) (edge : Option Kw) (x lo hi : List Fl) (wcolor : Val) : Out :=
  match edge with
  | none => o
  | some ek =>
    match canonKw collAlias ek with
    | .error e => { o with err := some e }
    | .ok ek =>
      let (color, ek) := pop "color" wcolor ek
      match call collAlias [("color", color)] ek with
      | .error e => { o with err := some e }
      | .ok k => o.draw (canonKw lineAlias k) (.line x lo) fun o => o.draw (canonKw lineAlias k) (.line x hi) id

/-- the common part of `plot_raw` (256-307) and `plot_used` (343-420): `named` are the options with defaults, `rest` those handed on.  Missing weights count as 0 for a
window (257-261, 346-350). -/
def drawObs (d : Obs) (a : ObsKw) (color : Val) (named rest : Kw) : Out :=
  let o : Out := ⟨[], none, a.wkw⟩
  if a.window then
    match canonKw collAlias a.wkw with
    | .error e => { o with err := some e }
    | .ok w =>
      let (wcolor, w) := pop "color" color w
      let (alpha, w) := pop "alpha" (some "0.15") w
      let b := FFP.window d.y d.w
      o.draw (call lineAlias named rest) (.line d.x d.y) fun o =>
        o.draw (call collAlias [("color", wcolor), ("alpha", alpha)] w) (.band d.x b.1 b.2) fun o =>
          obsEdges o a.edge d.x b.1 b.2 wcolor
  else o.draw (call lineAlias named rest) (.errorbar d.x d.y none d.w) id

/-- `plot_raw`: plots.py:214-311, defaults 201-202 -/
def plotRaw (d : Obs) (a : ObsKw) : Out :=
  match canonKw lineAlias a.kw with
  | .error e => ⟨[], some e, a.wkw⟩
  | .ok kw =>
    let (color, kw) := pop "color" (some "k") kw
    let (label, kw) := pop "label" (some "$\\mathrm{Obs}$") kw
    drawObs d a color [("color", color), ("label", label)] kw

/-- `plot_used`: plots.py:313-424 -/
noncomputable def plotUsed (d : Obs) (a : ObsKw) : Out :=
  match canonKw lineAlias a.kw with
  | .error e => ⟨[], some e, a.wkw⟩
  | .ok kw =>
    let (color, kw) := pop "color" (some "forestgreen") kw
    let (marker, kw) := pop "marker" (some "P") kw
    let (face, kw) := pop "markerfacecolor" (some "none") kw
    let (size, kw) := pop "markersize" (some "8") kw
    let (every, kw) := pop "markevery" none kw
    let (label, kw) := pop "label" (some "$\\mathrm{Used}$") kw
    let every := match every with
      | none => (FFP.markevery d.x.length).map toString
      | some v => some v
    drawObs d a color [("color", color), ("marker", marker), ("markerfacecolor", face), ("markersize", size), ("markevery", every), ("label", label)] kw

/-- what `plot_fit` and `plot_raw_used_fit` leave on the axes: curves, the text box with its keywords, and how they ended -/
structure Fig where
  evs : List Ev
  text : Option Kw
  err : Option PyErr

/-- `plot_fit`: plots.py:426-457: the curve over all observations -/
def plotFit (x fit : List Fl) (annotate : Bool) (akw kw : Kw) : Fig :=
  match canonKw lineAlias kw with
  | .error e => ⟨[], none, some e⟩
  | .ok kw =>
    let (color, kw) := pop "color" (some "darkorange") kw
    let (label, kw) := pop "label" (some "$\\mathrm{Fit}$") kw
    let (ls, kw) := pop "linestyle" (some "(0, (7, 3, 1, 3, 1, 3, 1, 3))") kw
    match call lineAlias [("color", color), ("label", label), ("linestyle", ls)] kw with
    | .error e => ⟨[], none, some e⟩
    | .ok k => ⟨[.line x fit k], if annotate then some akw else none, none⟩

/-- a keyword given twice in a call of a method -/
def repeated (names : List String) (d : Kw) : Bool := names.any fun n => decide (n ∈ d.map Prod.fst)

/-- `plot_raw_used_fit`: plots.py:459-522; `fit = none`: the default `zorder=2.2` (504-506) -/
noncomputable def rawUsedFit (raw used : Obs) (fit : List Fl) (drawstyle : Val) (annotate : Bool) (ra ua : ObsKw) (fkw : Option Kw) (akw : Kw) : Fig :=
  let style : Val := some (drawstyle.getD "steps-mid")
  let fkw := fkw.getD [("zorder", some "2.2")]
  if repeated ["ax", "drawstyle"] ra.kw then ⟨[], none, some .typeError⟩
  else
    let r := plotRaw raw { ra with kw := ("drawstyle", style) :: ra.kw }
    match r.err with
    | some e => ⟨r.evs, none, some e⟩
    | none =>
      if repeated ["ax", "drawstyle"] ua.kw then ⟨r.evs, none, some .typeError⟩
      else
        let u := plotUsed used { ua with kw := ("drawstyle", style) :: ua.kw }
        match u.err with
        | some e => ⟨r.evs ++ u.evs, none, some e⟩
        | none =>
          if repeated ["ax", "annotate", "annotate_kwargs"] fkw then ⟨r.evs ++ u.evs, none, some .typeError⟩
          else
            let f := plotFit raw.x fit annotate akw fkw
            ⟨r.evs ++ u.evs ++ f.evs, f.text, f.err⟩

end Draw
end SW
