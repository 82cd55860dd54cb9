import Verif.Fl
import Verif.PyStr

/-!
# Model: keyword options of drawn curves

`Hist1D.make_plot` (`/repo/solarwindpy/plotting/hist1d.py:257-347`) and `TrendFit.plot_all_popt_1d`
(`/repo/solarwindpy/fitfunctions/trend_fits.py:428-483`) after the data are aggregated: which calls reach matplotlib, with which data and keywords, and in which state
the caller's dictionary is left.  matplotlib is modelled as far as it resolves aliases and refuses repeated keywords; unknown keywords are not refused here.
-/

namespace SW
namespace Draw

/-- a keyword value: None or some text (numbers and colours as written) -/
abbrev Val := Option String

/-- a dictionary with distinct keys -/
abbrev Kw := List (String × Val)

/-- `d.pop(k, default)`: the value and the dictionary left -/
def pop (k : String) (dflt : Val) (d : Kw) : Val × Kw := ((d.lookup k).getD dflt, d.filter fun e => decide (e.1 ≠ k))

/-- `mpl.lines.Line2D._alias_map` -/
def lineAlias (k : String) : String :=
  if k = "aa" then "antialiased" else if k = "c" then "color" else if k = "ds" then "drawstyle" else if k = "ls" then "linestyle"
  else if k = "lw" then "linewidth" else if k = "mec" then "markeredgecolor" else if k = "mew" then "markeredgewidth"
  else if k = "mfc" then "markerfacecolor" else if k = "mfcalt" then "markerfacecoloralt" else if k = "ms" then "markersize" else k

/-- `mpl.collections.Collection._alias_map` -/
def collAlias (k : String) : String :=
  if k = "antialiaseds" ∨ k = "aa" then "antialiased" else if k = "edgecolors" ∨ k = "ec" then "edgecolor"
  else if k = "facecolors" ∨ k = "fc" then "facecolor" else if k = "linestyles" ∨ k = "dashes" ∨ k = "ls" then "linestyle"
  else if k = "linewidths" ∨ k = "lw" then "linewidth" else if k = "transOffset" then "offset_transform" else k

/-- `mpl.cbook.normalize_kwargs`: canonical names; two names of the same option are a TypeError -/
def canonKw (canon : String → String) (d : Kw) : Except PyErr Kw :=
  if (d.map fun e => canon e.1).Nodup then .ok (d.map fun e => (canon e.1, e.2)) else .error .typeError

/-- a matplotlib call with named keywords and `**rest`: a repeated keyword is a TypeError, then aliases are resolved -/
def call (canon : String → String) (named rest : Kw) : Except PyErr Kw :=
  if ∃ k ∈ named.map Prod.fst, k ∈ rest.map Prod.fst then .error .typeError else canonKw canon (named ++ rest)

/-- what reaches the axes -/
inductive Ev where
  | line (x y : List Fl) (kw : Kw)
  | band (x lo hi : List Fl) (kw : Kw)
  | errorbar (x y : List Fl) (xerr yerr : Option (List Fl)) (kw : Kw)

/-- the calls made so far and how the function ended -/
structure Out where
  evs : List Ev
  err : Option PyErr
  /-- the caller's `window_kwargs` as left -/
  wkw : Kw

/-- one more call to the axes; an error ends the function -/
def Out.draw (o : Out) (c : Except PyErr Kw) (mk : Kw → Ev) (next : Out → Out) : Out :=
  match c with
  | .error e => { o with err := some e }
  | .ok k => next { o with evs := o.evs ++ [mk k] }

/-! ### Hist1D -/

/-- options of `Hist1D.make_plot` -/
structure Opts where
  transpose : Bool
  window : Bool
  edges : Bool

/-- `y - dy`, `y + dy`: arithmetic of a series (or array) with None is a TypeError -/
def minus (y : List Fl) (dy : Option (List Fl)) : Except PyErr (List Fl) :=
  match dy with
  | none => .error .typeError
  | some d => .ok (List.zipWith (fun a b => a - b) y d)
def plus (y : List Fl) (dy : Option (List Fl)) : Except PyErr (List Fl) :=
  match dy with
  | none => .error .typeError
  | some d => .ok (List.zipWith (fun a b => a + b) y d)

/-- the edges of the window, if asked for: hist1d.py:315-329 -/
def drawEdges (o : Out) (edges : Bool) (x y : List Fl) (dy : Option (List Fl)) (color ls : Val) (next : Out → Out) : Out :=
  if edges then
    match plus y dy with
    | .error e => { o with err := some e }
    | .ok hi => o.draw (call lineAlias [("color", color), ("linestyle", ls)] o.wkw) (.line x hi) fun o =>
        match minus y dy with
        | .error e => { o with err := some e }
        | .ok lo => o.draw (call lineAlias [("color", color), ("linestyle", ls)] o.wkw) (.line x lo) next
  else next o

/-- the window branch: hist1d.py:301-341; `fill_betweenx` when transposed takes the same arguments -/
def drawWindow (op : Opts) (x y : List Fl) (dy : Option (List Fl)) (kw wkw : Kw) : Out :=
  let (color, kw) := pop "color" none kw
  let (ls, kw) := pop "linestyle" (some "-") kw
  let (label, kw) := pop "label" none kw
  let (alpha, wkw) := pop "alpha" (some "0.15") wkw
  let (wcolor, wkw) := pop "color" color wkw
  let (wls, wkw) := pop "linestyle" ls wkw
  let o : Out := ⟨[], none, wkw⟩
  o.draw (call lineAlias [("color", color), ("linestyle", ls), ("label", label)] kw) (.line x y) fun o =>
    drawEdges o op.edges x y dy wcolor wls fun o =>
      match minus y dy with
      | .error e => { o with err := some e }
      | .ok lo =>
        match plus y dy with
        | .error e => { o with err := some e }
        | .ok hi => o.draw (call collAlias [("color", wcolor), ("linestyle", wls), ("alpha", alpha)] o.wkw) (.band x lo hi) id

/-- `Hist1D.make_plot` from the bin centres `x`, the bin values `y` and, for two aggregations, their uncertainties `dy`: hist1d.py:290-347.  `wkw` is the
`window_kwargs` dictionary of the caller. -/
def makePlot (op : Opts) (x y : List Fl) (dy : Option (List Fl)) (kw wkw : Kw) : Out :=
  let (style, kw) := pop "drawstyle" (some "steps-mid") kw
  let (x', y') := if op.transpose then (y, x) else (x, y)
  let (xerr, yerr) : Option (List Fl) × Option (List Fl) := if op.transpose then (dy, none) else (none, dy)
  match canonKw lineAlias kw with
  | .error e => ⟨[], some e, wkw⟩
  | .ok kw =>
    if op.window then drawWindow op x' y' yerr kw wkw
    else (⟨[], none, wkw⟩ : Out).draw (call lineAlias [("drawstyle", style)] kw) (.errorbar x' y' xerr yerr) id

/-! ### TrendFit -/

/-- `TrendFit.plot_all_popt_1d` from the abscissae `x`, the parameters `y` and their uncertainties `w`: trend_fits.py:428-483.  `wkeyNone`: `wkey=None` among the
keywords, which disables the error bars. -/
def plotPopt (window wkeyNone : Bool) (x y w : List Fl) (kw wkw : Kw) : Out :=
  match canonKw lineAlias kw with
  | .error e => ⟨[], some e, wkw⟩
  | .ok kw =>
    let (color, kw) := pop "color" (some "cyan") kw
    let (ls, kw) := pop "ls" (some "--") kw
    let (label, kw) := pop "label" (some "1D Fits") kw
    if window then
      if wkeyNone then ⟨[], some .notImplemented, wkw⟩
      else
        match canonKw collAlias wkw with
        | .error e => ⟨[], some e, wkw⟩
        | .ok w' =>
          let (wcolor, w') := pop "color" color w'
          let (alpha, w') := pop "alpha" (some "0.15") w'
          (⟨[], none, wkw⟩ : Out).draw (call lineAlias [("label", label), ("color", color)] kw) (.line x y) fun o =>
            o.draw (call collAlias [("color", wcolor), ("alpha", alpha)] w')
              (.band x (List.zipWith (fun a b => a - b) y w) (List.zipWith (fun a b => a + b) y w)) id
    else
      (⟨[], none, wkw⟩ : Out).draw (call lineAlias [("color", color), ("linestyle", ls), ("label", label)] kw)
        (.errorbar x y none (if wkeyNone then none else some w)) id

end Draw
end SW
