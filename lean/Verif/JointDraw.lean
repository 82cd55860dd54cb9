import Verif.FFDraw

/-!
# Model: joint plots

`Hist2D.make_joint_h2_h1_plot` (`/repo/solarwindpy/plotting/hist2d.py:1037-1101`) and the combined plots of a trend fit
(`/repo/solarwindpy/fitfunctions/trend_fits.py:488-540`), composed of the plots of `DrawOpts` and `FFDraw`.  Axes are numbered.  Layout, ticks, legends and scales are not
modelled; the aggregated values of the two marginal histograms are given.
-/

namespace SW
namespace Draw

/-! ### 2-D histogram with its two marginal histograms -/

/-- the caller's `cbar_kwargs`: the entries `cax`, `ax` and `orientation` -/
structure BarKw where
  cax : Option Nat
  ax : Option Nat
  orientation : Option String
  deriving DecidableEq

/-- the caller's `kwargs_1d`: `plot_window`, `plot_window_edges`, `transpose_axes` if given, `window_kwargs`, and the others -/
structure Kw1 where
  window : Bool
  edges : Bool
  transpose : Option Bool
  wkw : Kw
  kw : Kw

/-- what is drawn, on which axes -/
inductive JEv where
  | mesh (ax : Nat)
  | bar (ax : Nat) (orientation : String)
  | curve (ax : Nat) (e : Ev)

/-- how the function ended and the caller's `cbar_kwargs` as left -/
structure JOut where
  evs : List JEv
  err : Option PyErr
  bar : BarKw

/-- the axes of the new figure: hist2d.py:1057-1060 -/
structure Axes4 where
  h : Nat
  x : Nat
  y : Nat
  c : Nat

/-- a marginal histogram: bin centres, values, uncertainties if two aggregations -/
structure Marg where
  x : List Fl
  y : List Fl
  dy : Option (List Fl)

/-- the two marginal plots: hist2d.py:1071-1079.  The y plot is called with `**kwargs_1d, transpose_axes=True`.  The dictionary `window_kwargs` inside is the same for both. -/
def marginals (a : Axes4) (mx my : Marg) (k : Kw1) (done : List JEv) (bar : BarKw) : JOut :=
  let o := makePlot ⟨k.transpose.getD false, k.window, k.edges⟩ mx.x mx.y mx.dy k.kw k.wkw
  let done := done ++ o.evs.map (.curve a.x)
  match o.err with
  | some e => ⟨done, some e, bar⟩
  | none =>
    if k.transpose.isSome then ⟨done, some .typeError, bar⟩
    else
      let o' := makePlot ⟨true, k.window, k.edges⟩ my.x my.y my.dy k.kw o.wkw
      ⟨done ++ o'.evs.map (.curve a.y), o'.err, bar⟩

/-- `make_joint_h2_h1_plot`: hist2d.py:1037-1101.  `cax` and `orientation` are popped from the caller's dictionary (1062-1064); what is left, perhaps `ax`, joins them in
the call of `make_plot`, whose colour bar refuses `ax` and `cax` together (base.py:238-239). -/
def joint (a : Axes4) (mx my : Marg) (cbar : Bool) (b : BarKw) (k : Kw1) : JOut :=
  let left : BarKw := { b with cax := none, orientation := none }
  if cbar then
    if b.ax.isSome then ⟨[.mesh a.h], some .valueError, left⟩
    else marginals a mx my k [.mesh a.h, .bar (b.cax.getD a.c) (b.orientation.getD "horizontal")] left
  else marginals a mx my k [.mesh a.h] left

/-! ### Trend fits -/

/-- the keywords of `plot_trend_fit_resid`; `others`: every further keyword -/
structure TrendKw where
  annotate : Option Kw
  used : Option ObsKw
  style : Option Val
  others : Kw

/-- the axes of data and fit, and the residual curves below -/
structure Two where
  top : Fig
  resid : List FFP.Curve

/-- `plot_trend_fit_resid`: trend_fits.py:488-505; `fn`: residuals weighted by the robust loss, if the fit kept them.  `plot_raw_used_fit_resid` (plots.py:652-714) draws the
residuals, in percent and of both kinds, after data and fit. -/
noncomputable def trendResid (raw used : Obs) (fit fitUsed : List Fl) (fn : Option (List Fl)) (k : TrendKw) : Two :=
  let f := rawUsedFit raw used fit (k.style.getD (some "default")) true ⟨true, none, [], []⟩ (k.used.getD ⟨true, none, [], [("color", some "k")]⟩) none
    (k.annotate.getD [("xloc", some "0.5"), ("yloc", some "0.1"), ("va", some "bottom")])
  match f.err with
  | some _ => ⟨f, []⟩
  | none =>
    match FFP.plotResid used.y fitUsed fn true FFP.bothW [] {} with
    | .ok c => ⟨f, c⟩
    | .error e => ⟨{ f with err := some e }, []⟩

/-- the keywords of `plot_all_popt_1d` -/
structure PoptKw where
  window : Bool
  wkeyNone : Bool
  wkw : Kw
  kw : Kw

/-- `plot_trend_and_resid_on_ffuncs`: trend_fits.py:507-523; it passes `ax=None` itself.  `p`: the 1-D parameters -/
noncomputable def trendOnFuncs (raw used : Obs) (fit fitUsed : List Fl) (fn : Option (List Fl)) (k : TrendKw) (p : List Fl × List Fl × List Fl) (q : PoptKw) : Two :=
  if repeated ["ax"] k.others then ⟨⟨[], none, some .typeError⟩, []⟩
  else
    let t := trendResid raw used fit fitUsed fn k
    match t.top.err with
    | some _ => t
    | none =>
      let o := plotPopt q.window q.wkeyNone p.1 p.2.1 p.2.2 q.kw q.wkw
      ⟨⟨t.top.evs ++ o.evs, t.top.text, o.err⟩, t.resid⟩

/-- `plot_1d_popt_and_trend`: trend_fits.py:525-545: first the parameters, then the trend -/
noncomputable def poptAndTrend (raw used : Obs) (fit : List Fl) (p : List Fl × List Fl × List Fl) (q : PoptKw) (style : Val) (annotate : Bool) (ra ua : ObsKw)
    (fkw akw : Option Kw) : Fig :=
  let o := plotPopt q.window q.wkeyNone p.1 p.2.1 p.2.2 q.kw q.wkw
  match o.err with
  | some e => ⟨o.evs, none, some e⟩
  | none =>
    let f := rawUsedFit raw used fit style annotate ra ua (some (fkw.getD [("color", some "limegreen")])) (akw.getD [])
    ⟨o.evs ++ f.evs, f.text, f.err⟩

end Draw
end SW
