import Verif.Contours
import Verif.JointDraw

/-!
# Model: 2-D histogram with contours on top

`Hist2D.plot_hist_with_contours` (`/repo/solarwindpy/plotting/hist2d.py:438-631`) and the parts of `Hist2D.plot_contours` (784-965) not in `Contours`: whole numbers of
levels, `limit_color_norm`.  Smoothing is not modelled; the levels matplotlib chooses are given.
-/

namespace SW
namespace Contour

open Draw (Kw Val pop repeated BarKw)

/-- the `levels` argument: none, a number of levels, or a list -/
inductive Levels where
  | none
  | count (n : Nat)
  | list (l : List ℝ)

/-- colour norms of a plot: the caller's, steps of 0.1, logarithmic, or matplotlib's default -/
inductive NormV where
  | own (name : String)
  | tenths
  | log
  | none
  deriving DecidableEq

/-- what is drawn -/
inductive HEv where
  /-- the histogram; `limited`: `_limit_color_norm` has set the limits of the norm -/
  | mesh (norm : NormV) (limited : Bool) (cmap : Val) (kw : Kw)
  | contours (filled : Bool) (levels : List ℝ) (linestyles : Option Val) (norm : NormV) (limited : Bool) (cmap : Val) (kw : Kw)
  | labels (levels : List ℝ) (opts : Val × Val × Val) (kw : Kw)
  | bar (ax : Nat) (orientation : Option String)

/-- the caller's dictionaries -/
structure Dicts where
  contour : Kw
  clabel : Kw
  bar : BarKw

/-- what the call left -/
structure HOut where
  evs : List HEv
  err : Option PyErr
  dicts : Dicts

/-- hist2d.py:516-525: `norm` absent (`Option.none`), an explicit None, or a norm -/
def meshNorm (axnorm : Option String) (norm : Option (Option String)) : NormV :=
  match norm with
  | some (some n) => .own n
  | some none => .none
  | Option.none =>
    if axnorm = some "c" ∨ axnorm = some "r" then .tenths
    else if axnorm = some "d" ∨ axnorm = some "cd" ∨ axnorm = some "rd" then .log
    else .none

/-- `_limit_color_norm(norm)`: hist2d.py:258-270: nothing for rows and columns; None has no limits -/
def limited (axnorm : Option String) (n : NormV) (limit : Bool) : Except PyErr Bool :=
  if !limit ∨ axnorm = some "c" ∨ axnorm = some "r" then .ok false
  else if n = .none then .error .attributeError
  else .ok true

/-- `_get_contour_levels`: hist2d.py:744-766; the default levels of the normalisation for None -/
noncomputable def levelsOf (axnorm : Option String) (lv : Levels) : Except PyErr Levels :=
  match lv with
  | .none => match Hist.contourLevels axnorm Option.none with
    | .error e => .error e
    | .ok (some l) => .ok (.list l)
    | .ok Option.none => .ok .none
  | lv => .ok lv

/-- the levels in the plot: those given, else matplotlib's (for a number of levels: its choice of about so many) -/
def drawnLevels (auto : List ℝ) : Levels → List ℝ
  | .list l => l
  | _ => auto

/-- the levels with a label, hist2d.py:607-620, 938-957: slicing None or a number fails and all are labelled; a number itself is no list of levels for `clabel` -/
noncomputable def labelsOf (auto : List ℝ) (skipMax : Bool) (lv : Levels) : Except PyErr (List ℝ) :=
  match lv with
  | .none => .ok auto
  | .count _ => if skipMax then .ok auto else .error .typeError
  | .list l => .ok (labelled l (some (if skipMax then l.dropLast else l)))

/-- the colour bar, hist2d.py:619-626, base.py:238-239: without `ax` and `cax` the dictionary gets `ax` -/
def drawBar (ax : Nat) (o : HOut) : HOut :=
  let b := o.dicts.bar
  match b.cax, b.ax with
  | some _, some _ => { o with err := some .valueError }
  | some c, Option.none => { o with evs := o.evs ++ [.bar c b.orientation] }
  | Option.none, some a => { o with evs := o.evs ++ [.bar a b.orientation] }
  | Option.none, Option.none => { o with evs := o.evs ++ [.bar ax b.orientation], dicts := { o.dicts with bar := { b with ax := some ax } } }

/-- the arguments of `plot_hist_with_contours` -/
structure HCall where
  ax : Nat
  axnorm : Option String
  norm : Option (Option String)
  cmap : Val
  limit : Bool
  levels : Levels
  labelLevels : Bool
  skipMax : Bool
  filled : Bool
  cbar : Bool
  kw : Kw

/-- labels and colour bar: hist2d.py:590-626 -/
noncomputable def finish (c : HCall) (auto : List ℝ) (lv : Levels) (o : HOut) : HOut :=
  if c.labelLevels then
    let p := labelOpts o.dicts.clabel
    let o := { o with dicts := { o.dicts with clabel := p.2 } }
    match labelsOf auto c.skipMax lv with
    | .error e => { o with err := some e }
    | .ok l =>
      let o := { o with evs := o.evs ++ [.labels l p.1 p.2] }
      if c.cbar then drawBar c.ax o else o
  else if c.cbar then drawBar c.ax o else o

/-- `plot_hist_with_contours`: hist2d.py:438-631.  The order: limits of the norm, histogram, levels, contours, labels, colour bar. -/
noncomputable def histContours (c : HCall) (auto : List ℝ) (d : Dicts) : HOut :=
  let n := meshNorm c.axnorm c.norm
  match limited c.axnorm n c.limit with
  | .error e => ⟨[], some e, d⟩
  | .ok lim =>
    let evs := [HEv.mesh n lim c.cmap c.kw]
    match levelsOf c.axnorm c.levels with
    | .error e => ⟨evs, some e, d⟩
    | .ok lv =>
      let styles := d.contour.lookup "linestyles"
      let rest := (pop "linestyles" Option.none d.contour).2
      let d := { d with contour := rest }
      if repeated ["cmap", "norm"] rest then ⟨evs, some .typeError, d⟩
      else finish c auto lv ⟨evs ++ [.contours c.filled (drawnLevels auto lv) styles n lim c.cmap rest], Option.none, d⟩

/-- the arguments of `plot_contours` that matter here: hist2d.py:784-965.  Its result is the norm and the levels drawn and labelled; `limit` (`limit_color_norm`) is not used. -/
noncomputable def contoursOnly (axnorm : Option String) (norm : Option (Option String)) (limit : Bool) (levels : Levels) (auto : List ℝ) (labelLevels skipMax : Bool) (ckw : Kw) :
    Except PyErr Plot :=
  let _ := limit
  match levels with
  | .none => hist2d axnorm norm Option.none auto labelLevels skipMax ckw
  | .list l => hist2d axnorm norm (some l) auto labelLevels skipMax ckw
  | .count _ =>
    match firstNorm axnorm norm with
    | .auto => .error .typeError
    | n =>
      if labelLevels then
        if skipMax then .ok ⟨auto, n, auto, labelOpts ckw⟩ else .error .typeError
      else .ok ⟨auto, n, [], labelOpts ckw⟩

end Contour
end SW
