import Verif.Activity

/-!
# Model: the sunspot-number object over its life, missing values of LISIRD, the colour-bar curve

Models `/repo/solarwindpy/solar_activity/sunspot_number/sidc.py:334-340, 393-541`, `solar_activity/base.py:248-256, 346-358`,
`solar_activity/lisird/lisird.py:115-134, 230-246`.
-/

namespace SW
namespace Act

noncomputable section
open Classical

/-! ### normalisation of a whole series -/

inductive NormKind where
  | max
  | zscore
  | feature
  deriving DecidableEq

/-- the `norm_by` argument: sidc.py:414-416 -/
def parseNorm (s : String) : Except PyErr NormKind :=
  if s = "max" then .ok .max else if s = "zscore" then .ok .zscore else if s = "feature-scale" then .ok .feature else .error .assertionError

/-- `norm_fcn`: sidc.py:420-433 -/
def normFcn : NormKind → List Fl → List Fl
  | .max => normMax
  | .zscore => normZ
  | .feature => normFeature

/-- the cycle of a time: `cut_spec_by_interval(index, kind="Cycle")`, base.py:347; `iv` are the (disjoint) cycle intervals -/
def cycleOf (iv : List Ivl) (t : Int) : Option Ivl := iv.find? (fun i => decide (i.Mem t))

/-- the rows of one cycle: base.py:348-355 -/
def groupOf (iv : List Ivl) (rows : List (Int × Fl)) (k : Ivl) : List (Int × Fl) := rows.filter (fun r => decide (cycleOf iv r.1 = some k))

/-- `_run_normalization`: base.py:346-358, sidc.py:400-412.  A cycle without data adds nothing (pandas yields it as an empty group) -/
def runNorm (iv : List Ivl) (k : NormKind) (rows : List (Int × Fl)) : List (Int × Fl) :=
  (iv.flatMap (fun c => ((groupOf iv rows c).map Prod.fst).zip (normFcn k ((groupOf iv rows c).map Prod.snd)))).insertionSort (fun a b => a.1 ≤ b.1)

/-- assigning a series to a column of a frame with index `idx` (distinct times) -/
def align (idx : List Int) (s : List (Int × Fl)) : List Fl :=
  idx.map (fun t => ((s.find? (fun p => decide (p.1 = t))).map Prod.snd).getD .nan)

/-! ### the object -/

inductive Key where
  | ssn
  | nssn
  deriving DecidableEq

/-- the frame of interpolated values -/
structure Interp where
  idx : List Int
  col : Key → Option (List Fl)

/-- `SIDC`: the loaded series, the normalised column, `_norm_by`, `_interpolated` -/
structure Sidc where
  rows : List (Int × Fl)
  nssn : Option (List Fl)
  normBy : Option String
  interp : Option Interp

/-- as constructed: sidc.py:307-313 -/
def Sidc.new (rows : List (Int × Fl)) : Sidc := ⟨rows, none, none, none⟩

/-- `run_normalization`: sidc.py:414-451; only AttributeError of a missing `_interpolated` is caught -/
def Sidc.runNormalization (iv : List Ivl) (by_ : String) (s : Sidc) : Except PyErr (List (Int × Fl)) × Sidc :=
  match parseNorm by_ with
  | .error e => (.error e, s)
  | .ok k =>
    let normed := runNorm iv k s.rows
    let s1 : Sidc := { s with nssn := some (align (s.rows.map Prod.fst) normed), normBy := some by_ }
    match s.interp with
    | none => (.ok normed, s1)
    | some f =>
      match f.col .ssn with
      | none => (.error .keyError, s1)
      | some v =>
        let ni := align f.idx (runNorm iv k (f.idx.zip v))
        (.ok normed, { s1 with interp := some ⟨f.idx, fun q => if q = .nssn then some ni else f.col q⟩ })

/-- `normalized`: sidc.py:393-398 -/
def Sidc.normalized (iv : List Ivl) (s : Sidc) : Except PyErr (List (Int × Fl)) × Sidc :=
  match s.nssn with
  | some v => (.ok ((s.rows.map Prod.fst).zip v), s)
  | none => s.runNormalization iv "max"

/-- `norm_by`: base.py:248-253 -/
def Sidc.getNormBy (s : Sidc) : Except PyErr String :=
  match s.normBy with
  | some b => .ok b
  | none => .error .attributeError

/-- a column of the data -/
def Sidc.column (s : Sidc) : Key → Option (List Fl)
  | .ssn => some (s.rows.map Prod.snd)
  | .nssn => s.nssn

/-- the measured rows of a column (`dropna`) -/
def measuredRows (idx : List Int) (v : List Fl) : List (Int × ℝ) :=
  (idx.zip v).filterMap (fun p => match p.2 with | .fin r => some (p.1, r) | _ => none)

/-- `interpolate_data`: sidc.py:335-340; the frame holds the one column interpolated -/
def Sidc.interpolateData (S : Spline) (target : List Int) (key : Key) (s : Sidc) : Except PyErr (List Fl) × Sidc :=
  match s.column key with
  | none => (.error .keyError, s)
  | some v =>
    match interpolate S (measuredRows (s.rows.map Prod.fst) v) target with
    | .error e => (.error e, s)
    | .ok out => (.ok out, { s with interp := some ⟨target, fun q => if q = key then some out else none⟩ })

/-- the band of one value -/
def bandOf (mx d : ℝ) : Fl → Option Nat
  | .fin v => (List.range (bandCount mx d)).find? (fun k => inBand d k v)
  | _ => none

/-- `cut_spec_by_ssn_band` (positive `dssn`): sidc.py:453-490.  A missing column of the interpolated frame is a KeyError whose argument is
given to `np.isnan` (line 473): TypeError; a column without measurements has no maximum and `np.arange` refuses (ValueError) -/
def Sidc.cutBand (key : Key) (d : ℝ) (s : Sidc) : Except PyErr (List (Option Nat)) :=
  if key = .nssn ∧ 1 ≤ d then .error .valueError
  else
    match s.column key with
    | none => .error .keyError
    | some c =>
      match gmax c with
      | .fin mx =>
        match s.interp with
        | none => .error .attributeError
        | some f =>
          match f.col key with
          | none => .error .typeError
          | some v => .ok (v.map (bandOf mx d))
      | _ => .error .valueError

/-- a call on the object -/
inductive Call where
  | run (b : String)
  | normalized
  | interpolate (target : List Int) (key : Key)
  | band (key : Key) (d : ℝ)
  | normBy

/-- the object after a call -/
def Sidc.step (iv : List Ivl) (S : Spline) (s : Sidc) : Call → Sidc
  | .run b => (s.runNormalization iv b).2
  | .normalized => (s.normalized iv).2
  | .interpolate t k => (s.interpolateData S t k).2
  | .band _ _ => s
  | .normBy => s

/-! ### LISIRD -/

/-- `convert_nans`: lisird.py:115-134; `mv` are the missing values of irradiance and uncertainty in the metadata, the data are given by columns -/
def lisirdNans (key : String) (mv0 mv1 : Fl) (cols : List (List Fl)) : Except PyErr (List (List Fl)) :=
  if key ∈ ["CaK", "MgII", "f107-noaa", "f107-penticton"] then .ok cols
  else if key = "Lalpha" then
    if Fl.le mv0 mv1 ∧ Fl.le mv1 mv0 then .ok (cols.map (fun c => c.map (fun v => if v = mv0 then .nan else v))) else .error .notImplemented
  else .error .notImplemented

/-- `LISIRD.run_normalization`, whatever the argument: lisird.py:241-245 -/
def lisirdNormalize (_ : String) : Except PyErr Unit := .error .notImplemented

/-! ### colour bar -/

/-- `np.round(x, -2)`: to the nearest hundred, ties to the even one -/
def round100 (x : ℝ) : Int :=
  let q := ⌊x / 100⌋
  let f := x / 100 - q
  100 * (if f < 1 / 2 then q else if 1 / 2 < f then q + 1 else if q % 2 = 0 then q else q + 1)

/-- `plot_on_colorbar`: the upper end `s1`, the drawn coordinate of a value, and the three tick labels: sidc.py:506-532 -/
def barTop (mx : ℝ) : Int := round100 mx
def barY (mx y0 y1 : ℝ) (v : Fl) : Fl := (v / .fin (barTop mx)) * .fin (y1 - y0) + .fin y0
def barTicks (mx : ℝ) : List Int := [0, ⌊(barTop mx : ℝ) / 2⌋, barTop mx]

end
end Act
end SW
