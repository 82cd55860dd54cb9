import Verif.PlotTools
import Verif.PyStr

/-!
# Saving figures and selecting data interactively

Models `/repo/solarwindpy/plotting/tools.py:37-159` (`subplots`, `save`) and the history of a selection,
`/repo/solarwindpy/plotting/select_data_from_figure.py`.
-/

namespace SW
namespace PlotTools
open Classical

noncomputable section

/-! ## Files written by `save` -/

/-- a file name as a list of characters -/
abbrev Name := List Char

/-- `PurePath.suffix` is non-empty exactly if the last dot is neither first nor last; then the name splits into stem and suffix
(`pathlib`, Python 3.11-3.13: `i = name.rfind("."); 0 < i < len(name) - 1`). Used by tools.py:137, 152. -/
def stemOf (n : Name) : Name :=
  match n.reverse.span (· ≠ '.') with
  | (ext, _ :: stem) => if ext = [] ∨ stem = [] then n else stem.reverse
  | (_, []) => n

/-- `Path.with_suffix(ext)`: tools.py:137, 152; an empty name raises ValueError -/
def withSuffix (n : Name) (ext : Name) : Except PyErr Name :=
  if n = [] then .error .valueError else .ok (stemOf n ++ ext)

/-- a base path: directory and last component -/
structure FPath where
  dir : String
  name : Name

/-- what `save` accepts as its first argument: tools.py:114-118. An Axes is replaced by its figure. -/
inductive FigArg where
  | figure
  | axes
  | other
deriving DecidableEq

/-- one file on disk, by directory and name; the content is the list of attribution stamps drawn on the figure (a stamp is identified
with its time). The rest of the drawing is not modelled. -/
abbrev Disk := String → Name → Option (List Nat)

/-- the state of one figure and of the disk -/
structure SaveSt where
  stamps : List Nat
  disk : Disk

/-- options of one call: tools.py:69-79; `format` says whether `format` is among the keyword arguments -/
structure SaveOpt where
  addInfo : Bool := true
  pdf : Bool := true
  png : Bool := true
  format : Bool := false

def Disk.write (d : Disk) (dir : String) (n : Name) (c : List Nat) : Disk :=
  fun dir' n' => if dir' = dir ∧ n' = n then some c else d dir' n'

/-- `fig.savefig(spath.with_suffix(ext), ..., format=..., **kwargs)`: tools.py:136-141, 151-156. A second `format` raises TypeError
(after the path has been evaluated). -/
def savefig (o : SaveOpt) (p : FPath) (ext : Name) (s : SaveSt) : Except PyErr SaveSt :=
  match withSuffix p.name ext with
  | .error e => .error e
  | .ok n => if o.format then .error .typeError else .ok ⟨s.stamps, s.disk.write p.dir n s.stamps⟩

/-- `save`: tools.py:69-159: result and state left behind (also after an error). `isPath`: `spath` is a `Path`; `now` is the current
time. Logging is not modelled. -/
def save (arg : FigArg) (isPath : Bool) (p : FPath) (o : SaveOpt) (now : Nat) (s : SaveSt) : Except PyErr Unit × SaveSt :=
  if arg = .other then (.error .assertionError, s)
  else if !isPath then (.error .assertionError, s)
  else
    match (if o.pdf then savefig o p ['.', 'p', 'd', 'f'] s else .ok s) with
    | .error e => (.error e, s)
    | .ok s1 =>
      if o.png then
        let s2 : SaveSt := if o.addInfo then ⟨s1.stamps ++ [now], s1.disk⟩ else s1
        match savefig o p ['.', 'p', 'n', 'g'] s2 with
        | .error e => (.error e, s2)
        | .ok s3 => (.ok (), s3)
      else (.ok (), s1)

/-- a series of saves of the same figure, each at its own time -/
def saves (calls : List (FPath × SaveOpt × Nat)) (s : SaveSt) : SaveSt :=
  calls.foldl (fun s c => (save .figure true c.1 c.2.1 c.2.2 s).2) s

/-- `subplots`: tools.py:63-66: the figure size; `figsize` is the given or the default one -/
def figsize (nrows ncols : Nat) (sw sh : Fl) (figsize : Fl × Fl) : Fl × Fl :=
  ((sw * .fin ncols) * figsize.1, (sh * .fin nrows) * figsize.2)

/-! ## The history of a selection -/

/-- the text shown in the axes: select_data_from_figure.py:88-122, 153-178 -/
inductive SelText where
  | initial
  | patch (number : Int) (c : Patch)
  | final (patches : Int) (perPatch spectra empty : Nat)

/-- a selection in progress: select_data_from_figure.py:17-31. `drawn` are the rectangles in the axes. -/
structure Sel where
  initial : Nat
  corners : List Patch
  drawn : Nat
  text : SelText
  sampled : List Nat
  failed : List Patch
  connected : Bool

/-- `__init__`: select_data_from_figure.py:17-31, 180-184: `start_selector` passes `rectprops`, which matplotlib removed in version 3.7
(TypeError). `rects` rectangles are already in the axes, including any the selector widget adds. -/
def Sel.new (mplMinor : Nat) (rects : Nat) : Except PyErr Sel :=
  if 7 ≤ mplMinor then .error .typeError
  else .ok ⟨rects, [], rects, .initial, [], [], true⟩

/-- `num_selection_patches`: select_data_from_figure.py:74-76 -/
def Sel.numPatches (s : Sel) : Int := (s.drawn : Int) - s.initial

/-- what the user does: drag a rectangle, or finish with `n` samples per patch -/
inductive SelEv where
  | select (c : Patch)
  | disconnect (n : Nat)

/-- `onselect` and `disconnect`: select_data_from_figure.py:124-146, 186-265, 306-324. A disconnected selector receives no further
drags. -/
def Sel.step (S : Sampler) (logx logy : Bool) (data : List Datum) (s : Sel) : SelEv → Sel
  | .select c =>
    if s.connected then
      let s' := { s with drawn := s.drawn + 1, corners := s.corners ++ [c] }
      { s' with text := .patch s'.numPatches c }
    else s
  | .disconnect n =>
    let r := sampleData S n logx logy data none s.corners
    let s' := { s with sampled := r.1, failed := r.2, drawn := s.drawn + r.2.length }
    { s' with text := .final s'.numPatches n r.1.length r.2.length, connected := false }

def Sel.run (S : Sampler) (logx logy : Bool) (data : List Datum) (s : Sel) (evs : List SelEv) : Sel :=
  evs.foldl (Sel.step S logx logy data) s

end
end PlotTools
end SW
