import Verif.Fl
import Verif.Species
import Mathlib.Data.List.Dedup

/-!
# Model: the data held by a `Plasma` (core/plasma.py, core/ions.py, core/vector.py)

A `DataFrame` with `("M","C","S")` columns is a list of labelled columns; a column is a function from the row
type `ι` to `Fl`. Simplifications: column order (every `sort_index`) is not modelled, so a frame is observed
through `get` and its list of labels; `ι` stands for the (non-empty) time index -- base.py:236 rejects a frame
without rows. `.loc` with label lists raises KeyError for a label missing from its level (pandas >= 2.0,
pinned 2.3.2).
-/

namespace SW

/-- A column label `(M, C, S)`. -/
structure Col where
  m : String
  c : String
  s : String
  deriving DecidableEq

abbrev Frame (ι : Type) := List (Col × (ι → Fl))

namespace Frame
variable {ι : Type}

/-- `df.columns` -/
def cols (f : Frame ι) : List Col := f.map Prod.fst

/-- `df[label]` (first column of that label). -/
def get (f : Frame ι) (c : Col) : Option (ι → Fl) := (f.find? (fun p => p.1 = c)).map Prod.snd

/-- `df.loc[:, ~df.columns.duplicated()]` -/
def dropDup : Frame ι → Frame ι
  | [] => []
  | p :: t => p :: (dropDup t).filter (fun q => q.1 ≠ p.1)

/-- boolean column selection -/
def sel (f : Frame ι) (P : Col → Bool) : Frame ι := f.filter (fun p => P p.1)

end Frame

open _root_.SW.Frame

/-- core/plasma.py:735-739 measurements -/
def plasmaM : List String := ["b", "n", "v", "w"]
/-- core/plasma.py:735-739 components -/
def plasmaC : List String := ["", "x", "y", "z", "per", "par"]

/-- `tk_plasma`, core/plasma.py:735-739: does a label survive the selection? -/
def keepCol (species : List String) (c : Col) : Bool :=
  plasmaM.contains c.m && plasmaC.contains c.c && (species ++ [""]).contains c.s

/-- Weighted squares of the measured components, core/plasma.py:745-751: `coeff` is 2/3 for "per", 1/3 for
"par". -/
noncomputable def wCoeff (c : String) : ℝ := if c = "per" then 2 / 3 else 1 / 3

/-- One value of the scalar thermal speed, core/plasma.py:745-759: `groupby("S").sum()` skips NaN. The group of
a species contains its "par" and "per" columns, in that (sorted) order, each at most once after the
duplicate removal. -/
noncomputable def scalarW {ι : Type} (par per : Option (ι → Fl)) : ι → Fl := fun i =>
  Fl.sqrt (Fl.sumSkip (
    (par.toList.map fun v => Fl.sq (v i) * Fl.fin (wCoeff "par")) ++
    (per.toList.map fun v => Fl.sq (v i) * Fl.fin (wCoeff "per"))))

/-- The `("w","scalar",s)` columns appended at core/plasma.py:745-766. -/
noncomputable def scalarCols {ι : Type} (data : Frame ι) : Frame ι :=
  let ss := ((data.sel (fun c => c.m == "w" && (c.c == "par" || c.c == "per"))).cols.map Col.s).dedup
  ss.map fun s => (⟨"w", "scalar", s⟩, scalarW (data.get ⟨"w", "par", s⟩) (data.get ⟨"w", "per", s⟩))

/-- The stored data, core/plasma.py:741-769. -/
noncomputable def buildData {ι : Type} (species : List String) (new : Frame ι) : Frame ι :=
  let data := (new.sel (keepCol species)).dropDup
  data ++ scalarCols data

/-- `Plasma.set_data`, core/plasma.py:724-786, including the failures of the `.loc` selections and of
`BField(data.b.xs("", axis=1, level="S"))` (core/vector.py:60-70). -/
noncomputable def setData {ι : Type} (species : List String) (new : Frame ι) : Except PyErr (Frame ι) :=
  if new.isEmpty then .error .valueError
  else if !(plasmaM.all (fun m => (new.cols.map Col.m).contains m)
      && plasmaC.all (fun c => (new.cols.map Col.c).contains c)
      && (species ++ [""]).all (fun s => (new.cols.map Col.s).contains s)) then .error .keyError
  else
    let data := (new.sel (keepCol species)).dropDup
    if (data.sel (fun c => c.m == "w" && (c.c == "par" || c.c == "per"))).isEmpty then .error .keyError
    else if (data.sel (fun c => c.m == "b")).isEmpty then .error .attributeError
    else if (data.sel (fun c => c.m == "b" && c.s == "")).isEmpty then .error .keyError
    else if !(["x", "y", "z"].all (fun k => data.cols.contains ⟨"b", k, ""⟩)) then .error .valueError
    else .ok (buildData species new)

/-- core/ions.py:136-146 -/
def ionRequired (s : String) : List Col :=
  [⟨"n", "", s⟩, ⟨"v", "x", s⟩, ⟨"v", "y", s⟩, ⟨"v", "z", s⟩, ⟨"w", "par", s⟩, ⟨"w", "per", s⟩]

/-- `Ion(data, s)`, core/ions.py:78-148 (species names with "+" were rejected before). -/
def ionCheck {ι : Type} (data : Frame ι) (s : String) : Except PyErr Unit :=
  if !(data.cols.map Col.s).contains s then .error .keyError
  else if (ionRequired s).all (fun c => data.cols.contains c) then .ok ()
  else .error .valueError

/-- A `Plasma`: species and data. Spacecraft and auxiliary data are attached in `Attach` below. -/
structure Plasma (ι : Type) where
  species : List String
  data : Frame ι

/-- run `ionCheck` for each species in turn -/
def ionChecks {ι : Type} (data : Frame ι) : List String → Except PyErr Unit
  | [] => .ok ()
  | s :: l => match ionCheck data s with
    | .error e => .error e
    | .ok _ => ionChecks data l

/-- `Plasma.__init__` without spacecraft/auxiliary data, core/plasma.py:199-206: species, data, ions. -/
noncomputable def mkPlasma {ι : Type} (new : Frame ι) (sp : List String) : Except PyErr (Plasma ι) :=
  match cleanSpecies sp with
  | .error e => .error e
  | .ok s0 => match setData s0 new with
    | .error e => .error e
    | .ok d => match setIonsSpecies s0 with
      | .error e => .error e
      | .ok s1 => match ionChecks d s1 with
        | .error e => .error e
        | .ok _ => .ok ⟨s1, d⟩

/-- core/plasma.py:577-580 and 584-587: columns kept by `drop_species`. -/
def dropKeep (remaining : List String) (c : Col) : Bool := c.s == "" || remaining.contains c.s

/-- `Plasma.drop_species`, core/plasma.py:553-596 (data part). -/
noncomputable def dropSpecies {ι : Type} (p : Plasma ι) (args : List PyVal) : Except PyErr (Plasma ι) :=
  match chkSpecies p.species args with
  | .error e => .error e
  | .ok drop =>
    let remaining := p.species.filter (fun s => !drop.contains s)
    if remaining.isEmpty then .error .valueError
    else mkPlasma (p.data.sel (dropKeep remaining)) remaining

/-- `drop_species`, auxiliary part, core/plasma.py:582-588. -/
def dropAux {ι : Type} (remaining : List String) (aux : Option (Frame ι)) : Option (Frame ι) :=
  aux.map (fun a => a.sel (dropKeep remaining))

/-! ### Lemmas about frames -/
namespace Frame
variable {ι : Type}

theorem mem_cols {f : Frame ι} {c : Col} : c ∈ f.cols ↔ ∃ v, (c, v) ∈ f := by
  simp [cols]

theorem get_isSome {f : Frame ι} {c : Col} : (f.get c).isSome ↔ c ∈ f.cols := by
  simp [get, mem_cols]

theorem get_eq_none {f : Frame ι} {c : Col} : f.get c = none ↔ c ∉ f.cols := by
  rw [← get_isSome]; simp

theorem get_nil (c : Col) : get ([] : Frame ι) c = none := rfl

theorem get_cons (p : Col × (ι → Fl)) (f : Frame ι) (c : Col) :
    get (p :: f) c = if p.1 = c then some p.2 else get f c := by
  unfold get
  rw [List.find?_cons]
  by_cases h : p.1 = c <;> simp [h]

theorem get_append (f g : Frame ι) (c : Col) : get (f ++ g) c = (get f c).or (get g c) := by
  induction f with
  | nil => simp [get_nil]
  | cons p f ih =>
    rw [List.cons_append, get_cons, get_cons, ih]
    split <;> simp

theorem get_sel (f : Frame ι) (P : Col → Bool) (c : Col) :
    get (f.sel P) c = if P c then get f c else none := by
  induction f with
  | nil => simp [sel, get_nil]
  | cons p f ih =>
    unfold sel at ih ⊢
    rw [List.filter_cons, get_cons]
    by_cases hP : P p.1
    · simp only [hP, if_true]
      rw [get_cons, ih]
      by_cases h : p.1 = c
      · subst h; simp [hP]
      · simp [h]
    · simp only [hP]
      by_cases h : p.1 = c
      · subst h; simp only [hP]; rw [if_neg (by simp)]; rw [ih]; simp [hP]
      · simp only [h, if_false]; exact ih

theorem get_dropDup (f : Frame ι) (c : Col) : get f.dropDup c = get f c := by
  induction f with
  | nil => rfl
  | cons p f ih =>
    rw [dropDup, get_cons, get_cons]
    have := get_sel (dropDup f) (fun q => decide (q ≠ p.1)) c
    unfold sel at this
    by_cases h : p.1 = c
    · simp [h]
    · rw [if_neg h, if_neg h]
      rw [this, ih]
      simp [Ne.symm h]

theorem cols_sel (f : Frame ι) (P : Col → Bool) : (f.sel P).cols = f.cols.filter P := by
  unfold sel cols
  rw [List.filter_map]; rfl

theorem nodup_dropDup (f : Frame ι) : f.dropDup.cols.Nodup := by
  induction f with
  | nil => simp [dropDup, cols]
  | cons p f ih =>
    have h := cols_sel (dropDup f) (fun q => decide (q ≠ p.1))
    unfold sel at h
    rw [dropDup]
    show (p.1 :: cols _).Nodup
    rw [h, List.nodup_cons]
    exact ⟨by simp, ih.filter _⟩

theorem mem_cols_dropDup {f : Frame ι} {c : Col} : c ∈ f.dropDup.cols ↔ c ∈ f.cols := by
  rw [← get_isSome, get_dropDup, get_isSome]

theorem mem_cols_sel {f : Frame ι} {P : Col → Bool} {c : Col} :
    c ∈ (f.sel P).cols ↔ c ∈ f.cols ∧ P c = true := by
  rw [cols_sel, List.mem_filter]

theorem isEmpty_iff_cols {f : Frame ι} : f.isEmpty = true ↔ f.cols = [] := by
  simp [cols]

theorem get_map_label {ss : List String} (mk : String → Col) (hinj : Function.Injective mk)
    (v : String → ι → Fl) (s : String) :
    get (ss.map fun s => (mk s, v s)) (mk s) = if s ∈ ss then some (v s) else none := by
  induction ss with
  | nil => simp [get_nil]
  | cons a ss ih =>
    rw [List.map_cons, get_cons, ih]
    by_cases h : a = s
    · subst h; simp
    · have : mk a ≠ mk s := fun e => h (hinj e)
      simp [this, Ne.symm h]

end Frame

/-! ### Lemmas about the stored data -/
section
variable {ι : Type}

theorem keepCol_scalar (sp : List String) (m s : String) : keepCol sp ⟨m, "scalar", s⟩ = false := by
  simp [keepCol, plasmaC]

theorem keepCol_w (sp : List String) (s : String) (k : String) (hk : k = "par" ∨ k = "per") :
    keepCol sp ⟨"w", k, s⟩ = true ↔ s ∈ sp ∨ s = "" := by
  rcases hk with rfl | rfl <;> simp [keepCol, plasmaM, plasmaC]

theorem mem_scalar_species (data : Frame ι) (s : String) :
    s ∈ ((data.sel (fun c => c.m == "w" && (c.c == "par" || c.c == "per"))).cols.map Col.s).dedup ↔
      (⟨"w", "par", s⟩ : Col) ∈ data.cols ∨ (⟨"w", "per", s⟩ : Col) ∈ data.cols := by
  rw [List.mem_dedup, List.mem_map]
  constructor
  · rintro ⟨⟨m, c, s'⟩, h, rfl⟩
    rw [mem_cols_sel] at h
    obtain ⟨h1, h2⟩ := h
    simp only [Bool.and_eq_true, beq_iff_eq, Bool.or_eq_true] at h2
    obtain ⟨rfl, rfl | rfl⟩ := h2
    · exact Or.inl h1
    · exact Or.inr h1
  · rintro (h | h)
    · exact ⟨_, mem_cols_sel.mpr ⟨h, by simp⟩, rfl⟩
    · exact ⟨_, mem_cols_sel.mpr ⟨h, by simp⟩, rfl⟩

theorem scalarCols_label (data : Frame ι) (c : Col) (h : c ∈ (scalarCols data).cols) :
    c.m = "w" ∧ c.c = "scalar" := by
  rw [mem_cols] at h
  obtain ⟨v, h⟩ := h
  simp only [scalarCols, List.mem_map, Prod.mk.injEq] at h
  obtain ⟨s, _, rfl, _⟩ := h
  exact ⟨rfl, rfl⟩

theorem get_scalarCols (data : Frame ι) (s : String) :
    (scalarCols data).get ⟨"w", "scalar", s⟩ =
      if (⟨"w", "par", s⟩ : Col) ∈ data.cols ∨ (⟨"w", "per", s⟩ : Col) ∈ data.cols then
        some (scalarW (data.get ⟨"w", "par", s⟩) (data.get ⟨"w", "per", s⟩)) else none := by
  unfold scalarCols
  have := get_map_label (ι := ι)
    (ss := ((data.sel (fun c => c.m == "w" && (c.c == "par" || c.c == "per"))).cols.map Col.s).dedup)
    (fun s => (⟨"w", "scalar", s⟩ : Col)) (fun a b h => by injection h)
    (fun s => scalarW (data.get ⟨"w", "par", s⟩) (data.get ⟨"w", "per", s⟩)) s
  simp only [] at this ⊢
  rw [this]
  simp only [mem_scalar_species]

/-- Reading a stored column. -/
theorem get_buildData (sp : List String) (new : Frame ι) (c : Col) :
    (buildData sp new).get c =
      if keepCol sp c then new.get c
      else if c.m = "w" ∧ c.c = "scalar" ∧ (c.s ∈ sp ∨ c.s = "") ∧
          ((⟨"w", "par", c.s⟩ : Col) ∈ new.cols ∨ (⟨"w", "per", c.s⟩ : Col) ∈ new.cols) then
        some (scalarW (new.get ⟨"w", "par", c.s⟩) (new.get ⟨"w", "per", c.s⟩))
      else none := by
  obtain ⟨m, k, s⟩ := c
  unfold buildData
  simp only []
  rw [get_append, get_dropDup, get_sel]
  by_cases hk : keepCol sp ⟨m, k, s⟩ = true
  · simp only [hk, if_true]
    have hns : (scalarCols (new.sel (keepCol sp)).dropDup).get ⟨m, k, s⟩ = none := by
      rw [get_eq_none]; intro h
      have := scalarCols_label _ _ h
      simp only at this
      obtain ⟨rfl, rfl⟩ := this
      rw [keepCol_scalar] at hk; cases hk
    rw [hns, Option.or_none]
  · simp only [hk]
    rw [if_neg (by simp), if_neg (by simp), Option.none_or]
    by_cases hw : m = "w" ∧ k = "scalar"
    · obtain ⟨rfl, rfl⟩ := hw
      rw [get_scalarCols]
      simp only [mem_cols_dropDup, mem_cols_sel, keepCol_w sp s "par" (Or.inl rfl),
        keepCol_w sp s "per" (Or.inr rfl), get_dropDup, get_sel]
      by_cases hs : s ∈ sp ∨ s = ""
      · simp [hs]
      · simp [hs]
    · rw [if_neg (fun h => hw ⟨h.1, h.2.1⟩), get_eq_none]
      intro h; exact hw (scalarCols_label _ _ h)

theorem nodup_buildData (sp : List String) (new : Frame ι) : (buildData sp new).cols.Nodup := by
  unfold buildData
  simp only []
  have happ : ∀ f g : Frame ι, (f ++ g).cols = f.cols ++ g.cols := by intro f g; simp [cols]
  rw [happ, List.nodup_append]
  refine ⟨nodup_dropDup _, ?_, ?_⟩
  · unfold scalarCols cols
    simp only [List.map_map, Function.comp_def]
    exact (List.nodup_dedup _).map (fun a b h => by injection h)
  · rintro c h d hd rfl
    rw [mem_cols_dropDup, mem_cols_sel] at h
    obtain ⟨h1, h2⟩ := scalarCols_label _ _ hd
    obtain ⟨m, k, s⟩ := c
    simp only at h1 h2
    subst h1 h2
    rw [keepCol_scalar] at h; cases h.2

theorem ionChecks_ok {data : Frame ι} {l : List String} :
    ionChecks data l = .ok () ↔ ∀ s ∈ l, ionCheck data s = .ok () := by
  induction l with
  | nil => simp [ionChecks]
  | cons s l ih =>
    rw [ionChecks]
    cases h : ionCheck data s with
    | error e => simp [h]
    | ok u => simp [h, ih]

theorem ionCheck_ok {data : Frame ι} {s : String} :
    ionCheck data s = .ok () ↔ ∀ c ∈ ionRequired s, c ∈ data.cols := by
  unfold ionCheck
  by_cases h : ∀ c ∈ ionRequired s, c ∈ data.cols
  · have h1 : s ∈ data.cols.map Col.s := List.mem_map.mpr ⟨⟨"n", "", s⟩, h _ (by simp [ionRequired]), rfl⟩
    have h2 : (ionRequired s).all (fun c => data.cols.contains c) = true := by
      simpa [List.all_eq_true] using h
    rw [if_neg (by simpa using h1), if_pos h2]; simpa using h
  · constructor
    · intro hh; exfalso
      split at hh
      · cases hh
      · split at hh
        · rename_i h2; exact h (by simpa [List.all_eq_true] using h2)
        · cases hh
    · intro h'; exact absurd h' h

end

end SW
