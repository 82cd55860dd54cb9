import Verif.PlasmaData

/-!
# Model: constructing, saving, loading a `Plasma`; attaching auxiliary and spacecraft data

`core/plasma.py`: `save` (296-395), `load_from_file` (397-493), `set_spacecraft` (598-635),
`set_auxiliary_data` (637-675).
-/

namespace SW
open _root_.SW.Frame

variable {ι : Type}

/-- When the data suffice for the requested species: every required ion column and the field components. -/
def DataOk (sp : List String) (new : Frame ι) : Prop :=
  (∀ s ∈ sp, ∀ c ∈ ionRequired s, c ∈ new.cols) ∧ ∀ k ∈ ["x", "y", "z"], (⟨"b", k, ""⟩ : Col) ∈ new.cols

theorem ionRequired_s {s : String} {c : Col} (h : c ∈ ionRequired s) : c.s = s := by
  simp only [ionRequired, List.mem_cons, List.not_mem_nil, or_false] at h
  rcases h with rfl | rfl | rfl | rfl | rfl | rfl <;> rfl

theorem keep_ionRequired {sp : List String} {s : String} (hs : s ∈ sp) {c : Col} (h : c ∈ ionRequired s) :
    keepCol sp c = true := by
  simp only [ionRequired, List.mem_cons, List.not_mem_nil, or_false] at h
  rcases h with rfl | rfl | rfl | rfl | rfl | rfl <;> simp [keepCol, plasmaM, plasmaC, hs]

theorem keep_b (sp : List String) {k : String} (h : k ∈ ["x", "y", "z"]) :
    keepCol sp ⟨"b", k, ""⟩ = true := by
  simp only [List.mem_cons, List.not_mem_nil, or_false] at h
  rcases h with rfl | rfl | rfl <;> simp [keepCol, plasmaM, plasmaC]

theorem mem_buildData_of_keep {sp : List String} {new : Frame ι} {c : Col} (h : keepCol sp c = true) :
    c ∈ (buildData sp new).cols ↔ c ∈ new.cols := by
  rw [← get_isSome, get_buildData, if_pos h, get_isSome]

theorem setData_ok_of (sp : List String) (new : Frame ι) (hne : sp ≠ []) (h : DataOk sp new) :
    setData sp new = .ok (buildData sp new) := by
  obtain ⟨hion, hb⟩ := h
  obtain ⟨s0, hs0⟩ := List.exists_mem_of_ne_nil sp hne
  have hcol : ∀ c ∈ ionRequired s0, c ∈ new.cols := hion s0 hs0
  have hbx := hb "x" (by simp)
  have hn := hcol ⟨"n", "", s0⟩ (by simp [ionRequired])
  have hvx := hcol ⟨"v", "x", s0⟩ (by simp [ionRequired])
  have hvy := hcol ⟨"v", "y", s0⟩ (by simp [ionRequired])
  have hvz := hcol ⟨"v", "z", s0⟩ (by simp [ionRequired])
  have hpar := hcol ⟨"w", "par", s0⟩ (by simp [ionRequired])
  have hper := hcol ⟨"w", "per", s0⟩ (by simp [ionRequired])
  have mM : ∀ {c : Col}, c ∈ new.cols → (new.cols.map Col.m).contains c.m = true := fun h => by
    simp only [List.contains_iff_mem, List.mem_map]; exact ⟨_, h, rfl⟩
  have mC : ∀ {c : Col}, c ∈ new.cols → (new.cols.map Col.c).contains c.c = true := fun h => by
    simp only [List.contains_iff_mem, List.mem_map]; exact ⟨_, h, rfl⟩
  have mS : ∀ {c : Col}, c ∈ new.cols → (new.cols.map Col.s).contains c.s = true := fun h => by
    simp only [List.contains_iff_mem, List.mem_map]; exact ⟨_, h, rfl⟩
  have nonempty : ∀ {c : Col} {P : Col → Bool}, c ∈ new.cols → keepCol sp c = true → P c = true →
      ¬ ((new.sel (keepCol sp)).dropDup.sel P).isEmpty = true := by
    intro c P hc hk hP he
    rw [isEmpty_iff_cols] at he
    have : c ∈ ((new.sel (keepCol sp)).dropDup.sel P).cols := by
      rw [mem_cols_sel, mem_cols_dropDup, mem_cols_sel]; exact ⟨⟨hc, hk⟩, hP⟩
    rw [he] at this; cases this
  unfold setData
  rw [if_neg (by rw [isEmpty_iff_cols]; intro h; rw [h] at hbx; cases hbx)]
  have hlev : (plasmaM.all (fun m => (new.cols.map Col.m).contains m)
      && plasmaC.all (fun c => (new.cols.map Col.c).contains c)
      && (sp ++ [""]).all (fun s => (new.cols.map Col.s).contains s)) = true := by
    simp only [Bool.and_eq_true]
    refine ⟨⟨?_, ?_⟩, ?_⟩
    · simp only [plasmaM, List.all_cons, List.all_nil, Bool.and_eq_true, and_true]
      exact ⟨mM hbx, mM hn, mM hvx, mM hpar⟩
    · simp only [plasmaC, List.all_cons, List.all_nil, Bool.and_eq_true, and_true]
      exact ⟨mC hn, mC hvx, mC hvy, mC hvz, mC hper, mC hpar⟩
    · rw [List.all_eq_true]
      intro s hs
      rcases List.mem_append.mp hs with hs | hs
      · exact mS (hion s hs ⟨"n", "", s⟩ (by simp [ionRequired]))
      · rw [List.mem_singleton] at hs; subst hs; exact mS hbx
  rw [if_neg (by rw [hlev]; simp)]
  simp only []
  rw [if_neg (nonempty hpar (keep_ionRequired hs0 (by simp [ionRequired])) (by simp)),
    if_neg (nonempty hbx (keep_b sp (by simp)) (by simp)),
    if_neg (nonempty hbx (keep_b sp (by simp)) (by simp)), if_neg]
  have : (["x", "y", "z"].all fun k => (new.sel (keepCol sp)).dropDup.cols.contains ⟨"b", k, ""⟩) = true := by
    rw [List.all_eq_true]
    intro k hk
    rw [List.contains_iff_mem, mem_cols_dropDup, mem_cols_sel]
    exact ⟨hb k hk, keep_b sp hk⟩
  simp only [this]; simp

theorem setData_ok_b {sp : List String} {new d : Frame ι} (h : setData sp new = .ok d) :
    d = buildData sp new ∧ ∀ k ∈ ["x", "y", "z"], (⟨"b", k, ""⟩ : Col) ∈ new.cols := by
  unfold setData at h
  split at h
  · cases h
  · split at h
    · cases h
    · simp only [] at h
      split at h
      · cases h
      · split at h
        · cases h
        · split at h
          · cases h
          · split at h
            · cases h
            · rename_i hb
              injection h with h
              refine ⟨h.symm, fun k hk => ?_⟩
              have hb' : (["x", "y", "z"].all fun k =>
                  (new.sel (keepCol sp)).dropDup.cols.contains ⟨"b", k, ""⟩) = true := by
                simpa only [Bool.not_eq_true', Bool.not_eq_false] using hb
              rw [List.all_eq_true] at hb'
              have := hb' k hk
              rw [List.contains_iff_mem, mem_cols_dropDup, mem_cols_sel] at this
              exact this.1

theorem mem_keep_sorted (sp : List String) (c : Col) : keepCol (pySorted sp) c = keepCol sp c := by
  unfold keepCol
  congr 1
  rw [Bool.eq_iff_iff, List.contains_iff_mem, List.contains_iff_mem]
  simp [mem_pySorted]

theorem dataOk_sorted {sp : List String} {new : Frame ι} : DataOk (pySorted sp) new ↔ DataOk sp new := by
  unfold DataOk; simp [mem_pySorted]

theorem cleanSpecies_ok (sp : List String) (hne : sp ≠ []) (hp : ∀ s ∈ sp, hasChar '+' s = false) :
    cleanSpecies sp = .ok (pySorted sp) := by
  unfold cleanSpecies
  rw [if_neg (by simpa using hne), if_neg]
  simp only [List.any_eq_true, not_exists, not_and]
  intro s hs; simp [hp s hs]

theorem setIons_ok (sp : List String) (hp : ∀ s ∈ sp, hasChar '+' s = false)
    (hc : ∀ s ∈ sp, hasChar ',' s = false) : setIonsSpecies sp = .ok sp := by
  have key : ionNames sp = sp := by
    match sp, hc with
    | [], _ => rfl
    | [s], hc => exact pySplit_self _ _ (hc s (by simp))
    | _ :: _ :: _, _ => rfl
  unfold setIonsSpecies
  rw [key, if_neg]
  simp only [List.any_eq_true, not_exists, not_and]
  intro s hs; simp [hp s hs]

/-- Construction with well-formed names succeeds exactly when the data suffice, and then holds the built
frame. -/
theorem mkPlasma_ok_iff (new : Frame ι) (sp : List String) (hne : sp ≠ [])
    (hp : ∀ s ∈ sp, hasChar '+' s = false) (hc : ∀ s ∈ sp, hasChar ',' s = false) (p : Plasma ι) :
    mkPlasma new sp = .ok p ↔
      DataOk sp new ∧ p = ⟨pySorted sp, buildData (pySorted sp) new⟩ := by
  have hne' : pySorted sp ≠ [] := fun h => hne (List.perm_nil.mp ((pySorted_perm sp).symm.trans (by rw [h])))
  have hp' : ∀ s ∈ pySorted sp, hasChar '+' s = false := fun s hs => hp s (mem_pySorted.mp hs)
  have hc' : ∀ s ∈ pySorted sp, hasChar ',' s = false := fun s hs => hc s (mem_pySorted.mp hs)
  unfold mkPlasma
  rw [cleanSpecies_ok sp hne hp]
  simp only []
  constructor
  · intro h
    cases hd : setData (pySorted sp) new with
    | error e => rw [hd] at h; cases h
    | ok d =>
      rw [hd] at h
      simp only [setIons_ok _ hp' hc'] at h
      obtain ⟨rfl, hb⟩ := setData_ok_b hd
      cases hi : ionChecks (buildData (pySorted sp) new) (pySorted sp) with
      | error e => rw [hi] at h; cases h
      | ok u =>
        rw [hi] at h
        injection h with h
        refine ⟨dataOk_sorted.mp ⟨fun s hs c hcm => ?_, hb⟩, h.symm⟩
        have := ionCheck_ok.mp (ionChecks_ok.mp hi s hs) c hcm
        rwa [mem_buildData_of_keep (keep_ionRequired hs hcm)] at this
  · rintro ⟨hok, rfl⟩
    have hok' := dataOk_sorted.mpr hok
    rw [setData_ok_of _ _ hne' hok']
    simp only [setIons_ok _ hp' hc']
    have : ionChecks (buildData (pySorted sp) new) (pySorted sp) = .ok () := by
      rw [ionChecks_ok]; intro s hs; rw [ionCheck_ok]; intro c hcm
      rw [mem_buildData_of_keep (keep_ionRequired hs hcm)]; exact hok'.1 s hs c hcm
    rw [this]

/-- A plasma that `Plasma(new, *sp)` returned for some data, with comma-free species names. -/
def Built (p : Plasma ι) : Prop :=
  ∃ (new : Frame ι) (sp : List String), (∀ s ∈ sp, ',' ∉ s.toList) ∧ mkPlasma new sp = .ok p

theorem built_spec {p : Plasma ι} (h : Built p) :
    ∃ new : Frame ι, p.species ≠ [] ∧ p.species.Pairwise (· ≤ ·) ∧ (∀ s ∈ p.species, hasChar '+' s = false) ∧
      (∀ s ∈ p.species, hasChar ',' s = false) ∧ DataOk p.species new ∧ p.data = buildData p.species new := by
  obtain ⟨new, sp, hc, hm⟩ := h
  have hc1 : ∀ s ∈ sp, hasChar ',' s = false := fun s hs => by simpa [hasChar] using hc s hs
  have hne : sp ≠ [] := by
    rintro rfl; simp [mkPlasma, cleanSpecies] at hm
  have hp : ∀ s ∈ sp, hasChar '+' s = false := by
    intro s hs
    by_contra hcon
    have hx : cleanSpecies sp = .error .assertionError := by
      unfold cleanSpecies
      rw [if_neg (by simpa using hne), if_pos]
      exact List.any_eq_true.mpr ⟨s, hs, by simpa using hcon⟩
    simp [mkPlasma, hx] at hm
  obtain ⟨hok, rfl⟩ := (mkPlasma_ok_iff new sp hne hp hc1 p).mp hm
  refine ⟨new, ?_, pySorted_pairwise _, ?_, ?_, dataOk_sorted.mpr hok, rfl⟩
  · exact fun h => hne (List.perm_nil.mp ((pySorted_perm sp).symm.trans (List.Perm.of_eq h)))
  · exact fun s hs => hp s (mem_pySorted.mp hs)
  · exact fun s hs => hc1 s (mem_pySorted.mp hs)

theorem dropKeep_iff {rem : List String} {c : Col} : dropKeep rem c = true ↔ c.s = "" ∨ c.s ∈ rem := by
  simp [dropKeep]

theorem keepCol_mono {rem sp : List String} (hsub : ∀ s ∈ rem, s ∈ sp) {c : Col}
    (h : keepCol rem c = true) : keepCol sp c = true := by
  simp only [keepCol, Bool.and_eq_true, List.contains_iff_mem, List.mem_append, List.mem_singleton] at h ⊢
  exact ⟨h.1, h.2.imp (hsub _) id⟩

theorem keepCol_iff_dropKeep {rem sp : List String} (hsub : ∀ s ∈ rem, s ∈ sp) {c : Col} :
    keepCol rem c = true ↔ keepCol sp c = true ∧ dropKeep rem c = true := by
  constructor
  · intro h
    refine ⟨keepCol_mono hsub h, ?_⟩
    simp only [keepCol, Bool.and_eq_true, List.contains_iff_mem, List.mem_append, List.mem_singleton] at h
    rw [dropKeep_iff]; exact h.2.symm
  · rintro ⟨h, hd⟩
    rw [dropKeep_iff] at hd
    simp only [keepCol, Bool.and_eq_true, List.contains_iff_mem, List.mem_append, List.mem_singleton] at h ⊢
    exact ⟨h.1, hd.symm⟩

/-- Re-building from already built data restricted to fewer species keeps the restricted columns. `P` is any
selection that keeps all non-scalar columns of the remaining species. -/
theorem get_rebuild (rem sp : List String) (hsub : ∀ s ∈ rem, s ∈ sp) (new : Frame ι) (P : Col → Bool)
    (hP : ∀ c, dropKeep rem c = true → c.c ≠ "scalar" → P c = true) (c : Col) :
    (buildData rem ((buildData sp new).sel P)).get c =
      if dropKeep rem c then (buildData sp new).get c else none := by
  obtain ⟨m, k, s⟩ := c
  rw [get_buildData]
  by_cases hk : keepCol rem ⟨m, k, s⟩ = true
  · have h2 := (keepCol_iff_dropKeep hsub).mp hk
    have hns : k ≠ "scalar" := by rintro rfl; rw [keepCol_scalar] at hk; cases hk
    rw [if_pos hk, if_pos h2.2, get_sel, if_pos (hP _ h2.2 hns)]
  · rw [if_neg hk]
    by_cases hd : dropKeep rem ⟨m, k, s⟩ = true
    · rw [if_pos hd]
      have hd' := dropKeep_iff.mp hd
      simp only at hd'
      have hks : ¬ keepCol sp ⟨m, k, s⟩ = true := fun h => hk ((keepCol_iff_dropKeep hsub).mpr ⟨h, hd⟩)
      rw [get_buildData, if_neg hks]
      simp only
      have hsp : s ∈ sp ∨ s = "" := hd'.elim Or.inr (fun h => Or.inl (hsub s h))
      have hwc : ∀ k', k' = "par" ∨ k' = "per" →
          ((buildData sp new).sel P).get ⟨"w", k', s⟩ = new.get ⟨"w", k', s⟩ := by
        intro k' hk'
        rw [get_sel, if_pos (hP _ (dropKeep_iff.mpr hd') (by rcases hk' with rfl | rfl <;> simp)), get_buildData,
          if_pos ((keepCol_w sp s k' hk').mpr hsp)]
      have hmem : ∀ k', k' = "par" ∨ k' = "per" →
          ((⟨"w", k', s⟩ : Col) ∈ ((buildData sp new).sel P).cols ↔ (⟨"w", k', s⟩ : Col) ∈ new.cols) := by
        intro k' hk'
        rw [← get_isSome, ← get_isSome, hwc k' hk']
      rw [hwc "par" (Or.inl rfl), hwc "per" (Or.inr rfl)]
      have : (s ∈ rem ∨ s = "") ↔ (s ∈ sp ∨ s = "") := ⟨fun _ => hsp, fun _ => hd'.symm⟩
      simp only [this, hmem "par" (Or.inl rfl), hmem "per" (Or.inr rfl)]
    · rw [if_neg hd, if_neg]
      rintro ⟨-, -, h, -⟩
      exact hd (dropKeep_iff.mpr h.symm)

theorem dataOk_rebuild (rem sp : List String) (hsub : ∀ s ∈ rem, s ∈ sp) (new : Frame ι) (P : Col → Bool)
    (hP : ∀ c, dropKeep rem c = true → c.c ≠ "scalar" → P c = true) (h : DataOk sp new) :
    DataOk rem ((buildData sp new).sel P) := by
  have key : ∀ c : Col, keepCol sp c = true → dropKeep rem c = true → c ∈ new.cols →
      c ∈ ((buildData sp new).sel P).cols := by
    intro c hk hd hc
    rw [mem_cols_sel, mem_buildData_of_keep hk]
    refine ⟨hc, hP c hd ?_⟩
    obtain ⟨m, k, s⟩ := c
    rintro hs; simp only at hs; subst hs; rw [keepCol_scalar] at hk; cases hk
  constructor
  · intro s hs c hcm
    refine key c (keep_ionRequired (hsub s hs) hcm) ?_ (h.1 s (hsub s hs) c hcm)
    rw [dropKeep_iff, ionRequired_s hcm]; exact Or.inr hs
  · intro k hk
    exact key _ (keep_b sp hk) (by simp [dropKeep]) (h.2 k hk)

/-! ### Saving and loading -/

/-- An HDF5 file with the three keys `save` writes: "FC", "SC", "FC_AUX". Reading back a written table is
assumed to be the identity (pytables is not modelled). `σ` is the spacecraft data. -/
structure HdfFile (ι σ : Type) where
  fc : Option (Frame ι)
  sc : Option σ
  aux : Option (Frame ι)

/-- A plasma with what is attached to it. -/
structure PlasmaObj (ι σ : Type) where
  core : Plasma ι
  sc : Option σ
  aux : Option (Frame ι)

/-- `Plasma.save` with default keys and no modifier functions, core/plasma.py:336-395. `to_hdf` opens the file
in append mode: each key that is not written keeps the content it had. -/
def savePlasma {σ : Type} (old : HdfFile ι σ) (p : PlasmaObj ι σ) : HdfFile ι σ where
  fc := some (p.core.data.sel (fun c => c.c != "scalar"))
  sc := p.sc.or old.sc
  aux := p.aux.or old.aux

/-- row selection `df.loc[start:stop]` / `df.loc[data.index]` -/
def restrictRows (R : ι → Prop) (f : Frame ι) : Frame {i // R i} := f.map fun p => (p.1, fun i => p.2 i.1)

/-- `set_auxiliary_data`, core/plasma.py:662-675, for a frame with the plasma's index and column names. -/
def attachAux {σ : Type} (p : PlasmaObj ι σ) (aux : Frame ι) : Except PyErr (PlasmaObj ι σ) :=
  if aux.cols.any (fun c => p.core.data.cols.contains c) then .error .valueError
  else .ok { p with aux := some aux }

/-- `Plasma.load_from_file`, core/plasma.py:431-493. `sckey`/`akey`: whether the key argument is truthy (both
are by default); `scid`: whether `sc_name` and `sc_frame` were given. `scSel` restricts spacecraft rows. -/
noncomputable def loadPlasma {σ σ' : Type} (R : ι → Prop) (scSel : σ → σ') (f : HdfFile ι σ) (species : List String)
    (sckey akey scid : Bool) : Except PyErr (PlasmaObj {i // R i} σ') :=
  match f.fc with
  | none => .error .keyError
  | some data =>
    let data := restrictRows R data
    let sp := if species.isEmpty then ((data.cols.map Col.s).dedup).filter (fun s => s != "") else species
    match mkPlasma data sp with
    | .error e => .error e
    | .ok core =>
      match (if sckey then
          (match f.sc with
            | none => .error .keyError
            | some sc => if scid then .ok (some (scSel sc)) else .error .valueError)
          else (.ok none : Except PyErr (Option σ'))) with
      | .error e => .error e
      | .ok sc =>
        if akey then
          match f.aux with
          | none => .error .keyError
          | some a => attachAux ⟨core, sc, none⟩ (restrictRows R a)
        else .ok ⟨core, sc, none⟩

theorem get_restrict (R : ι → Prop) (f : Frame ι) (c : Col) :
    (restrictRows R f).get c = (f.get c).map (fun v (i : {i // R i}) => v i.1) := by
  induction f with
  | nil => rfl
  | cons p f ih =>
    show Frame.get (_ :: restrictRows R f) c = _
    rw [get_cons, get_cons, ih]
    split <;> simp

theorem cols_restrict (R : ι → Prop) (f : Frame ι) : (restrictRows R f).cols = f.cols := by
  simp [restrictRows, cols]

theorem sel_restrict (R : ι → Prop) (f : Frame ι) (P : Col → Bool) :
    (restrictRows R f).sel P = restrictRows R (f.sel P) := by
  simp [restrictRows, sel, List.filter_map, Function.comp_def]

theorem get_build_restrict (R : ι → Prop) (sp : List String) (f : Frame ι) (c : Col) :
    (buildData sp (restrictRows R f)).get c =
      ((buildData sp f).get c).map (fun v (i : {i // R i}) => v i.1) := by
  rw [get_buildData, get_buildData]
  simp only [cols_restrict, get_restrict]
  split
  · rfl
  · split
    · simp only [Option.map_some, Option.some.injEq]
      funext i
      unfold scalarW
      cases f.get ⟨"w", "par", c.s⟩ <;> cases f.get ⟨"w", "per", c.s⟩ <;> rfl
    · rfl

/-! ### Attaching data: index and label validation -/

/-- Anything a user may pass as auxiliary or spacecraft data. `frame dt idx names cols`: a frame with or without a
DatetimeIndex, the index values, whether the column level names are the expected ones, and its labels. -/
inductive AttachArg where
  | none
  | notFrame
  | frame (dt : Bool) (idx : List ℤ) (names : Bool) (cols : List Col)
  deriving DecidableEq

/-- The part of the plasma the setters read and write. -/
structure AttachState where
  idx : List ℤ
  cols : List Col
  sc : AttachArg
  aux : AttachArg

/-- `set_auxiliary_data`, core/plasma.py:662-675: result and state afterwards. -/
def setAux (st : AttachState) : AttachArg → Except PyErr Unit × AttachState
  | .none => (.ok (), { st with aux := .none })
  | .notFrame => (.error .assertionError, st)
  | .frame dt idx names cols =>
    if !dt then (.error .assertionError, st)
    else if idx ≠ st.idx then (.error .assertionError, st)
    else if !names then (.error .assertionError, st)
    else if cols.any (fun c => st.cols.contains c) then (.error .valueError, st)
    else (.ok (), { st with aux := .frame dt idx names cols })

/-- `set_spacecraft`, core/plasma.py:623-635. -/
def setSc (st : AttachState) : AttachArg → Except PyErr Unit × AttachState
  | .none => (.ok (), { st with sc := .none })
  | .notFrame => (.error .assertionError, st)
  | .frame dt idx names cols =>
    if !dt then (.error .assertionError, st)
    else if idx ≠ st.idx then (.error .assertionError, st)
    else if !names then (.error .assertionError, st)
    else (.ok (), { st with sc := .frame dt idx names cols })

end SW
