import Verif.Props.PlasmaData
import Verif.Props.Units
import Verif.Props.Instability
import Verif.Props.ActivityCache
import Verif.Props.Activity
import Verif.Props.Labels
import Verif.Props.Scripts
import Verif.Props.PlotState
import Verif.Props.Orbit
import Verif.Props.FFPlot
import Verif.Props.PlasmaKinetic
import Verif.Props.FitGuess
import Verif.Props.HistPlot

/-! # Which error is raised, which default is used: sharpened statements found missing by wrong programs -/

namespace SW
open _root_.SW.Frame

/-! ### C03, C05: refusals of a plasma's data -/

/-- C03: naming the ions refuses exactly sums, with AssertionError; a single name may be a comma-separated list -/
theorem C03_ions_refused (sp : List String) :
    (setIonsSpecies sp = .error .assertionError ↔ ∃ s ∈ ionNames sp, hasChar '+' s = true) ∧
    (∀ e, setIonsSpecies sp = .error e → e = .assertionError) ∧ (∀ r, setIonsSpecies sp = .ok r → r = ionNames sp) := by
  unfold setIonsSpecies
  by_cases h : (ionNames sp).any (hasChar '+') = true
  · simp only [h, if_true]
    simp only [List.any_eq_true] at h
    simp [h]
  · simp only [h]
    have h' : ¬ ∃ s ∈ ionNames sp, hasChar '+' s = true := by simpa using h
    refine ⟨⟨fun g => by simp at g, fun g => absurd g h'⟩, fun e g => by simp at g, fun r g => ?_⟩
    simp only [Bool.false_eq_true, if_false, Except.ok.injEq] at g
    exact g.symm

/-- all names the data must have: measurements, components, species and the blank species -/
def HasLevels {ι : Type} (sp : List String) (new : Frame ι) : Prop :=
  (∀ m ∈ ["b", "n", "v", "w"], ∃ c ∈ new.cols, c.m = m) ∧ (∀ k ∈ ["", "x", "y", "z", "per", "par"], ∃ c ∈ new.cols, c.c = k) ∧
  ∀ s ∈ "" :: sp, ∃ c ∈ new.cols, c.s = s

/-- a column the plasma keeps: one of its measurements, components and species (or none) -/
def KeptCol {ι : Type} (sp : List String) (new : Frame ι) (c : Col) : Prop :=
  c ∈ new.cols ∧ c.m ∈ ["b", "n", "v", "w"] ∧ c.c ∈ ["", "x", "y", "z", "per", "par"] ∧ (c.s = "" ∨ c.s ∈ sp)

theorem keepCol_kept {ι : Type} (sp : List String) (new : Frame ι) (c : Col) :
    c ∈ ((new.sel (keepCol sp)).dropDup).cols ↔ KeptCol sp new c := by
  rw [mem_cols_dropDup, mem_cols_sel]
  unfold keepCol KeptCol plasmaM plasmaC
  simp only [Bool.and_eq_true, List.contains_iff_mem, List.mem_append, List.mem_singleton]
  tauto

theorem sel_empty {ι : Type} (d : Frame ι) (P : Col → Bool) : (d.sel P).isEmpty = true ↔ ¬ ∃ c ∈ d.cols, P c = true := by
  rw [isEmpty_iff_cols, cols_sel, List.filter_eq_nil_iff]
  simp

/-- C05: why data are refused, in the order the checks are made: no data at all (ValueError), a name missing altogether (KeyError), no
thermal speed component of a kept species (KeyError), no magnetic field (AttributeError), none without species (KeyError), not all
three of its components (ValueError); otherwise the data are accepted. -/
theorem C05_refused {ι : Type} (sp : List String) (new : Frame ι) :
    (new = [] → setData sp new = .error .valueError) ∧
    (new ≠ [] → ¬ HasLevels sp new → setData sp new = .error .keyError) ∧
    (HasLevels sp new → (¬ ∃ c, KeptCol sp new c ∧ c.m = "w" ∧ (c.c = "par" ∨ c.c = "per")) → setData sp new = .error .keyError) ∧
    (HasLevels sp new → (∃ c, KeptCol sp new c ∧ c.m = "w" ∧ (c.c = "par" ∨ c.c = "per")) →
      ((¬ ∃ c, KeptCol sp new c ∧ c.m = "b") → setData sp new = .error .attributeError) ∧
      ((∃ c, KeptCol sp new c ∧ c.m = "b") →
        ((¬ ∃ c, KeptCol sp new c ∧ c.m = "b" ∧ c.s = "") → setData sp new = .error .keyError) ∧
        ((∃ c, KeptCol sp new c ∧ c.m = "b" ∧ c.s = "") →
          ((¬ ∀ k ∈ ["x", "y", "z"], (⟨"b", k, ""⟩ : Col) ∈ new.cols) → setData sp new = .error .valueError) ∧
          ((∀ k ∈ ["x", "y", "z"], (⟨"b", k, ""⟩ : Col) ∈ new.cols) → ∃ d, setData sp new = .ok d)))) := by
  have hlev : ((plasmaM.all (fun m => (new.cols.map Col.m).contains m)
      && plasmaC.all (fun c => (new.cols.map Col.c).contains c)
      && (sp ++ [""]).all (fun s => (new.cols.map Col.s).contains s)) = true) ↔ HasLevels sp new := by
    unfold HasLevels plasmaM plasmaC
    simp only [Bool.and_eq_true, List.all_eq_true, List.contains_iff_mem, List.mem_map, List.mem_append, List.mem_singleton,
      List.mem_cons (a := _) (b := "") (l := sp), and_assoc]
    constructor
    · rintro ⟨h1, h2, h3⟩; exact ⟨h1, h2, fun s hs => h3 s hs.symm⟩
    · rintro ⟨h1, h2, h3⟩; exact ⟨h1, h2, fun s hs => h3 s hs.symm⟩
  have hne : HasLevels sp new → new ≠ [] := by
    rintro h rfl
    obtain ⟨c, hc, -⟩ := h.1 "b" (by simp)
    cases hc
  obtain ⟨D, hD⟩ : ∃ D, D = (new.sel (keepCol sp)).dropDup := ⟨_, rfl⟩
  have hk : ∀ c, c ∈ D.cols ↔ KeptCol sp new c := fun c => hD ▸ keepCol_kept sp new c
  have hdef : new ≠ [] → HasLevels sp new → setData sp new =
      (if (D.sel (fun c => c.m == "w" && (c.c == "par" || c.c == "per"))).isEmpty then .error .keyError
      else if (D.sel (fun c => c.m == "b")).isEmpty then .error .attributeError
      else if (D.sel (fun c => c.m == "b" && c.s == "")).isEmpty then .error .keyError
      else if !(["x", "y", "z"].all (fun k => D.cols.contains ⟨"b", k, ""⟩)) then .error .valueError
      else .ok (buildData sp new)) := by
    intro h0 h
    unfold setData
    rw [if_neg (by simpa using h0), if_neg (by rw [hlev.mpr h]; simp)]
    rw [hD]
  have e1 : (D.sel (fun c => c.m == "w" && (c.c == "par" || c.c == "per"))).isEmpty = true ↔
      ¬ ∃ c, KeptCol sp new c ∧ c.m = "w" ∧ (c.c = "par" ∨ c.c = "per") := by
    rw [sel_empty]; simp only [hk, Bool.and_eq_true, beq_iff_eq, Bool.or_eq_true]
  have e2 : (D.sel (fun c => c.m == "b")).isEmpty = true ↔ ¬ ∃ c, KeptCol sp new c ∧ c.m = "b" := by
    rw [sel_empty]; simp only [hk, beq_iff_eq]
  have e3 : (D.sel (fun c => c.m == "b" && c.s == "")).isEmpty = true ↔ ¬ ∃ c, KeptCol sp new c ∧ c.m = "b" ∧ c.s = "" := by
    rw [sel_empty]; simp only [hk, Bool.and_eq_true, beq_iff_eq]
  have e4 : (["x", "y", "z"].all (fun k => D.cols.contains ⟨"b", k, ""⟩)) = true ↔ ∀ k ∈ ["x", "y", "z"], (⟨"b", k, ""⟩ : Col) ∈ new.cols := by
    simp only [List.all_eq_true, List.contains_iff_mem, hk]
    unfold KeptCol
    constructor
    · intro h k hx; exact (h k hx).1
    · intro h k hx
      refine ⟨h k hx, by simp, ?_, Or.inl rfl⟩
      simp only [List.mem_cons, List.not_mem_nil, or_false] at hx
      rcases hx with rfl | rfl | rfl <;> simp
  refine ⟨?_, ?_, ?_, ?_⟩
  · rintro rfl; rfl
  · intro h0 h
    unfold setData
    rw [if_neg (by simpa using h0), if_pos (by rw [Bool.not_eq_true', Bool.eq_false_iff]; exact fun h' => h (hlev.mp h'))]
  · intro h h1
    rw [hdef (hne h) h, if_pos (e1.mpr h1)]
  · intro h h1
    have g1 : ¬ (D.sel (fun c => c.m == "w" && (c.c == "par" || c.c == "per"))).isEmpty = true := fun g => e1.mp g h1
    rw [hdef (hne h) h, if_neg g1]
    refine ⟨fun h2 => by rw [if_pos (e2.mpr h2)], fun h2 => ?_⟩
    rw [if_neg (fun g => e2.mp g h2)]
    refine ⟨fun h3 => by rw [if_pos (e3.mpr h3)], fun h3 => ?_⟩
    rw [if_neg (fun g => e3.mp g h3)]
    refine ⟨fun h4 => ?_, fun h4 => ?_⟩
    · rw [if_pos (by rw [Bool.not_eq_true', Bool.eq_false_iff]; exact fun g => h4 (e4.mp g))]
    · rw [if_neg (by rw [e4.mpr h4]; simp)]; exact ⟨_, rfl⟩

/-- all columns of one species and two components of the field: refused for the third with ValueError; without field components of no
species KeyError; with only the field of a species that is not kept AttributeError; without any field KeyError -/
def refusedFrame (b : List Col) : Frame Unit := (([⟨"n", "", "a"⟩, ⟨"v", "x", "a"⟩, ⟨"v", "y", "a"⟩, ⟨"v", "z", "a"⟩, ⟨"w", "par", "a"⟩,
  ⟨"w", "per", "a"⟩, ⟨"other", "", ""⟩] : List Col) ++ b).map (fun c => (c, fun _ => .nan))

example : setData ["a"] (refusedFrame [⟨"b", "x", ""⟩, ⟨"b", "y", ""⟩]) = .error .valueError ∧
    setData ["a"] (refusedFrame [⟨"b", "x", "a"⟩]) = .error .keyError ∧ setData ["a"] (refusedFrame [⟨"b", "x", "p"⟩]) = .error .attributeError ∧
    setData ["a"] (refusedFrame []) = .error .keyError := by
  have w : ∀ b, ∃ c, KeptCol ["a"] (refusedFrame b) c ∧ c.m = "w" ∧ (c.c = "par" ∨ c.c = "per") := fun b =>
    ⟨⟨"w", "par", "a"⟩, ⟨by simp [refusedFrame, Frame.cols], by simp, by simp, by simp⟩, rfl, Or.inl rfl⟩
  have lev : ∀ b : Col, b.m = "b" → HasLevels ["a"] (refusedFrame [b]) := by
    intro b hb
    unfold HasLevels refusedFrame Frame.cols
    refine ⟨?_, ?_, ?_⟩ <;> simp [hb]
  have lev2 : HasLevels ["a"] (refusedFrame [⟨"b", "x", ""⟩, ⟨"b", "y", ""⟩]) := by
    unfold HasLevels refusedFrame Frame.cols
    refine ⟨?_, ?_, ?_⟩ <;> simp
  refine ⟨?_, ?_, ?_, ?_⟩
  · refine (((C05_refused _ _).2.2.2 lev2 (w _)).2 ?_).2 ?_ |>.1 ?_
    · exact ⟨⟨"b", "x", ""⟩, ⟨by simp [refusedFrame, Frame.cols], by simp, by simp, by simp⟩, rfl⟩
    · exact ⟨⟨"b", "x", ""⟩, ⟨by simp [refusedFrame, Frame.cols], by simp, by simp, by simp⟩, rfl, rfl⟩
    · simp [refusedFrame, Frame.cols]
  · refine (((C05_refused _ _).2.2.2 (lev _ rfl) (w _)).2 ?_).1 ?_
    · exact ⟨⟨"b", "x", "a"⟩, ⟨by simp [refusedFrame, Frame.cols], by simp, by simp, by simp⟩, rfl⟩
    · rintro ⟨c, ⟨h, -, -, -⟩, h1, h2⟩
      simp only [refusedFrame, Frame.cols, List.map_map, List.mem_map] at h
      obtain ⟨d, hd, rfl⟩ := h
      simp only [List.mem_append, List.mem_cons, List.not_mem_nil, or_false] at hd
      simp only [Function.comp] at h1 h2
      rcases hd with (rfl | rfl | rfl | rfl | rfl | rfl | rfl) | rfl <;> simp at h1 h2
  · refine ((C05_refused _ _).2.2.2 (lev _ rfl) (w _)).1 ?_
    rintro ⟨c, ⟨h, -, -, h2⟩, h1⟩
    simp only [refusedFrame, Frame.cols, List.map_map, List.mem_map] at h
    obtain ⟨d, hd, rfl⟩ := h
    simp only [List.mem_append, List.mem_cons, List.not_mem_nil, or_false] at hd
    simp only [Function.comp] at h1 h2
    rcases hd with (rfl | rfl | rfl | rfl | rfl | rfl | rfl) | rfl <;> simp at h1 h2
  · refine (C05_refused _ _).2.1 (by simp [refusedFrame]) ?_
    rintro ⟨h, -, -⟩
    obtain ⟨c, hc, h1⟩ := h "b" (by simp)
    simp [refusedFrame, Frame.cols] at hc
    rcases hc with rfl | rfl | rfl | rfl | rfl | rfl | rfl <;> simp at h1

/-- C05: an ion is refused with KeyError if the data do not name it, with ValueError if they lack one of its six columns -/
theorem C05_ion_refused {ι : Type} (data : Frame ι) (s : String) :
    ((¬ ∃ c ∈ data.cols, c.s = s) → ionCheck data s = .error .keyError) ∧
    ((∃ c ∈ data.cols, c.s = s) → ionCheck data s = if ∀ c ∈ [(⟨"n", "", s⟩ : Col), ⟨"v", "x", s⟩, ⟨"v", "y", s⟩, ⟨"v", "z", s⟩,
      ⟨"w", "par", s⟩, ⟨"w", "per", s⟩], c ∈ data.cols then .ok () else .error .valueError) := by
  have h0 : (data.cols.map Col.s).contains s = true ↔ ∃ c ∈ data.cols, c.s = s := by
    simp only [List.contains_iff_mem, List.mem_map]
  have h1 : (ionRequired s).all (fun c => data.cols.contains c) = true ↔ ∀ c ∈ [(⟨"n", "", s⟩ : Col), ⟨"v", "x", s⟩, ⟨"v", "y", s⟩,
      ⟨"v", "z", s⟩, ⟨"w", "par", s⟩, ⟨"w", "per", s⟩], c ∈ data.cols := by
    simp only [List.all_eq_true, List.contains_iff_mem]; rfl
  unfold ionCheck
  constructor
  · intro h
    rw [if_pos (by rw [Bool.not_eq_true', Bool.eq_false_iff]; exact fun g => h (h0.mp g))]
  · intro h
    rw [if_neg (by rw [h0.mpr h]; simp)]
    by_cases g : (ionRequired s).all (fun c => data.cols.contains c) = true
    · rw [if_pos g, if_pos (h1.mp g)]
    · rw [if_neg g, if_neg (fun k => g (h1.mpr k))]

/-! ### C09, C91: refusals of attachments and of files -/

/-- C09: a refused attachment raises ValueError exactly if it fits the plasma but repeats one of its columns (auxiliary data only), and
AssertionError otherwise -/
theorem C09_errors (st : AttachState) (a : AttachArg) :
    (∀ e, (setSc st a).1 = .error e → e = .assertionError) ∧
    (∀ e, (setAux st a).1 = .error e → e = .assertionError ∨ e = .valueError) ∧
    ((setAux st a).1 = .error .valueError ↔ ∃ cols, a = .frame true st.idx true cols ∧ ∃ c ∈ cols, c ∈ st.cols) := by
  cases a with
  | none => simp [setAux, setSc]
  | notFrame => simp [setAux, setSc]
  | frame dt idx names cols =>
    have key : cols.any (fun c => st.cols.contains c) = true ↔ ∃ c ∈ cols, c ∈ st.cols := by simp
    refine ⟨?_, ?_, ?_⟩
    · intro e
      simp only [setSc]
      cases dt <;> cases names <;> by_cases h1 : idx = st.idx <;> simp [h1, eq_comm]
    · intro e
      simp only [setAux]
      by_cases h2 : cols.any (fun c => st.cols.contains c) = true
      · rw [if_pos h2]; cases dt <;> cases names <;> by_cases h1 : idx = st.idx <;> simp [h1, eq_comm] <;> tauto
      · rw [if_neg h2]; cases dt <;> cases names <;> by_cases h1 : idx = st.idx <;> simp [h1, eq_comm] <;> tauto
    · simp only [setAux]
      by_cases h2 : cols.any (fun c => st.cols.contains c) = true
      · rw [if_pos h2]; rw [key] at h2
        cases dt <;> cases names <;> by_cases h1 : idx = st.idx <;> simp [h1]; exact h2
      · rw [if_neg h2]; rw [key] at h2
        cases dt <;> cases names <;> by_cases h1 : idx = st.idx <;> simp [h1]; simpa using h2

/-- C91: a file without plasma data, or (once the plasma itself could be built) without the auxiliary data asked for, is a KeyError;
auxiliary data repeating a column a ValueError -/
theorem C91_missing_keys {ι σ σ' : Type} (R : ι → Prop) (scSel : σ → σ') (f : HdfFile ι σ) (sp : List String) (sckey akey scid : Bool) :
    (f.fc = none → loadPlasma R scSel f sp sckey akey scid = .error .keyError) ∧
    (∀ q, loadPlasma R scSel f sp false false scid = .ok q →
      (f.aux = none → loadPlasma R scSel f sp false true scid = .error .keyError) ∧
      (f.sc = none → loadPlasma R scSel f sp true akey scid = .error .keyError) ∧
      (∀ a, f.aux = some a → loadPlasma R scSel f sp false true scid =
        if ∃ c ∈ a.cols, c ∈ q.core.data.cols then .error .valueError else .ok { q with aux := some (restrictRows R a) })) := by
  constructor
  · intro h; unfold loadPlasma; rw [h]
  · intro q hq
    unfold loadPlasma at hq ⊢
    cases hfc : f.fc with
    | none => rw [hfc] at hq; simp at hq
    | some data =>
      rw [hfc] at hq
      simp only [Bool.false_eq_true, if_false] at hq ⊢
      split at hq
      · simp at hq
      · rename_i core hc
        simp only [Except.ok.injEq] at hq
        subst hq
        refine ⟨?_, ?_, ?_⟩
        · intro h; rw [h]; simp
        · intro h; rw [h]; simp
        · intro a h; rw [h]
          simp only [if_true]
          unfold attachAux
          rw [cols_restrict]
          by_cases hh : ∃ c ∈ a.cols, c ∈ core.data.cols
          · rw [if_pos hh, if_pos (by simpa using hh)]
          · rw [if_neg hh, if_neg (by simpa using hh)]

/-! ### C164: default units -/

/-- C164: the units a user leaves out take these values -/
theorem C164_defaults (mp e : ℝ) : (Uc.mkUnits mp e {}).distance2sun = 1 ∧ (Uc.mkUnits mp e {}).beta = 1 ∧ (Uc.mkUnits mp e {}).nc = 1 ∧
    ∀ g : Uc.Given, ∀ d, g.distance2sun = some d → (Uc.mkUnits mp e g).distance2sun = d := by
  refine ⟨?_, ?_, ?_, ?_⟩ <;> simp [Uc.mkUnits]
  · intro g d h; simp [h]

/-! ### C108: contour kinds -/

/-- C108: the kinds asked for are checked first: with a pandas that still has `iteritems`, contours are drawn iff every kind is one of
the four instabilities; otherwise ValueError, whatever the pandas version -/
theorem C108_contour_kinds {α : Type} (v : Nat) (kinds : List String) (d : α) :
    ((∃ k ∈ kinds, k ≠ "AIC" ∧ k ≠ "FMW" ∧ k ≠ "MM" ∧ k ≠ "OFI") → Insta.plotContours v kinds d = .error .valueError) ∧
    ((∀ k ∈ kinds, k = "AIC" ∨ k = "FMW" ∨ k = "MM" ∨ k = "OFI") →
      Insta.plotContours v kinds d = if v < 2 then .ok d else .error .attributeError) := by
  have key : kinds.all (fun x => x ∈ ["AIC", "FMW", "MM", "OFI"]) = true ↔ ∀ k ∈ kinds, k = "AIC" ∨ k = "FMW" ∨ k = "MM" ∨ k = "OFI" := by
    simp only [List.all_eq_true, decide_eq_true_eq, List.mem_cons, List.not_mem_nil, or_false]
  unfold Insta.plotContours
  constructor
  · rintro ⟨k, hk, h1, h2, h3, h4⟩
    rw [if_neg (fun h => by rcases key.mp h k hk with h | h | h | h <;> contradiction)]
    rfl
  · intro h
    rw [if_pos (key.mpr h)]
    unfold Insta.iteritems
    by_cases hv : v < 2
    · rw [if_pos hv, if_pos hv]; rfl
    · rw [if_neg hv, if_neg hv]; rfl

/-! ### C110, C65, C68 -/

/-- C110: a loader downloads iff the day it read at construction is before today -/
theorem C110_downloads (t : Nat) (l : Cache.Loader) : (Cache.downloads t l = 1 ↔ l.ctime < t) ∧ (Cache.downloads t l = 0 ↔ t ≤ l.ctime) := by
  unfold Cache.downloads
  split <;> constructor <;> constructor <;> intro h <;> simp_all <;> omega

/-- C65: the provisional end of a cycle still in progress is 2190 days after its maximum, in nanoseconds -/
theorem C65_six_years : Act.sixYears = 2190 * (24 * 60 * 60 * 10 ^ 9) := by decide

/-- C68: which candidates are dropped by name -/
theorem C68_trim (maxima minima : List Int) (name : String) :
    (Act.trim "LymanAlpha" maxima minima = (maxima.tail, minima)) ∧ (Act.trim "mg_index" maxima minima = (maxima.tail, minima)) ∧
    (Act.trim "delk1" maxima minima = (maxima, minima.tail.dropLast)) ∧ (Act.trim "viored" maxima minima = (maxima, minima.tail.dropLast)) ∧
    (Act.trim "f107" maxima minima = (maxima.tail, minima.dropLast)) ∧ (Act.trim "sd_70" maxima minima = (maxima, minima.dropLast)) ∧
    (Act.trim "sl_70" maxima minima = (maxima, minima.tail)) ∧
    (name ∉ ["LymanAlpha", "mg_index", "delk1", "viored", "f107", "sd_70", "sl_70"] → Act.trim name maxima minima = (maxima, minima)) := by
  refine ⟨?_, ?_, ?_, ?_, ?_, ?_, ?_, ?_⟩
  · simp [Act.trim]
  · simp [Act.trim]
  · simp [Act.trim]
  · simp [Act.trim]
  · simp [Act.trim]
  · simp [Act.trim]
  · simp [Act.trim]
  · intro h
    simp only [List.mem_cons, List.not_mem_nil, or_false, not_or] at h
    simp [Act.trim, h]

/-! ### C87: which texts Python's `int` reads -/

/-- groups of digits joined by single underscores -/
def DigitGroups (l : List Char) : Prop :=
  ∃ g : List (List Char), g ≠ [] ∧ (∀ x ∈ g, x ≠ [] ∧ ∀ c ∈ x, c.isDigit = true) ∧ l = List.intercalate ['_'] g

theorem intBody_iff : ∀ (l : List Char), (Labels.intBody false l = true ↔ DigitGroups l) ∧
    (Labels.intBody true l = true ↔ l = [] ∨ (∃ d r, l = d ++ r ∧ (∀ c ∈ d, c.isDigit = true) ∧ (r = [] ∨ ∃ t, r = '_' :: t ∧ DigitGroups t))) := by
  have ud : '_'.isDigit = false := by decide
  intro l
  induction l with
  | nil =>
    refine ⟨⟨fun h => by simp [Labels.intBody] at h, ?_⟩, by simp [Labels.intBody]⟩
    rintro ⟨g, hg, hx, h⟩
    cases g with
    | nil => exact absurd rfl hg
    | cons a g =>
      have ha := (hx a (by simp)).1
      cases a with
      | nil => exact absurd rfl ha
      | cons c a => cases g <;> simp [List.intercalate] at h
  | cons c cs ih =>
    obtain ⟨ihf, iht⟩ := ih
    -- digits followed by nothing or an underscore and groups are groups when the digits are not empty
    have hjoin : ∀ (x : List Char) (y : List Char) (ys : List (List Char)), List.intercalate ['_'] (x :: y :: ys) =
        x ++ '_' :: List.intercalate ['_'] (y :: ys) := by
      intro x y ys; simp [List.intercalate]
    constructor
    · unfold Labels.intBody
      by_cases hd : c.isDigit = true
      · rw [if_pos hd, iht]
        constructor
        · rintro (rfl | ⟨d, r, rfl, hdd, hr⟩)
          · exact ⟨[[c]], by simp, by simp [hd], by simp [List.intercalate]⟩
          · rcases hr with rfl | ⟨t, rfl, g, hg, hx, rfl⟩
            · refine ⟨[c :: d], by simp, ?_, by simp [List.intercalate]⟩
              intro x hx; rw [List.mem_singleton] at hx; subst hx
              exact ⟨by simp, fun a ha => by rcases List.mem_cons.mp ha with rfl | ha; exacts [hd, hdd a ha]⟩
            · cases g with
              | nil => exact absurd rfl hg
              | cons y ys =>
                refine ⟨(c :: d) :: y :: ys, by simp, ?_, by rw [hjoin]; simp⟩
                intro x hx'
                rcases List.mem_cons.mp hx' with rfl | h
                · exact ⟨by simp, fun a ha => by rcases List.mem_cons.mp ha with rfl | ha; exacts [hd, hdd a ha]⟩
                · exact hx x h
        · rintro ⟨g, hg, hx, h⟩
          cases g with
          | nil => exact absurd rfl hg
          | cons a g =>
            obtain ⟨ha, hda⟩ := hx a (by simp)
            cases a with
            | nil => exact absurd rfl ha
            | cons b a =>
              cases g with
              | nil =>
                simp [List.intercalate] at h
                obtain ⟨rfl, rfl⟩ := h
                exact Or.inr ⟨cs, [], by simp, fun x hx' => hda x (by simp [hx']), Or.inl rfl⟩
              | cons y ys =>
                rw [hjoin] at h
                simp only [List.cons_append, List.cons.injEq] at h
                obtain ⟨rfl, rfl⟩ := h
                exact Or.inr ⟨a, _, rfl, fun x hx' => hda x (by simp [hx']), Or.inr ⟨_, rfl, y :: ys, by simp,
                  fun x hx' => hx x (List.mem_cons_of_mem _ hx'), rfl⟩⟩
      · rw [if_neg hd]
        have : ¬ DigitGroups (c :: cs) := by
          rintro ⟨g, hg, hx, h⟩
          cases g with
          | nil => exact absurd rfl hg
          | cons a g =>
            obtain ⟨ha, hda⟩ := hx a (by simp)
            cases a with
            | nil => exact absurd rfl ha
            | cons b a =>
              have hb : c = b := by
                cases g with
                | nil => simp [List.intercalate] at h; exact h.1
                | cons y ys => rw [hjoin] at h; simp at h; exact h.1
              exact hd (hb ▸ hda b (by simp))
        simp only [this, iff_false]
        split <;> simp
    · unfold Labels.intBody
      by_cases hd : c.isDigit = true
      · rw [if_pos hd, iht]
        constructor
        · rintro (rfl | ⟨d, r, rfl, hdd, hr⟩)
          · exact Or.inr ⟨[c], [], by simp, by simp [hd], Or.inl rfl⟩
          · exact Or.inr ⟨c :: d, r, by simp, fun a ha => by rcases List.mem_cons.mp ha with rfl | ha; exacts [hd, hdd a ha], hr⟩
        · rintro (h | ⟨d, r, h, hdd, hr⟩)
          · simp at h
          · cases d with
            | nil =>
              exfalso
              rcases hr with rfl | ⟨t, rfl, -⟩
              · simp at h
              · simp at h; rw [h.1] at hd; rw [ud] at hd; cases hd
            | cons b d =>
              simp only [List.cons_append, List.cons.injEq] at h
              exact Or.inr ⟨d, r, h.2, fun a ha => hdd a (by simp [ha]), hr⟩
      · rw [if_neg hd]
        by_cases hu : c = '_'
        · subst hu
          rw [if_pos rfl, Bool.true_and, ihf]
          constructor
          · intro h; exact Or.inr ⟨[], _, rfl, by simp, Or.inr ⟨cs, rfl, h⟩⟩
          · rintro (h | ⟨d, r, h, hdd, hr⟩)
            · simp at h
            · cases d with
              | nil =>
                rcases hr with rfl | ⟨t, rfl, ht⟩
                · simp at h
                · simp at h; exact h ▸ ht
              | cons b d =>
                simp only [List.cons_append, List.cons.injEq] at h
                exact absurd (hdd b (by simp)) (by rw [← h.1, ud]; simp)
        · rw [if_neg hu]
          simp only [Bool.false_eq_true, false_iff, not_or]
          refine ⟨by simp, ?_⟩
          rintro ⟨d, r, h, hdd, hr⟩
          cases d with
          | nil =>
            rcases hr with rfl | ⟨t, rfl, -⟩
            · simp at h
            · simp at h; exact hu h.1
          | cons b d =>
            simp only [List.cons_append, List.cons.injEq] at h
            exact hd (h.1 ▸ hdd b (by simp))

/-- C87: a charge text is read as a number iff, white space around it removed, it is an optional sign and groups of digits joined by
single underscores -/
theorem C87_charge_text (q : String) : Labels.parsesInt q = true ↔
    ∃ t, (Labels.strip [' ', '\t', '\n', '\r', '\x0b', '\x0c'] q).toList = t ∧ (DigitGroups t ∨ ∃ c u, t = c :: u ∧ (c = '+' ∨ c = '-') ∧ DigitGroups u) := by
  have hsig : ∀ c : Char, c = '+' ∨ c = '-' → c.isDigit = false := by rintro c (rfl | rfl) <;> decide
  have hgd : ∀ (c : Char) (cs : List Char), DigitGroups (c :: cs) → c.isDigit = true := by
    intro c cs h
    by_contra hc
    have := (intBody_iff (c :: cs)).1.mpr h
    unfold Labels.intBody at this
    rw [if_neg hc] at this
    split at this <;> simp at this
  unfold Labels.parsesInt
  simp only [exists_eq_left']
  cases h : (Labels.strip [' ', '\t', '\n', '\r', '\x0b', '\x0c'] q).toList with
  | nil =>
    simp only [Bool.false_eq_true, false_iff]
    rintro (h | ⟨c, u, h, -⟩)
    · exact absurd ((intBody_iff []).1.mpr h) (by simp [Labels.intBody])
    · simp at h
  | cons c cs =>
    simp only []
    by_cases hc : c = '+' ∨ c = '-'
    · rw [if_pos hc, (intBody_iff cs).1]
      constructor
      · intro hg; exact Or.inr ⟨c, cs, rfl, hc, hg⟩
      · rintro (hg | ⟨c', u, he, -, hg⟩)
        · exact absurd (hgd c cs hg) (by rw [hsig c hc]; simp)
        · simp at he; exact he.2 ▸ hg
    · rw [if_neg hc, (intBody_iff (c :: cs)).1]
      constructor
      · intro hg; exact Or.inl hg
      · rintro (hg | ⟨c', u, he, hc', -⟩)
        · exact hg
        · simp at he; exact absurd (he.1 ▸ hc') hc

/-- the specification is met by some texts and not by others -/
example : Labels.parsesInt " +1_0 " = true ∧ Labels.parsesInt "1__0" = false ∧ Labels.parsesInt "_1" = false ∧ Labels.parsesInt "" = false := by
  decide +kernel

/-! ### C88: tags -/

/-- C88: a dry run always reports success and creates nothing; otherwise success means exactly that the tag is new, and creates it -/
theorem C88_create_tag (tag : String) (tags : List String) :
    Scripts.createTag tag true tags = (true, tags) ∧
    (tag ∈ tags → Scripts.createTag tag false tags = (false, tags)) ∧ (tag ∉ tags → Scripts.createTag tag false tags = (true, tag :: tags)) := by
  refine ⟨rfl, fun h => ?_, fun h => ?_⟩ <;> simp [Scripts.createTag, h]

/-! ### C154: labels and paths of new plots -/

/-- C154: a new scatter plot is labelled x, y and, if it has colours, z; its axes are linear -/
theorem C154_new_scatter (h : Plt.Heap) (b : Bool) : (Plt.mkScatter h b).x = .str ['x'] ∧ (Plt.mkScatter h b).y = .str ['y'] ∧
    ((Plt.mkScatter h b).z = if b then .none else .str ['z']) ∧ (Plt.mkScatter h b).logx = false ∧ (Plt.mkScatter h b).logy = false :=
  ⟨rfl, rfl, rfl, rfl, rfl⟩

/-! ### C160: orbit plots without a colour bar -/

/-- C160: the colour scale of an orbit plot: the user's norm if given, else 0 to 1 if normalised by column or row, else none; limiting it
leaves column and row normalised plots alone and needs a norm otherwise (AttributeError); without a colour bar the plot is drawn iff
there is a colour scale -/
theorem C160_orbit_scale (axnorm : Option String) (zs : List ℝ) (user : Option (Option Orb.CNorm)) :
    (∀ n, user = some n → Orb.aggNorm axnorm zs user false = .ok n) ∧
    (user = none → axnorm = some "c" ∨ axnorm = some "r" → ∀ limit, Orb.aggNorm axnorm zs user limit = .ok (some ⟨some 0, some 1, false⟩)) ∧
    (user = none → axnorm ≠ some "c" → axnorm ≠ some "r" → Orb.aggNorm axnorm zs user false = .ok none ∧
      Orb.aggNorm axnorm zs user true = .error .attributeError) ∧
    (∀ limit, Orb.putAgg axnorm zs user limit false = .ok () ↔ ∃ n, Orb.aggNorm axnorm zs user limit = .ok n) := by
  refine ⟨?_, ?_, ?_, ?_⟩
  · rintro n rfl; rfl
  · rintro rfl h limit
    unfold Orb.aggNorm
    simp only [if_pos h]
    cases limit
    · rfl
    · simp only [if_true, Orb.limitNorm, if_pos h]
  · rintro rfl h1 h2
    have h : ¬ (axnorm = some "c" ∨ axnorm = some "r") := not_or.mpr ⟨h1, h2⟩
    unfold Orb.aggNorm
    simp only [if_neg h]
    exact ⟨rfl, by simp only [if_true, Orb.limitNorm, if_neg h]⟩
  · intro limit
    unfold Orb.putAgg
    cases h : Orb.aggNorm axnorm zs user limit with
    | error e => simp [bind, Except.bind]
    | ok n => simp [bind, Except.bind]

/-! ### C168: residual label without a text -/

/-- C168: without a label the curve is called by its kind alone (with the leading separator) -/
theorem C168_label_default (y fit : List Fl) (pct : Bool) (kind : List Char) (h : FFP.Spelt kind "simple") :
    ∃ c, FFP.plotResid y fit none pct kind [] {} = .ok [c] ∧ c.label = "$\\mathrm{ \\; Simple}$".toList := by
  rw [FFP.kind_simple h]
  refine ⟨_, rfl, ?_⟩
  show FFP.singleLabel (FFP.strip ['$'] []) FFP.simpleT = _
  decide

/-! ### C02: the empty name -/

theorem chk_empty {ions ps : List String} (hps : ps.Nodup) (h : ∀ s ∈ ps, s ∈ ions ∧ '+' ∉ s.toList ∧ ',' ∉ s.toList) (he : "" ∉ ions) :
    chkSpecies ions (("" :: ps).map .str) = .ok (pySorted ("" :: ps)) := by
  have hv : Valid ("" :: ions) ("" :: ps) := by
    refine ⟨by simp, List.nodup_cons.mpr ⟨fun h0 => he (h "" h0).1, hps⟩, ?_, ?_, ?_⟩
    · intro s hs
      rcases List.mem_cons.mp hs with rfl | hs
      · decide
      · exact (h s hs).2.1
    · intro s hs
      rcases List.mem_cons.mp hs with rfl | hs
      · decide
      · exact (h s hs).2.2
    · intro s hs
      rcases List.mem_cons.mp hs with rfl | hs
      · simp
      · simp [(h s hs).1]
  rw [chkSpecies_eq, conform_args hv]
  simp only [Except.bind]
  rw [if_neg]
  rintro ⟨s, hs, hn, hne⟩
  rcases List.mem_cons.mp (mem_pySorted.mp hs) with rfl | hs
  · exact hne rfl
  · exact hn (h s hs).1

/-- C02: the empty name passes the availability check but no query answers it: KeyError, whichever available species are named with it, also
in the queries between two species -/
theorem C02_empty_name {ions ps : List String} (hps : ps.Nodup) (h : ∀ s ∈ ps, s ∈ ions ∧ '+' ∉ s.toList ∧ ',' ∉ s.toList) (he : "" ∉ ions) :
    (∃ sl, chkSpecies ions (("" :: ps).map .str) = .ok sl) ∧ resolve ions ("" :: ps) = .error .keyError ∧
    (∀ b ∈ ps, twoSpecies ions "" b = .error .keyError ∧ twoSpecies ions b "" = .error .keyError) := by
  have h1 := chk_empty hps h he
  refine ⟨⟨_, h1⟩, ?_, ?_⟩
  · unfold resolve
    rw [h1]
    simp only []
    rw [if_pos]
    rw [List.any_eq_true]
    exact ⟨"", mem_pySorted.mpr (by simp), by simpa using he⟩
  · intro b hb
    have e1 := chk_empty (ps := []) (by simp) (by simp) he
    have hvb : Valid ions [b] := ⟨by simp, by simp, by simpa using (h b hb).2.1, by simpa using (h b hb).2.2, by simpa using (h b hb).1⟩
    have e2 := chk_args hvb
    simp only [List.map_cons, List.map_nil] at e1 e2
    have es : ∀ q : String, pySorted [q] = [q] := fun q => rfl
    unfold twoSpecies
    rw [e1, e2]
    simp only [es]
    constructor
    · rw [if_neg (by simp [he])]
    · rw [if_neg (by simp [he])]

/-- non-vacuity -/
example : ∃ ions ps : List String, ps.Nodup ∧ ps ≠ [] ∧ (∀ s ∈ ps, s ∈ ions ∧ '+' ∉ s.toList ∧ ',' ∉ s.toList) ∧ "" ∉ ions :=
  ⟨["a", "p1"], ["a"], by decide, by decide, by decide, by decide⟩

/-! ### C102: what the hinge guesses are with too few points below the hinge -/

open Fl in
/-- C102: with fewer than two data below the hinge the first line guessed has the average slope of all data through the leftmost abscissa
(HingeMin, HingeMax) ; for HingeAtPoint its slope is that from the leftmost abscissa on the axis to the hinge, or 1 if no datum lies below -/
theorem C102_few_below (h : ℝ) (xs ys : List ℝ) (gy : Fl) (h4 : 4 ≤ xs.length) (hl : xs.length = ys.length)
    (hc : countSide (fun t => Fl.lt t (fin h)) (xs.map fin) < 2) (x0 x1 y0 y1 : ℝ) (hx0 : npMin (xs.map fin) = fin x0) (hx1 : npMax (xs.map fin) = fin x1)
    (hy0 : npMin (ys.map fin) = fin y0) (hy1 : npMax (ys.map fin) = fin y1) (hne : x0 ≠ x1) :
    (∃ x2, hingeP0 (fin h) (xs.map fin) (ys.map fin) = .ok [fin ((y1 - y0) / (x1 - x0)), fin x0, x2, fin h]) ∧
    (∃ yh m1 m2, hingeAtPointP0 (fin h, gy) (xs.map fin) (ys.map fin) = .ok [fin h, yh, m1, m2] ∧
      (x0 < h → m1 = yh / fin (h - x0)) ∧ (¬ x0 < h → m1 = fin 1)) := by
  constructor
  · unfold hingeP0
    rw [if_neg (by simp; omega)]
    simp only [selBy_self_length]
    rw [if_neg (by omega : ¬ 2 ≤ countSide (fun t => Fl.lt t (fin h)) (xs.map fin)),
      if_neg (by omega : ¬ 2 ≤ countSide (fun t => Fl.lt t (fin h)) (xs.map fin)), hx0, hx1, hy0, hy1, fin_sub, fin_sub,
      fin_div _ _ (sub_ne_zero.mpr (Ne.symm hne))]
    exact ⟨_, rfl⟩
  · unfold hingeAtPointP0
    rw [if_neg (by simp; omega)]
    simp only [selBy_self_length]
    rw [if_neg (by omega : ¬ 2 ≤ countSide (fun t => Fl.lt t (fin h)) (xs.map fin)), hx0]
    refine ⟨_, _, _, rfl, ?_, ?_⟩
    · intro hlt
      rw [if_pos (by rwa [lt_fin]), fin_sub]
    · intro hlt
      rw [if_neg (by rwa [lt_fin])]

/-- non-vacuity: the extremes exist for any finite data, and four data at and above the hinge have none below -/
example : ∃ xs : List ℝ, 4 ≤ xs.length ∧ countSide (fun t => Fl.lt t (Fl.fin 0)) (xs.map Fl.fin) < 2 := by
  refine ⟨[0, 1, 2, 3], by simp, ?_⟩
  have e : ∀ t : ℝ, 0 ≤ t → ¬ Fl.lt (Fl.fin t) (Fl.fin 0) := by intro t ht; rw [Fl.lt_fin]; linarith
  simp [countSide]

/-! ### C179, C184 -/

open Fl in
/-- C179: without data beyond the position both guesses of a Gaussian cut off there are refused with ValueError -/
theorem C179_none_beyond (g : Fl) (x y : List Fl) (h5 : 5 ≤ x.length) (hno : ∀ t ∈ x, ¬ Fl.lt g t) :
    gaussTimesPlusP0 g x y = .error .valueError ∧ gaussTimesP0 g x y = .error .valueError := by
  have e : ∀ z : List Fl, selBy (fun t => Fl.lt g t) x z = [] := by
    intro z
    unfold selBy
    clear h5
    induction x generalizing z with
    | nil => cases z <;> simp [compress]
    | cons t ts ih =>
      have h1 : ¬ Fl.lt g t := hno t (by simp)
      have h2 := fun z => ih (fun t ht => hno t (by simp [ht])) z
      cases z with
      | nil => simp [compress]
      | cons w ws =>
        have := h2 ws
        simp only [] at this
        simp [compress, h1, this]
  constructor
  · unfold gaussTimesPlusP0
    rw [if_neg (by omega)]
    simp only [e, if_true]
  · unfold gaussTimesP0
    rw [if_neg (by omega)]
    simp only [e, if_true]

/-- C184: the default contour levels of a histogram normalised by its total, by columns or by rows, and of a density -/
theorem C184_default_levels :
    Hist.contourLevels (some "t") none = .ok (some [0.01, 0.1, 0.3, 0.7, 0.99]) ∧
    (∀ k, k = "r" ∨ k = "c" → Hist.contourLevels (some k) none = .ok (some ((List.range 11).map (fun i : Nat => (i : ℝ) / 10)))) ∧
    Hist.contourLevels (some "d") none = .ok (some [3e-5, 1e-4, 3e-4, 1e-3, 1.7e-3, 2.3e-3]) := by
  refine ⟨by simp [Hist.contourLevels], ?_, by simp [Hist.contourLevels]⟩
  intro k hk
  unfold Hist.contourLevels
  rcases hk with rfl | rfl <;> (simp only [show ("r" = "t") = False by decide, show ("r" = "d") = False by decide, show ("c" = "t") = False by decide,
    show ("c" = "d") = False by decide, if_false]; norm_num [List.range_succ])

/-! ### C159, C163 -/

namespace Orb
open Classical

/-- within the value limits -/
def Kept (a0 a1 : Option ℝ) (u : ℝ) : Prop := (∀ a ∈ a0, a ≤ u) ∧ (∀ b ∈ a1, u ≤ b)

theorem alim_fin (a0 a1 : Option ℝ) (u : ℝ) : Hist.alimMask a0 a1 (.fin u) = if Kept a0 a1 u then .fin u else .nan := by
  by_cases h : Kept a0 a1 u
  · rw [if_pos h]
    exact if_pos h
  · rw [if_neg h]
    exact if_neg h

theorem sumSkip_kept (a0 a1 : Option ℝ) (l : List Nat) (g : Nat → Fl) (u : Nat → ℝ) (h : ∀ k ∈ l, g k = .fin (u k)) :
    Fl.sumSkip (l.map (fun k => Hist.alimMask a0 a1 (g k))) = .fin ((l.filter (fun k => decide (Kept a0 a1 (u k)))).map u).sum := by
  induction l with
  | nil => rfl
  | cons k l ih =>
    have h1 := ih (fun j hj => h j (by simp [hj]))
    rw [List.map_cons, h k (by simp), alim_fin]
    by_cases hk : Kept a0 a1 (u k)
    · rw [if_pos hk, List.filter_cons_of_pos (by simpa using hk), Fl.sumSkip_cons_fin, h1, List.map_cons, List.sum_cons, Fl.fin_add]
    · rw [if_neg hk, List.filter_cons_of_neg (by simpa using hk), Fl.sumSkip_cons_nan, h1]

/-- C159 (violated likewise for conditional densities): normalised per column ("cd") or row ("rd"), the value shown is the share `u` of the
cell among both legs, per width, divided again by the sum of those of its own leg that the limits leave, and by the width again; the limits
apply to `u`, not to what is shown. -/
theorem C159_conditional (ex ey : List ℝ) (hx : ex.Pairwise (· < ·)) (hy : ey.Pairwise (· < ·)) (lx ly : Bool) (a0 a1 : Option ℝ)
    (a : LGrid) (c : Leg → Nat → Nat → ℝ) (ha : ∀ l, ∀ i < ex.length - 1, ∀ j < ey.length - 1, a l i j = .fin (c l i j)) :
    (∃ g, orbitAgg ex ey lx ly (some "rd") a0 a1 a = .ok g ∧
      ∀ j < ey.length - 1, ∀ S : ℝ, S = ((List.range (ex.length - 1)).map (fun i => c .inbound i j)).sum +
        ((List.range (ex.length - 1)).map (fun i => c .outbound i j)).sum → S ≠ 0 → ∀ l, ∀ i < ex.length - 1,
      ∀ u : Nat → ℝ, (∀ k, u k = c l k j / S / Hist.width ex k) →
        (¬ Kept a0 a1 (u i) → g l i j = .nan) ∧
        (∀ T, T = (((List.range (ex.length - 1)).filter (fun k => decide (Kept a0 a1 (u k)))).map u).sum → T ≠ 0 → Kept a0 a1 (u i) →
          g l i j = .fin (u i / T / Hist.width ex i))) ∧
    (∃ g, orbitAgg ex ey lx ly (some "cd") a0 a1 a = .ok g ∧
      ∀ i < ex.length - 1, ∀ S : ℝ, S = ((List.range (ey.length - 1)).map (fun j => c .inbound i j)).sum +
        ((List.range (ey.length - 1)).map (fun j => c .outbound i j)).sum → S ≠ 0 → ∀ l, ∀ j < ey.length - 1,
      ∀ u : Nat → ℝ, (∀ k, u k = c l i k / S / Hist.width ey k) →
        (¬ Kept a0 a1 (u j) → g l i j = .nan) ∧
        (∀ T, T = (((List.range (ey.length - 1)).filter (fun k => decide (Kept a0 a1 (u k)))).map u).sum → T ≠ 0 → Kept a0 a1 (u j) →
          g l i j = .fin (u j / T / Hist.width ey j))) := by
  constructor
  · refine ⟨_, rfl, ?_⟩
    intro j hj S hS hS0
    have hsum : Fl.sumSkip (Hist.row (a .inbound) (ex.length - 1) j ++ Hist.row (a .outbound) (ex.length - 1) j) = .fin S := by
      rw [hS]
      exact sumSkip_append_fin _ _ _ _ (Fl.sumSkip_fin' _ _ _ (fun i hi => ha .inbound i (List.mem_range.mp hi) j hj))
        (Fl.sumSkip_fin' _ _ _ (fun i hi => ha .outbound i (List.mem_range.mp hi) j hj))
    have key : ∀ l, ∀ i < ex.length - 1, ∀ u : Nat → ℝ, (∀ k, u k = c l k j / S / Hist.width ex k) →
        ∀ G : Nat → Fl, (∀ k, G k = a l k j / Fl.sumSkip (Hist.row (a .inbound) (ex.length - 1) j ++
          Hist.row (a .outbound) (ex.length - 1) j) / .fin (Hist.width ex k)) →
        (¬ Kept a0 a1 (u i) → Hist.alimMask a0 a1 (G i) / Fl.sumSkip ((List.range (ex.length - 1)).map (fun k => Hist.alimMask a0 a1 (G k))) /
          .fin (Hist.width ex i) = .nan) ∧
        (∀ T, T = (((List.range (ex.length - 1)).filter (fun k => decide (Kept a0 a1 (u k)))).map u).sum → T ≠ 0 → Kept a0 a1 (u i) →
          Hist.alimMask a0 a1 (G i) / Fl.sumSkip ((List.range (ex.length - 1)).map (fun k => Hist.alimMask a0 a1 (G k))) /
          .fin (Hist.width ex i) = .fin (u i / T / Hist.width ex i)) := by
      intro l i hi u hu G hG
      have hG' : ∀ k ∈ List.range (ex.length - 1), G k = .fin (u k) := by
        intro k hk
        have hk' := List.mem_range.mp hk
        have w := Hist.width_pos hx (i := k) (by omega)
        rw [hG, hsum, ha l k hk' j hj, Fl.fin_div _ _ hS0, Fl.fin_div _ _ w.ne', hu]
      rw [sumSkip_kept _ _ _ _ _ hG', hG' i (List.mem_range.mpr hi), alim_fin]
      refine ⟨fun hk => by rw [if_neg hk]; simp, fun T hT hT0 hk => ?_⟩
      have w := Hist.width_pos hx (i := i) (by omega)
      rw [if_pos hk, ← hT, Fl.fin_div _ _ hT0, Fl.fin_div _ _ w.ne']
    intro l i hi u hu
    have := key l i hi u hu _ (fun _ => rfl)
    cases l <;> exact this
  · refine ⟨_, rfl, ?_⟩
    intro i hi S hS hS0
    have hsum : Fl.sumSkip (Hist.col (a .inbound) (ey.length - 1) i ++ Hist.col (a .outbound) (ey.length - 1) i) = .fin S := by
      rw [hS]
      exact sumSkip_append_fin _ _ _ _ (Fl.sumSkip_fin' _ _ _ (fun j hj => ha .inbound i hi j (List.mem_range.mp hj)))
        (Fl.sumSkip_fin' _ _ _ (fun j hj => ha .outbound i hi j (List.mem_range.mp hj)))
    have key : ∀ l, ∀ j < ey.length - 1, ∀ u : Nat → ℝ, (∀ k, u k = c l i k / S / Hist.width ey k) →
        ∀ G : Nat → Fl, (∀ k, G k = a l i k / Fl.sumSkip (Hist.col (a .inbound) (ey.length - 1) i ++
          Hist.col (a .outbound) (ey.length - 1) i) / .fin (Hist.width ey k)) →
        (¬ Kept a0 a1 (u j) → Hist.alimMask a0 a1 (G j) / Fl.sumSkip ((List.range (ey.length - 1)).map (fun k => Hist.alimMask a0 a1 (G k))) /
          .fin (Hist.width ey j) = .nan) ∧
        (∀ T, T = (((List.range (ey.length - 1)).filter (fun k => decide (Kept a0 a1 (u k)))).map u).sum → T ≠ 0 → Kept a0 a1 (u j) →
          Hist.alimMask a0 a1 (G j) / Fl.sumSkip ((List.range (ey.length - 1)).map (fun k => Hist.alimMask a0 a1 (G k))) /
          .fin (Hist.width ey j) = .fin (u j / T / Hist.width ey j)) := by
      intro l j hj u hu G hG
      have hG' : ∀ k ∈ List.range (ey.length - 1), G k = .fin (u k) := by
        intro k hk
        have hk' := List.mem_range.mp hk
        have w := Hist.width_pos hy (i := k) (by omega)
        rw [hG, hsum, ha l i hi k hk', Fl.fin_div _ _ hS0, Fl.fin_div _ _ w.ne', hu]
      rw [sumSkip_kept _ _ _ _ _ hG', hG' j (List.mem_range.mpr hj), alim_fin]
      refine ⟨fun hk => by rw [if_neg hk]; simp, fun T hT hT0 hk => ?_⟩
      have w := Hist.width_pos hy (i := j) (by omega)
      rw [if_pos hk, ← hT, Fl.fin_div _ _ hT0, Fl.fin_div _ _ w.ne']
    intro l j hj u hu
    have := key l j hj u hu _ (fun _ => rfl)
    cases l <;> exact this

/-- C163: the default colour scale by normalisation: 0 to 1 for columns and rows, open for densities, none otherwise -/
theorem C163_defaults (axnorm : Option String) : defaultNorm axnorm none =
    if axnorm ∈ [some "c", some "r"] then some ⟨some 0, some 1, true⟩
    else if axnorm ∈ [some "d", some "cd", some "rd"] then some ⟨none, none, true⟩ else none := by
  unfold defaultNorm
  simp only [List.mem_cons, List.not_mem_nil, or_false]

end Orb

end SW
