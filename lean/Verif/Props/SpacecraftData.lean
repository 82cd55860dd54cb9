import Verif.SpacecraftData
import Verif.Props.Spacecraft
import Mathlib.Data.List.Basic
import Mathlib.Data.List.Perm.Basic

/-!
# C245, C246: the data of a spacecraft

Specification: `cnt f m c` is the number of columns labelled `(m, c)`, `colOf f m c` the first of them; `Whole` says that a measurement has each of
its components once.
-/

namespace SW
namespace Sc

/-- how many columns have the label -/
def cnt (f : Frame2) (m c : String) : Nat := f.cols.countP (fun p => p.1 = (m, c))

/-- the first column with the label -/
def colOf (f : Frame2) (m c : String) : Column := (f.cols.lookup (m, c)).getD []

/-- the components of a measurement -/
def comps (m : String) : List String := if m = "carr" then ["lat", "lon"] else ["x", "y", "z"]

def Whole (f : Frame2) (m : String) : Prop := ∀ c ∈ comps m, cnt f m c = 1

def Lacking (f : Frame2) (m : String) : Prop := ∃ c ∈ comps m, cnt f m c = 0

/-- the columns of a whole measurement, labelled, in the order of its components -/
def cut (f : Frame2) (m : String) : List ((String × String) × Column) := (comps m).map fun c => ((m, c), colOf f m c)

theorem picked (m c : String) (cols : List ((String × String) × Column)) :
    (cols.filterMap (fun p => if p.1.1 = m then some (p.1.2, p.2) else none)).filter (fun p => p.1 = c) =
      (cols.filter (fun p => p.1 = (m, c))).map (fun p => (c, p.2)) := by
  induction cols with
  | nil => rfl
  | cons p cols ih =>
    obtain ⟨⟨m', c'⟩, v⟩ := p
    by_cases h1 : m' = m
    · by_cases h2 : c' = c
      · subst h1 h2; simp [ih]
      · subst h1; simp [h2, ih]
    · simp [h1, ih]

theorem picked_mem (m c : String) (cols : List ((String × String) × Column)) :
    c ∈ (cols.filterMap (fun p => if p.1.1 = m then some (p.1.2, p.2) else none)).map Prod.fst ↔
      0 < cols.countP (fun p => p.1 = (m, c)) := by
  rw [List.countP_pos_iff]
  simp only [List.mem_map, List.mem_filterMap, decide_eq_true_eq]
  constructor
  · rintro ⟨⟨c', v⟩, ⟨⟨⟨m', c''⟩, w⟩, hp, he⟩, rfl⟩
    by_cases h : m' = m
    · simp only [h, if_true, Option.some.injEq, Prod.mk.injEq] at he
      exact ⟨_, hp, by simp [h, he.1]⟩
    · simp [h] at he
  · rintro ⟨⟨l, v⟩, hp, rfl⟩
    exact ⟨(c, v), ⟨_, hp, by simp⟩, rfl⟩

theorem one_col {m c : String} {cols : List ((String × String) × Column)} (h : cols.countP (fun p => p.1 = (m, c)) = 1) :
    cols.filter (fun p => p.1 = (m, c)) = [((m, c), (cols.lookup (m, c)).getD [])] := by
  induction cols with
  | nil => simp at h
  | cons p cols ih =>
    obtain ⟨l, v⟩ := p
    by_cases hl : l = (m, c)
    · subst hl
      rw [List.countP_cons_of_pos (by simp)] at h
      have h0 : cols.countP (fun p => decide (p.1 = (m, c))) = 0 := by omega
      rw [List.filter_cons_of_pos (by simp)]
      have : cols.filter (fun p => decide (p.1 = (m, c))) = [] := by
        rw [← List.length_eq_zero_iff, ← List.countP_eq_length_filter]; exact h0
      rw [this]
      simp [List.lookup]
    · rw [List.countP_cons_of_neg (by simpa using hl)] at h
      rw [List.filter_cons_of_neg (by simpa using hl), ih h]
      have : ((m, c) == l) = false := by simpa using (Ne.symm hl)
      simp [List.lookup, this]

theorem flat_len (n : String → Nat) : ∀ (labels : List String), (∀ c ∈ labels, 0 < n c) →
    labels.length ≤ (labels.map n).sum ∧ ((labels.map n).sum = labels.length ↔ ∀ c ∈ labels, n c = 1) := by
  intro labels
  induction labels with
  | nil => intro _; simp
  | cons c labels ih =>
    intro h
    obtain ⟨h1, h2⟩ := ih (fun d hd => h d (by simp [hd]))
    have h3 := h c (by simp)
    simp only [List.map_cons, List.sum_cons, List.length_cons, List.mem_cons, forall_eq_or_imp]
    refine ⟨by omega, ?_⟩
    rw [← h2]
    omega

theorem comps_ne (m : String) : comps m ≠ [] := by unfold comps; split <;> simp

/-- what one measurement gives -/
theorem part_spec (f : Frame2) (m : String) :
    (Lacking f m → part f m (comps m) = .error .keyError) ∧
    (Whole f m → part f m (comps m) = .ok (cut f m)) ∧
    (¬ Lacking f m → ¬ Whole f m → part f m (comps m) = .error .assertionError) := by
  obtain ⟨g, hg⟩ : ∃ g, g = f.cols.filterMap (fun p => if p.1.1 = m then some (p.1.2, p.2) else none) := ⟨_, rfl⟩
  have hmem : ∀ c, c ∈ g.map Prod.fst ↔ 0 < cnt f m c := fun c => by rw [hg]; exact picked_mem m c f.cols
  have hfil : ∀ c, (g.filter (fun p => p.1 = c)).length = cnt f m c := fun c => by
    rw [hg, picked, List.length_map, ← List.countP_eq_length_filter]; rfl
  have hall : (comps m).all (fun c => (g.map Prod.fst).contains c) = true ↔ ¬ Lacking f m := by
    rw [List.all_eq_true]
    unfold Lacking
    simp only [not_exists, not_and]
    refine forall_congr' fun c => forall_congr' fun hc => ?_
    rw [List.contains_iff_mem, hmem]
    omega
  have hxs : xs f m = if g = [] then .error .keyError else .ok g := by
    unfold xs
    rw [← hg]
    cases g with
    | nil => rfl
    | cons p g => rfl
  have hlen : ((comps m).flatMap fun c => g.filter (fun p => p.1 = c)).length = ((comps m).map (cnt f m)).sum := by
    rw [List.length_flatMap]
    congr 1
    exact List.map_congr_left (fun c _ => hfil c)
  have hok : ¬ Lacking f m → part f m (comps m) =
      if ((comps m).map (cnt f m)).sum = (comps m).length then
        .ok (((comps m).flatMap fun c => g.filter (fun p => p.1 = c)).map fun p => ((m, p.1), p.2))
      else .error .assertionError := by
    intro h
    have hgne : g ≠ [] := by
      rintro rfl
      obtain ⟨c, hc⟩ := List.exists_mem_of_ne_nil _ (comps_ne m)
      have := (List.all_eq_true.mp (hall.mpr h)) c hc
      simp at this
    unfold part
    rw [hxs, if_neg hgne]
    simp only []
    unfold loc
    rw [if_pos (hall.mpr h)]
    simp only [hlen]
  refine ⟨fun h => ?_, fun h => ?_, fun h1 h2 => ?_⟩
  · unfold part
    rw [hxs]
    by_cases hgn : g = []
    · rw [if_pos hgn]
    · rw [if_neg hgn]
      simp only []
      unfold loc
      rw [if_neg (fun hh => hall.mp hh h)]
  · have hl : ¬ Lacking f m := by
      rintro ⟨c, hc, h0⟩
      have := h c hc
      omega
    have hpos : ∀ c ∈ comps m, 0 < cnt f m c := fun c hc => by rw [h c hc]; exact Nat.one_pos
    rw [hok hl, if_pos ((flat_len _ _ hpos).2.mpr h)]
    congr 1
    unfold cut
    rw [List.map_flatMap]
    have : ∀ c ∈ comps m, ((g.filter (fun p => p.1 = c)).map fun p => ((m, p.1), p.2)) = [((m, c), colOf f m c)] := by
      intro c hc
      rw [hg, picked, one_col (h c hc)]
      rfl
    clear hok hlen hall
    generalize comps m = L at this
    induction L with
    | nil => rfl
    | cons c L ih =>
      rw [List.flatMap_cons, this c (by simp), ih (fun d hd => this d (by simp [hd]))]
      rfl
  · have hpos : ∀ c ∈ comps m, 0 < cnt f m c := fun c hc => by
      by_contra h0
      exact h1 ⟨c, hc, by omega⟩
    rw [hok h1, if_neg]
    intro hh
    exact h2 ((flat_len _ _ hpos).2.mp hh)

theorem lacking_not_whole {f : Frame2} {m : String} (h : Lacking f m) : ¬ Whole f m := by
  obtain ⟨c, hc, h0⟩ := h
  intro hw
  have := hw c hc
  omega

theorem optPart_spec (f : Frame2) (m : String) :
    (Lacking f m → optPart f m (comps m) = .ok []) ∧
    (Whole f m → optPart f m (comps m) = .ok (cut f m)) ∧
    (¬ Lacking f m → ¬ Whole f m → optPart f m (comps m) = .error .assertionError) := by
  obtain ⟨h1, h2, h3⟩ := part_spec f m
  unfold optPart
  refine ⟨fun h => by rw [h1 h], fun h => by rw [h2 h], fun h h' => by rw [h3 h h']⟩

/-- Specification: a measurement is whole or lacks a component; none is there twice -/
def Fair (f : Frame2) (m : String) : Prop := Lacking f m ∨ Whole f m

open Classical in
/-- Specification: what is stored: the Carrington coordinates, the position and the velocity, each if whole -/
noncomputable def kept (f : Frame2) : Frame2 :=
  ⟨true, f.idx, (if Whole f "carr" then cut f "carr" else []) ++ cut f "pos" ++ (if Whole f "v" then cut f "v" else [])⟩

open Classical in
theorem opt_kept {f : Frame2} {m : String} (h : Fair f m) : optPart f m (comps m) = .ok (if Whole f m then cut f m else []) := by
  obtain ⟨h1, h2, _⟩ := optPart_spec f m
  rcases h with h | h
  · rw [h1 h, if_neg (lacking_not_whole h)]
  · rw [h2 h, if_pos h]

theorem build_eq (f : Frame2) : build f = (if f.idx = [] ∨ f.cols = [] then .error .valueError
  else match part f "pos" (comps "pos") with
    | .error e => .error e
    | .ok p => match optPart f "v" (comps "v") with
      | .error e => .error e
      | .ok v => match optPart f "carr" (comps "carr") with
        | .error e => .error e
        | .ok c => if f.dt then .ok ⟨f.dt, f.idx, c ++ p ++ v⟩ else .error .assertionError) := rfl

theorem cols_ne_of_whole {f : Frame2} {m : String} (h : Whole f m) : f.cols ≠ [] := by
  intro h0
  obtain ⟨c, hc⟩ := List.exists_mem_of_ne_nil _ (comps_ne m)
  have := h c hc
  unfold cnt at this
  rw [h0] at this
  simp at this

theorem build_ok {f d : Frame2} : build f = .ok d ↔
    f.idx ≠ [] ∧ f.dt = true ∧ Whole f "pos" ∧ Fair f "v" ∧ Fair f "carr" ∧ d = kept f := by
  rw [build_eq]
  constructor
  · intro h
    split at h
    · cases h
    · rename_i hne
      obtain ⟨p1, p2, p3⟩ := part_spec f "pos"
      obtain ⟨v1, v2, v3⟩ := optPart_spec f "v"
      obtain ⟨c1, c2, c3⟩ := optPart_spec f "carr"
      by_cases hp : Whole f "pos"
      · have hv : Fair f "v" := by
          by_contra hc
          unfold Fair at hc
          push Not at hc
          rw [p2 hp] at h
          simp only [v3 hc.1 hc.2] at h
          cases h
        have hc : Fair f "carr" := by
          by_contra hc
          unfold Fair at hc
          push Not at hc
          rw [p2 hp] at h
          simp only [opt_kept hv, c3 hc.1 hc.2] at h
          cases h
        rw [p2 hp] at h
        simp only [opt_kept hv, opt_kept hc] at h
        split at h
        · rename_i hd
          injection h with h
          refine ⟨fun e => hne (Or.inl e), hd, hp, hv, hc, ?_⟩
          rw [← h]
          unfold kept
          rw [hd]
        · cases h
      · by_cases hl : Lacking f "pos"
        · rw [p1 hl] at h; cases h
        · rw [p3 hl hp] at h; cases h
  · rintro ⟨h1, h2, h3, h4, h5, rfl⟩
    rw [if_neg (not_or.mpr ⟨h1, cols_ne_of_whole h3⟩), (part_spec f "pos").2.1 h3]
    simp only [opt_kept h4, opt_kept h5, h2, if_true]
    rfl

/-- C245: a spacecraft can be made from exactly the non-empty frames with a time index, one of each position component and no repeated velocity or
Carrington component (of a measurement that has them all), with a known frame and name in any letter case; it keeps exactly the position and,
where complete, velocity and Carrington coordinates. -/
theorem C245_accepts (f : Frame2) (name frame : String) (s : Craft) : construct f name frame = .ok s ↔
    f.idx ≠ [] ∧ f.dt = true ∧ Whole f "pos" ∧ Fair f "v" ∧ Fair f "carr" ∧
    pyUpper frame ∈ ["GSE", "HCI"] ∧ pyUpper name ∈ ["WIND", "PSP"] ∧ s = ⟨kept f, pyUpper frame, pyUpper name⟩ := by
  unfold construct
  constructor
  · intro h
    cases hb : build f with
    | error e => rw [hb] at h; cases h
    | ok d =>
      simp only [hb] at h
      obtain ⟨q1, q2, q3, q4, q5, rfl⟩ := build_ok.mp hb
      unfold setFrameName at h
      by_cases hf : pyUpper frame ∈ ["GSE", "HCI"]
      · by_cases hn : pyUpper name ∈ ["WIND", "PSP"]
        · rw [if_neg (not_not.mpr hf), if_neg (not_not.mpr hn)] at h
          simp only [Except.ok.injEq] at h
          exact ⟨q1, q2, q3, q4, q5, hf, hn, h.symm⟩
        · rw [if_neg (not_not.mpr hf), if_pos hn] at h
          cases h
      · rw [if_pos hf] at h
        cases h
  · rintro ⟨q1, q2, q3, q4, q5, hf, hn, rfl⟩
    have hb := build_ok.mpr ⟨q1, q2, q3, q4, q5, rfl⟩
    simp only [hb]
    unfold setFrameName
    rw [if_neg (not_not.mpr hf), if_neg (not_not.mpr hn)]

/-- C245: the errors. An incomplete position is a KeyError, a repeated position component or - with a complete position - a complete velocity with a
repeated component an AssertionError; bad data are reported before a bad frame or name (NotImplementedError). -/
theorem C245_errors (f : Frame2) (name frame : String) :
    (f.idx = [] ∨ f.cols = [] → construct f name frame = .error .valueError) ∧
    (f.idx ≠ [] → f.cols ≠ [] → Lacking f "pos" → construct f name frame = .error .keyError) ∧
    (f.idx ≠ [] → f.cols ≠ [] → ¬ Lacking f "pos" → ¬ (f.dt = true ∧ Whole f "pos" ∧ Fair f "v" ∧ Fair f "carr") →
      construct f name frame = .error .assertionError) ∧
    (∀ d, build f = .ok d → ¬ (pyUpper frame ∈ ["GSE", "HCI"] ∧ pyUpper name ∈ ["WIND", "PSP"]) →
      construct f name frame = .error .notImplemented) := by
  have err : ∀ e, build f = .error e → construct f name frame = .error e := by
    intro e h; unfold construct; rw [h]
  refine ⟨fun h => err _ ?_, fun h1 h2 h3 => err _ ?_, fun h1 h2 h3 h4 => err _ ?_, ?_⟩
  · rw [build_eq, if_pos h]
  · rw [build_eq, if_neg (not_or.mpr ⟨h1, h2⟩), (part_spec f "pos").1 h3]
  · rw [build_eq, if_neg (not_or.mpr ⟨h1, h2⟩)]
    by_cases hp : Whole f "pos"
    · rw [(part_spec f "pos").2.1 hp]
      simp only []
      by_cases hv : Fair f "v"
      · rw [opt_kept hv]
        simp only []
        by_cases hc : Fair f "carr"
        · rw [opt_kept hc]
          simp only []
          rw [if_neg (fun hd => h4 ⟨hd, hp, hv, hc⟩)]
        · unfold Fair at hc
          push Not at hc
          rw [(optPart_spec f "carr").2.2 hc.1 hc.2]
      · unfold Fair at hv
        push Not at hv
        rw [(optPart_spec f "v").2.2 hv.1 hv.2]
    · rw [(part_spec f "pos").2.2 h3 hp]
  · intro d hd hb
    unfold construct
    rw [hd]
    simp only []
    unfold setFrameName
    by_cases hf : pyUpper frame ∈ ["GSE", "HCI"]
    · have hn : pyUpper name ∉ ["WIND", "PSP"] := fun hn => hb ⟨hf, hn⟩
      rw [if_neg (not_not.mpr hf), if_pos hn]
    · rw [if_pos hf]

theorem comps_nodup (m : String) : (comps m).Nodup := by unfold comps; split <;> decide

theorem cnt_append (a b : List ((String × String) × Column)) (dt : Bool) (i : List ℤ) (m c : String) :
    cnt ⟨dt, i, a ++ b⟩ m c = cnt ⟨dt, i, a⟩ m c + cnt ⟨dt, i, b⟩ m c := by
  unfold cnt; exact List.countP_append

theorem cnt_cut (f : Frame2) (dt : Bool) (i : List ℤ) (m m' c : String) :
    cnt ⟨dt, i, cut f m⟩ m' c = if m' = m ∧ c ∈ comps m then 1 else 0 := by
  unfold cnt cut
  simp only [List.countP_map]
  have hn := comps_nodup m
  generalize comps m = L at hn
  induction L with
  | nil => simp
  | cons d L ih =>
    rw [List.countP_cons, ih (List.nodup_cons.mp hn).2]
    have hd := (List.nodup_cons.mp hn).1
    by_cases hm : m' = m
    · subst hm
      by_cases hc : d = c
      · subst hc; simp [hd]
      · simp [hc, Ne.symm hc]
    · simp [hm, Ne.symm hm]

theorem lookup_append_not {a b : List ((String × String) × Column)} {k : String × String} (h : a.countP (fun p => p.1 = k) = 0) :
    (a ++ b).lookup k = b.lookup k := by
  induction a with
  | nil => rfl
  | cons p a ih =>
    obtain ⟨l, v⟩ := p
    rw [List.countP_cons] at h
    have hl : l ≠ k := by rintro rfl; simp at h
    have : (k == l) = false := by simpa using (Ne.symm hl)
    rw [List.cons_append, List.lookup, this]
    exact ih (by omega)

theorem lookup_append_mem {a b : List ((String × String) × Column)} {k : String × String} (h : 0 < a.countP (fun p => p.1 = k)) :
    (a ++ b).lookup k = a.lookup k := by
  induction a with
  | nil => simp at h
  | cons p a ih =>
    obtain ⟨l, v⟩ := p
    by_cases hl : l = k
    · subst hl; simp [List.lookup]
    · have : (k == l) = false := by simpa using (Ne.symm hl)
      rw [List.countP_cons_of_neg (by simpa using hl)] at h
      rw [List.cons_append, List.lookup, this, List.lookup, this]
      exact ih h

theorem lookup_cut (f : Frame2) (m c : String) (h : c ∈ comps m) : (cut f m).lookup (m, c) = some (colOf f m c) := by
  unfold cut
  generalize comps m = L at h
  induction L with
  | nil => cases h
  | cons d L ih =>
    by_cases hd : c = d
    · subst hd; simp [List.lookup]
    · have : ((m, c) == (m, d)) = false := by simpa using hd
      rw [List.map_cons, List.lookup, this]
      exact ih (by simpa [hd] using h)

/-- the columns of what is stored -/
theorem kept_spec (f : Frame2) (hp : Whole f "pos") (hv : Fair f "v") (hc : Fair f "carr") (m : String) (hm : m ∈ ["pos", "v", "carr"]) :
    (Whole (kept f) m ↔ Whole f m) ∧ Fair (kept f) m ∧ (Whole f m → cut (kept f) m = cut f m) := by
  classical
  have hcnt : ∀ m' c, cnt (kept f) m' c = (if Whole f "carr" ∧ m' = "carr" ∧ c ∈ comps "carr" then 1 else 0) +
      (if m' = "pos" ∧ c ∈ comps "pos" then 1 else 0) + (if Whole f "v" ∧ m' = "v" ∧ c ∈ comps "v" then 1 else 0) := by
    intro m' c
    unfold kept
    rw [cnt_append, cnt_append, cnt_cut]
    congr 1
    · congr 1
      by_cases h : Whole f "carr"
      · rw [if_pos h, cnt_cut]; simp [h]
      · rw [if_neg h]; simp [h, cnt]
    · by_cases h : Whole f "v"
      · rw [if_pos h, cnt_cut]; simp [h]
      · rw [if_neg h]; simp [h, cnt]
  have hself : ∀ c ∈ comps m, cnt (kept f) m c = if Whole f m then 1 else 0 := by
    intro c hcm
    rw [hcnt]
    simp only [List.mem_cons, List.not_mem_nil, or_false] at hm
    rcases hm with rfl | rfl | rfl
    · simp [hcm, hp]
    · simp [hcm]
    · simp [hcm]
  have hiff : Whole (kept f) m ↔ Whole f m := by
    constructor
    · intro h
      by_contra hn
      obtain ⟨c, hcm⟩ := List.exists_mem_of_ne_nil _ (comps_ne m)
      have h1 := h c hcm
      rw [hself c hcm, if_neg hn] at h1
      cases h1
    · intro h c hcm
      rw [hself c hcm, if_pos h]
  refine ⟨hiff, ?_, ?_⟩
  · by_cases h : Whole f m
    · exact Or.inr (hiff.mpr h)
    · obtain ⟨c, hcm⟩ := List.exists_mem_of_ne_nil _ (comps_ne m)
      exact Or.inl ⟨c, hcm, by rw [hself c hcm, if_neg h]⟩
  · intro hw
    unfold cut
    apply List.map_congr_left
    intro c hcm
    congr 1
    show ((kept f).cols.lookup (m, c)).getD [] = colOf f m c
    have c0 : ∀ (P : Prop) [Decidable P] (m' : String), m' ≠ m → (if P then cut f m' else []).countP (fun p => decide (p.1 = (m, c))) = 0 := by
      intro P _ m' hne
      split
      · have := cnt_cut f true [] m' m c
        unfold cnt at this
        simpa [Ne.symm hne] using this
      · rfl
    have c1 : ∀ m', m' ≠ m → (cut f m').countP (fun p => decide (p.1 = (m, c))) = 0 := by
      intro m' hne
      have := cnt_cut f true [] m' m c
      unfold cnt at this
      simpa [Ne.symm hne] using this
    have c2 : 0 < (cut f m).countP (fun p => decide (p.1 = (m, c))) := by
      have := cnt_cut f true [] m m c
      unfold cnt at this
      rw [this, if_pos ⟨rfl, hcm⟩]; exact Nat.one_pos
    unfold kept
    simp only [List.mem_cons, List.not_mem_nil, or_false] at hm
    simp only []
    rcases hm with rfl | rfl | rfl
    · rw [List.append_assoc, lookup_append_not (c0 _ "carr" (by decide)), lookup_append_mem c2, lookup_cut f _ c hcm]; rfl
    · rw [List.append_assoc, lookup_append_not (c0 _ "carr" (by decide)), lookup_append_not (c1 "pos" (by decide)), if_pos hw,
        lookup_cut f _ c hcm]; rfl
    · rw [List.append_assoc, if_pos hw, lookup_append_mem c2, lookup_cut f _ c hcm]; rfl

theorem read_spec (f : Frame2) (m : String) :
    (Lacking f m → readCols f m (comps m) = .error .keyError) ∧
    (Whole f m → readCols f m (comps m) = .ok ((comps m).map fun c => (c, colOf f m c))) := by
  obtain ⟨h1, h2, _⟩ := part_spec f m
  constructor
  · intro h
    have := h1 h
    unfold part at this
    unfold readCols
    cases hx : xs f m with
    | error e => rw [hx] at this; simpa using this
    | ok g =>
      rw [hx] at this
      simp only [] at this ⊢
      cases hl : loc g (comps m) with
      | error e => rw [hl] at this; simpa using this
      | ok l =>
        rw [hl] at this
        simp only [] at this
        split at this <;> cases this
  · intro h
    have := h2 h
    unfold part at this
    unfold readCols
    cases hx : xs f m with
    | error e => rw [hx] at this; cases this
    | ok g =>
      rw [hx] at this
      simp only [] at this ⊢
      cases hl : loc g (comps m) with
      | error e => rw [hl] at this; cases this
      | ok l =>
        rw [hl] at this
        simp only [] at this
        split at this
        · simp only [Except.ok.injEq] at this ⊢
          have h3 := congrArg (List.map fun p => (p.1.2, p.2)) this
          rw [List.map_map] at h3
          unfold cut at h3
          rw [List.map_map] at h3
          have : l.map ((fun p : (String × String) × Column => (p.1.2, p.2)) ∘ fun p => ((m, p.1), p.2)) = l := by
            exact (List.map_congr_left (g := id) (fun p _ => rfl)).trans (List.map_id l)
          rw [this] at h3
          exact h3
        · cases this

/-- C245: what a spacecraft answers: the position as given; velocity and Carrington coordinates as given if the frame had them all, KeyError
otherwise - also when only some components are missing (violated: these are dropped without a word). -/
theorem C245_reads (f : Frame2) (name frame : String) (s : Craft) (h : construct f name frame = .ok s) :
    s.data.idx = f.idx ∧
    s.position = .ok (["x", "y", "z"].map fun c => (c, colOf f "pos" c)) ∧
    (Whole f "v" → s.velocity = .ok (["x", "y", "z"].map fun c => (c, colOf f "v" c))) ∧
    (Lacking f "v" → s.velocity = .error .keyError) ∧
    (Whole f "carr" → s.carrington = .ok (["lat", "lon"].map fun c => (c, colOf f "carr" c))) ∧
    (Lacking f "carr" → s.carrington = .error .keyError) := by
  obtain ⟨q1, q2, q3, q4, q5, _, _, rfl⟩ := (C245_accepts f name frame s).mp h
  have key : ∀ m ∈ ["pos", "v", "carr"], Whole f m → readCols (kept f) m (comps m) = .ok ((comps m).map fun c => (c, colOf f m c)) := by
    intro m hm hw
    obtain ⟨k1, _, k3⟩ := kept_spec f q3 q4 q5 m hm
    rw [(read_spec (kept f) m).2 (k1.mpr hw)]
    congr 1
    have := congrArg (List.map fun p : (String × String) × Column => (p.1.2, p.2)) (k3 hw)
    unfold cut at this
    rw [List.map_map, List.map_map] at this
    exact this
  have none : ∀ m ∈ ["pos", "v", "carr"], Lacking f m → readCols (kept f) m (comps m) = .error .keyError := by
    intro m hm hl
    obtain ⟨k1, k2, _⟩ := kept_spec f q3 q4 q5 m hm
    rcases k2 with k2 | k2
    · exact (read_spec (kept f) m).1 k2
    · exact absurd (k1.mp k2) (lacking_not_whole hl)
  exact ⟨rfl, key "pos" (by simp) q3, key "v" (by simp), none "v" (by simp), key "carr" (by simp), none "carr" (by simp)⟩

/-- C245: a spacecraft made from the data of a spacecraft is the same spacecraft. -/
theorem C245_again (f : Frame2) (name frame : String) (s : Craft) (h : construct f name frame = .ok s) :
    construct s.data name frame = .ok s := by
  classical
  obtain ⟨q1, q2, q3, q4, q5, q6, q7, rfl⟩ := (C245_accepts f name frame s).mp h
  obtain ⟨p1, _, p3⟩ := kept_spec f q3 q4 q5 "pos" (by simp)
  obtain ⟨v1, v2, v3⟩ := kept_spec f q3 q4 q5 "v" (by simp)
  obtain ⟨c1, c2, c3⟩ := kept_spec f q3 q4 q5 "carr" (by simp)
  have hk : kept (kept f) = kept f := by
    have e : kept (kept f) = ⟨true, f.idx, (if Whole (kept f) "carr" then cut (kept f) "carr" else []) ++ cut (kept f) "pos" ++
      (if Whole (kept f) "v" then cut (kept f) "v" else [])⟩ := rfl
    rw [e, p3 q3]
    show _ = (⟨true, f.idx, (if Whole f "carr" then cut f "carr" else []) ++ cut f "pos" ++ (if Whole f "v" then cut f "v" else [])⟩ : Frame2)
    congr 1
    congr 1
    · congr 1
      by_cases h : Whole f "carr"
      · rw [if_pos h, if_pos (c1.mpr h), c3 h]
      · rw [if_neg h, if_neg (fun hh => h (c1.mp hh))]
    · by_cases h : Whole f "v"
      · rw [if_pos h, if_pos (v1.mpr h), v3 h]
      · rw [if_neg h, if_neg (fun hh => h (v1.mp hh))]
  rw [C245_accepts]
  exact ⟨q1, rfl, p1.mpr q3, v2, c2, q6, q7, by rw [hk]⟩

/-- C245: only the columns of these eight labels matter, and only as sets: frames with the same columns of these labels, in whatever order the
columns stand and whatever other columns there are, give the same spacecraft or the same error. -/
theorem C245_others (f g : Frame2) (hi : f.idx = g.idx) (hd : f.dt = g.dt) (hne : f.cols = [] ↔ g.cols = [])
    (h : ∀ m ∈ ["pos", "v", "carr"], ∀ c ∈ comps m,
      (f.cols.filter (fun p => p.1 = (m, c))).Perm (g.cols.filter (fun p => p.1 = (m, c)))) (name frame : String) :
    construct f name frame = construct g name frame := by
  have hcnt : ∀ m ∈ ["pos", "v", "carr"], ∀ c ∈ comps m, cnt f m c = cnt g m c := by
    intro m hm c hc
    unfold cnt
    rw [List.countP_eq_length_filter, List.countP_eq_length_filter]
    exact (h m hm c hc).length_eq
  have hW : ∀ m ∈ ["pos", "v", "carr"], (Whole f m ↔ Whole g m) := by
    intro m hm
    unfold Whole
    exact forall_congr' fun c => forall_congr' fun hc => by rw [hcnt m hm c hc]
  have hL : ∀ m ∈ ["pos", "v", "carr"], (Lacking f m ↔ Lacking g m) := by
    intro m hm
    unfold Lacking
    exact exists_congr fun c => and_congr_right fun hc => by rw [hcnt m hm c hc]
  have hcut : ∀ m ∈ ["pos", "v", "carr"], Whole f m → cut f m = cut g m := by
    intro m hm hw
    unfold cut
    apply List.map_congr_left
    intro c hc
    congr 1
    have h1 := one_col (hw c hc)
    have h2 := one_col ((hW m hm).mp hw c hc)
    have h3 := h m hm c hc
    rw [h1, h2, List.singleton_perm_singleton, Prod.mk.injEq] at h3
    exact h3.2
  have hpart : ∀ m ∈ ["pos", "v", "carr"], part f m (comps m) = part g m (comps m) := by
    intro m hm
    by_cases hw : Whole f m
    · rw [(part_spec f m).2.1 hw, (part_spec g m).2.1 ((hW m hm).mp hw), hcut m hm hw]
    · by_cases hl : Lacking f m
      · rw [(part_spec f m).1 hl, (part_spec g m).1 ((hL m hm).mp hl)]
      · rw [(part_spec f m).2.2 hl hw, (part_spec g m).2.2 (fun h => hl ((hL m hm).mpr h)) (fun h => hw ((hW m hm).mpr h))]
  have hb : build f = build g := by
    rw [build_eq, build_eq]
    unfold optPart
    rw [hpart "pos" (by simp), hpart "v" (by simp), hpart "carr" (by simp), hi, hd]
    congr 1
    rw [hne]
  unfold construct
  rw [hb]

/-- Non-trivial: position and velocity with another column between them; a velocity without `z` is not stored. -/
example : ∃ s, construct ⟨true, [0], [(("pos", "z"), [.fin 3]), (("q", "x"), [.fin 0]), (("pos", "x"), [.fin 1]), (("v", "x"), [.fin 4]),
    (("pos", "y"), [.fin 2]), (("v", "y"), [.fin 5])]⟩ "wind" "gse" = .ok s ∧ s.velocity = .error .keyError := by
  have hp : Whole ⟨true, [0], [(("pos", "z"), [.fin 3]), (("q", "x"), [.fin 0]), (("pos", "x"), [.fin 1]), (("v", "x"), [.fin 4]),
      (("pos", "y"), [.fin 2]), (("v", "y"), [.fin 5])]⟩ "pos" := by
    simp [Whole, comps, cnt, List.countP_cons]
  have hv : Lacking ⟨true, [0], [(("pos", "z"), [.fin 3]), (("q", "x"), [.fin 0]), (("pos", "x"), [.fin 1]), (("v", "x"), [.fin 4]),
      (("pos", "y"), [.fin 2]), (("v", "y"), [.fin 5])]⟩ "v" := ⟨"z", by simp [comps], by simp [cnt, List.countP_cons]⟩
  have hc : Lacking ⟨true, [0], [(("pos", "z"), [.fin 3]), (("q", "x"), [.fin 0]), (("pos", "x"), [.fin 1]), (("v", "x"), [.fin 4]),
      (("pos", "y"), [.fin 2]), (("v", "y"), [.fin 5])]⟩ "carr" := ⟨"lat", by simp [comps], by simp [cnt, List.countP_cons]⟩
  have h := (C245_accepts ⟨true, [0], [(("pos", "z"), [.fin 3]), (("q", "x"), [.fin 0]), (("pos", "x"), [.fin 1]), (("v", "x"), [.fin 4]),
      (("pos", "y"), [.fin 2]), (("v", "y"), [.fin 5])]⟩ "wind" "gse" _).mpr ⟨by simp, rfl, hp, Or.inl hv, Or.inl hc, by decide +kernel, by decide +kernel, rfl⟩
  exact ⟨_, h, (C245_reads _ _ _ _ h).2.2.2.1 hv⟩

/-! ### C246: histories -/

/-- the state after a history of calls -/
def after (s : Craft) (ops : List Op) : Craft := ops.foldl (fun s o => (step s o).2) s

/-- Specification: the argument of the last accepted `set_data`, or the data at the start -/
def lastData (d0 : Frame2) : List Op → Frame2
  | [] => d0
  | .setData f :: ops => lastData (match build f with | .ok d => d | .error _ => d0) ops
  | .setFrameName _ _ :: ops => lastData d0 ops

/-- the value of a column at a row -/
def cell (f : Frame2) (m c : String) (i : Nat) : Fl := ((colOf f m c)[i]?).getD .nan

/-- what is always true of a spacecraft -/
def Valid (s : Craft) : Prop := (∃ f, build f = .ok s.data) ∧ s.frame ∈ ["GSE", "HCI"] ∧ s.name ∈ ["WIND", "PSP"]

theorem valid_step {s : Craft} (h : Valid s) (o : Op) : Valid (step s o).2 := by
  obtain ⟨h1, h2, h3⟩ := h
  cases o with
  | setData f =>
    have : (step s (.setData f)).2 = (match build f with | .error _ => s | .ok d => { s with data := d }) := by
      unfold step; simp only []; cases build f <;> rfl
    rw [this]
    cases hb : build f with
    | error e => exact ⟨h1, h2, h3⟩
    | ok d => exact ⟨⟨f, hb⟩, h2, h3⟩
  | setFrameName fr nm =>
    unfold step
    simp only []
    by_cases hf : pyUpper fr ∈ ["GSE", "HCI"]
    · by_cases hn : pyUpper nm ∈ ["WIND", "PSP"]
      · have : setFrameName fr nm = .ok (pyUpper fr, pyUpper nm) := by
          unfold setFrameName; rw [if_neg (not_not.mpr hf), if_neg (not_not.mpr hn)]
        rw [this]
        exact ⟨h1, hf, hn⟩
      · have : setFrameName fr nm = .error .notImplemented := by
          unfold setFrameName; rw [if_neg (not_not.mpr hf), if_pos hn]
        rw [this]
        exact ⟨h1, h2, h3⟩
    · have : setFrameName fr nm = .error .notImplemented := by
        unfold setFrameName; rw [if_pos hf]
      rw [this]
      exact ⟨h1, h2, h3⟩

theorem valid_after {s : Craft} (h : Valid s) (ops : List Op) : Valid (after s ops) := by
  induction ops generalizing s with
  | nil => exact h
  | cons o ops ih => exact ih (valid_step h o)

theorem mapM_ok {α β : Type} (g : α → Except PyErr β) (k : α → β) : ∀ (l : List α), (∀ a ∈ l, g a = .ok (k a)) → l.mapM g = .ok (l.map k) := by
  intro l
  induction l with
  | nil => intro _; rfl
  | cons a l ih =>
    intro h
    rw [List.mapM_cons, h a (by simp), ih (fun b hb => h b (by simp [hb]))]
    rfl

/-- C246: a refused call changes nothing; after any history of `set_data` and `set_frame_name`, accepted and refused, the data are those of the last
accepted `set_data`, frame and name are known ones in capitals, the position can be read, and the distance to the Sun has one value per time: that of the position
at that time in the present frame (C34). -/
theorem C246_history (K : SCConst) (f : Frame2) (name frame : String) (s : Craft) (h : construct f name frame = .ok s) (ops : List Op) :
    (∀ s' o e, (step s' o).1 = .error e → (step s' o).2 = s') ∧
    (after s ops).data = lastData s.data ops ∧
    (after s ops).frame ∈ ["GSE", "HCI"] ∧ (after s ops).name ∈ ["WIND", "PSP"] ∧
    (after s ops).position = .ok (["x", "y", "z"].map fun c => (c, colOf (after s ops).data "pos" c)) ∧
    ∃ r, (after s ops).distance K = .ok r ∧ r.length = (after s ops).data.idx.length ∧
      ∀ (i : Nat) (d : Fl), r[i]? = some d →
        distance2sun K (after s ops).frame ⟨cell (after s ops).data "pos" "x" i, cell (after s ops).data "pos" "y" i,
          cell (after s ops).data "pos" "z" i⟩ = .ok d := by
  have hv0 : Valid s := by
    obtain ⟨q1, q2, q3, q4, q5, q6, q7, rfl⟩ := (C245_accepts f name frame s).mp h
    exact ⟨⟨f, build_ok.mpr ⟨q1, q2, q3, q4, q5, rfl⟩⟩, q6, q7⟩
  obtain ⟨⟨g, hg⟩, hf, hn⟩ := valid_after hv0 ops
  have hpos : (after s ops).position = .ok (["x", "y", "z"].map fun c => (c, colOf (after s ops).data "pos" c)) := by
    obtain ⟨q1, q2, q3, q4, q5, hk⟩ := build_ok.mp hg
    obtain ⟨k1, _, _⟩ := kept_spec g q3 q4 q5 "pos" (by simp)
    unfold Craft.position
    rw [hk]
    exact (read_spec (kept g) "pos").2 (k1.mpr q3)
  refine ⟨?_, ?_, hf, hn, hpos, ?_⟩
  · intro s' o e he
    cases o with
    | setData f =>
      unfold step at he ⊢
      simp only [] at he ⊢
      cases hb : build f with
      | error e' => rfl
      | ok d => rw [hb] at he; cases he
    | setFrameName fr nm =>
      unfold step at he ⊢
      simp only [] at he ⊢
      cases hb : setFrameName fr nm with
      | error e' => rfl
      | ok d => rw [hb] at he; cases he
  · clear h hv0 hg hf hn hpos
    induction ops generalizing s with
    | nil => rfl
    | cons o ops ih =>
      show (after (step s o).2 ops).data = _
      rw [ih]
      cases o with
      | setData f =>
        show lastData (step s (.setData f)).2.data ops = lastData (match build f with | .ok d => d | .error _ => s.data) ops
        congr 1
        unfold step
        simp only []
        cases build f <;> rfl
      | setFrameName fr nm =>
        unfold step
        simp only []
        cases setFrameName fr nm <;> rfl
  · unfold Craft.distance
    rw [hpos]
    simp only []
    have hex : ∀ pos : V3, ∃ v, distance2sun K (after s ops).frame pos = .ok v := by
      intro pos
      unfold distance2sun
      simp only [List.mem_cons, List.not_mem_nil, or_false] at hf
      rcases hf with e | e
      · rw [e, if_pos rfl]; exact ⟨_, rfl⟩
      · rw [e, if_neg (by decide), if_pos rfl]; exact ⟨_, rfl⟩
    refine ⟨_, mapM_ok _ (fun i => Classical.choose (hex _)) _ (fun i _ => Classical.choose_spec (hex _)), by simp, ?_⟩
    intro i d hd
    rw [List.getElem?_map] at hd
    obtain ⟨j, hj, rfl⟩ := Option.map_eq_some_iff.mp hd
    obtain ⟨hlt, rfl⟩ := List.getElem?_eq_some_iff.mp hj
    rw [List.getElem_range]
    exact Classical.choose_spec (hex _)

end Sc
end SW
