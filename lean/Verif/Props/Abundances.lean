import Verif.Abundances
import Verif.Props.Spacecraft

/-!
# C206: the reference abundances shipped with the package
-/

namespace SW

/-- specification: the years for which a table is shipped -/
def Shipped (y : Int) : Prop := y = 2009 ∨ y = 2021

/-- specification: an element of the year's table asked for by symbol or by atomic number -/
inductive Names (r : TRow) : AKey → Prop
  | sym : Names r (.sym r.sym)
  | z : Names r (.z r.z)

theorem size_2009 : asplund2009.length = 83 := by decide +kernel
theorem size_2021 : asplund2021.length = 83 := by decide +kernel
theorem same_elements : asplund2009.map TRow.z = asplund2021.map TRow.z ∧ asplund2009.map TRow.sym = asplund2021.map TRow.sym := by
  constructor <;> decide +kernel
theorem nodup_z : (asplund2021.map TRow.z).Nodup := by decide +kernel
theorem nodup_sym : (asplund2021.map TRow.sym).Nodup := by decide +kernel

theorem lines_nodup {y : Int} (hy : Shipped y) : ((refLines y).map TRow.z).Nodup ∧ ((refLines y).map TRow.sym).Nodup := by
  rcases hy with rfl | rfl
  · show (asplund2009.map TRow.z).Nodup ∧ (asplund2009.map TRow.sym).Nodup
    rw [same_elements.1, same_elements.2]; exact ⟨nodup_z, nodup_sym⟩
  · exact ⟨nodup_z, nodup_sym⟩

theorem filter_unique {α β : Type} [DecidableEq β] (f : α → β) : ∀ (l : List α), (l.map f).Nodup → ∀ r ∈ l, l.filter (fun x => f x == f r) = [r]
  | [], _, r, h => by simp at h
  | a :: l, hn, r, h => by
    rw [List.map_cons, List.nodup_cons] at hn
    rcases List.mem_cons.mp h with rfl | h
    · rw [List.filter_cons_of_pos (by simp)]
      congr 1
      rw [List.filter_eq_nil_iff]
      intro x hx hxr
      rw [beq_iff_eq] at hxr
      exact hn.1 (hxr ▸ List.mem_map.mpr ⟨x, hx, rfl⟩)
    · have : f a ≠ f r := fun e => hn.1 (e ▸ List.mem_map.mpr ⟨r, h, rfl⟩)
      rw [List.filter_cons_of_neg (by simpa using this)]
      exact filter_unique f l hn.2 r h

theorem hits_unique {y : Int} (hy : Shipped y) {r : TRow} (hr : r ∈ refLines y) {key : AKey} (hk : Names r key) :
    (refLines y).filter (fun x => x.hits key) = [r] := by
  obtain ⟨h1, h2⟩ := lines_nodup hy
  cases hk with
  | sym => exact filter_unique TRow.sym _ h2 r hr
  | z => exact filter_unique TRow.z _ h1 r hr

theorem matches_row (r : TRow) (key : AKey) : r.row.matches key = r.hits key := by
  cases key <;> rfl

theorem rows_filter (l : List TRow) (key : AKey) : (l.map TRow.row).filter (fun x => x.matches key) = (l.filter (fun x => x.hits key)).map TRow.row := by
  rw [List.filter_map]
  congr 1

theorem refData_ok {y : Int} (hy : Shipped y) : refData (some y) = .ok ((refLines y).map TRow.row) := by
  have : checkYear (some y) = .ok y := by unfold checkYear; simp only [if_pos (show y = 2009 ∨ y = 2021 from hy)]
  unfold refData
  rw [this]

theorem hits_names {r : TRow} {key : AKey} (h : r.hits key = true) : Names r key := by
  cases key with
  | sym s => rw [TRow.hits, beq_iff_eq] at h; subst h; exact .sym
  | z n => rw [TRow.hits, beq_iff_eq] at h; subst h; exact .z
  | other => cases h

/-- C206: each of the two tables has 83 elements with different numbers and different symbols, the same elements in both years. -/
theorem C206_elements :
    (∀ y, Shipped y → ∃ d, refData (some y) = .ok d ∧ d.length = 83 ∧ (d.map ARow.z).Nodup ∧ (d.map ARow.sym).Nodup) ∧
    (∀ d d', refData (some 2009) = .ok d → refData (some 2021) = .ok d' → d.map ARow.z = d'.map ARow.z ∧ d.map ARow.sym = d'.map ARow.sym) := by
  have e1 : ∀ l : List TRow, (l.map TRow.row).map ARow.z = l.map TRow.z := fun l => by rw [List.map_map]; rfl
  have e2 : ∀ l : List TRow, (l.map TRow.row).map ARow.sym = l.map TRow.sym := fun l => by rw [List.map_map]; rfl
  constructor
  · intro y hy
    refine ⟨_, refData_ok hy, ?_, ?_, ?_⟩
    · rw [List.length_map]
      rcases hy with rfl | rfl
      · exact size_2009
      · exact size_2021
    · rw [e1]; exact (lines_nodup hy).1
    · rw [e2]; exact (lines_nodup hy).2
  · intro d d' h h'
    rw [refData_ok (.inl rfl)] at h
    rw [refData_ok (.inr rfl)] at h'
    injection h with h; injection h' with h'
    subst h h'
    rw [e1, e1, e2, e2]
    exact same_elements

/-- C206: an element is found by symbol and by number, with the same values; any other string or number is a KeyError; the lookup never fails
with AssertionError. -/
theorem C206_lookup (y : Int) (hy : Shipped y) (d : List ARow) (hd : refData (some y) = .ok d) :
    (∀ r ∈ refLines y, ∀ key, Names r key →
      getElement d key "Photosphere" = .ok (thou r.ph.1, thou r.ph.2) ∧
      getElement d key "CI_chondrites" = .ok (thou r.ci.1, thou r.ci.2) ∧ getElement d key "Meteorites" = .ok (thou r.ci.1, thou r.ci.2)) ∧
    (∀ key kind, (∀ r ∈ refLines y, ¬ Names r key) → key ≠ .other → getElement d key kind = .error .keyError) ∧
    (∀ key kind, getElement d key kind ≠ .error .assertionError) := by
  rw [refData_ok hy] at hd
  injection hd with hd
  subst hd
  have found : ∀ r ∈ refLines y, ∀ key, Names r key → ((refLines y).map TRow.row).filter (fun x => x.matches key) = [r.row] := by
    intro r hr key hk
    rw [rows_filter, hits_unique hy hr hk]; rfl
  have lost : ∀ key, (∀ r ∈ refLines y, ¬ Names r key) → ((refLines y).map TRow.row).filter (fun x => x.matches key) = [] := by
    intro key h
    rw [rows_filter, List.filter_eq_nil_iff.mpr (fun r hr hh => h r hr (hits_names hh))]; rfl
  refine ⟨?_, ?_, ?_⟩
  · intro r hr key hk
    have hne : key ≠ .other := by rintro rfl; cases hk
    exact (C35_lookup _ key hne).1 _ (found r hr key hk)
  · intro key kind h hne
    unfold getElement
    simp only [lost key h, if_neg hne, ite_self]
  · intro key kind h
    by_cases hex : ∃ r ∈ refLines y, Names r key
    · obtain ⟨r, hr, hk⟩ := hex
      unfold getElement at h
      simp only [found r hr key hk] at h
      revert h
      generalize (if kind = "Meteorites" then "CI_chondrites" else kind) = k
      intro h
      split at h
      · cases h
      · split at h
        · cases h
        · cases h
    · unfold getElement at h
      simp only [lost key (fun r hr hk => hex ⟨r, hr, hk⟩)] at h
      revert h
      generalize (if kind = "Meteorites" then "CI_chondrites" else kind) = k
      intro h
      split at h
      · cases h
      · split at h <;> cases h

/-! ### ratios -/

theorem ref_has {y : Int} (hy : Shipped y) {r : TRow} (hr : r ∈ refLines y) {key : AKey} (hk : Names r key) :
    HasElement ((refLines y).map TRow.row) key (thou r.ph.1) (thou r.ph.2) :=
  ⟨r.row, (by rintro rfl; cases hk), by rw [rows_filter, hits_unique hy hr hk]; rfl, rfl⟩

/-- a line of the table is complete: an abundance comes with an uncertainty that is not negative and is at most 12, the value of hydrogen alone -/
def lineOk (y : Int) (r : TRow) : Bool :=
  match r.ph.1, r.ph.2 with
  | some a, some u => decide (0 ≤ u) && decide (a ≤ 12000) && (decide (a ≠ 12000) || r.sym == "H")
  | some a, none => decide (a = 12000) && r.sym == "H" && decide (y = 2009)
  | none, none => true
  | none, some _ => false

theorem lines_ok : (∀ r ∈ asplund2009, lineOk 2009 r = true) ∧ ∀ r ∈ asplund2021, lineOk 2021 r = true := by
  constructor <;> decide +kernel

theorem line_ok {y : Int} (hy : Shipped y) {r : TRow} (hr : r ∈ refLines y) : lineOk y r = true := by
  rcases hy with rfl | rfl
  · exact lines_ok.1 r hr
  · exact lines_ok.2 r hr

def hydrogen (y : Int) : TRow :=
  if y = 2009 then ⟨1, "H", (some 8220, some 40), (some 12000, none), ""⟩ else ⟨1, "H", (some 8220, some 40), (some 12000, some 0), "definition"⟩

theorem hydrogen_mem {y : Int} (hy : Shipped y) : hydrogen y ∈ refLines y := by
  rcases hy with rfl | rfl
  · exact List.mem_of_getElem? (i := 0) rfl
  · exact List.mem_of_getElem? (i := 0) rfl

theorem hydrogen_eq {y : Int} (hy : Shipped y) {r : TRow} (hr : r ∈ refLines y) (h : r.sym = "H") : r = hydrogen y := by
  have h1 := hits_unique hy hr .sym
  have h2 := hits_unique hy (hydrogen_mem hy) .sym
  have : (hydrogen y).sym = r.sym := by rw [h]; unfold hydrogen; split <;> rfl
  rw [this] at h2
  rw [h1] at h2
  simpa using h2

theorem thou_cases (o : Option Int) : thou o = .nan ∨ ∃ x, thou o = .fin x := by
  cases o with
  | none => exact .inl rfl
  | some k => exact .inr ⟨_, rfl⟩

theorem ratio_nan_general {tab : List ARow} {num den : AKey} {a b ua ub : Fl} (hd : den ≠ .sym "H") (h1 : HasElement tab num a ua)
    (h2 : HasElement tab den b ub) (h : a = .nan ∨ b = .nan) : abundanceRatio tab num den = .ok (.nan, .nan) := by
  unfold abundanceRatio
  simp only [getElement_ok h1, getElement_ok h2, bind, Except.bind]
  rw [if_pos hd]
  have e : exp10 (a - b) = .nan := by
    rcases h with rfl | rfl
    · simp [exp10]
    · cases a <;> simp [exp10]
  simp only [pure, Except.pure, e, Fl.nan_mul]

theorem ratio_nan_H {tab : List ARow} {num : AKey} {ua : Fl} (h1 : HasElement tab num .nan ua) :
    abundanceRatio tab num (.sym "H") = .ok (.nan, .nan) := by
  unfold abundanceRatio
  simp only [getElement_ok h1, bind, Except.bind]
  rw [if_neg (by simp)]
  simp only [pure, Except.pure, Fl.nan_sub, exp10, Fl.nan_mul]

/-- C206: the ratio of two elements of a table, whichever way they are named: missing exactly when one of them has no photospheric abundance, else
positive and ten to the difference of the abundances; an element over itself is one. -/
theorem C206_ratio (y : Int) (hy : Shipped y) (d : List ARow) (hd : refData (some y) = .ok d) (r q : TRow) (hr : r ∈ refLines y)
    (hq : q ∈ refLines y) (kr kq : AKey) (hkr : Names r kr) (hkq : Names q kq) :
    ∃ m u, abundanceRatio d kr kq = .ok (m, u) ∧ (m = .nan ↔ r.ph.1 = none ∨ q.ph.1 = none) ∧
      (∀ a b, r.ph.1 = some a → q.ph.1 = some b → m = .fin ((10 : ℝ) ^ (((a : ℝ) - b) / 1000)) ∧
        (a = b → m = .fin 1) ∧ (a < b → ∃ x : ℝ, m = .fin x ∧ 0 < x ∧ x < 1)) := by
  rw [refData_ok hy] at hd
  injection hd with hd
  subst hd
  have e1 := ref_has hy hr hkr
  have e2 := ref_has hy hq hkq
  have fin' : ∀ (a b : ℤ) (m : Fl), m = .fin ((10 : ℝ) ^ (((a : ℝ) - b) / 1000)) →
      m = .fin ((10 : ℝ) ^ (((a : ℝ) - b) / 1000)) ∧ (a = b → m = .fin 1) ∧ (a < b → ∃ x : ℝ, m = .fin x ∧ 0 < x ∧ x < 1) := by
    rintro a b m rfl
    refine ⟨rfl, ?_, ?_⟩
    · rintro rfl; simp
    · intro h
      have : (a : ℝ) < b := by exact_mod_cast h
      exact ⟨_, rfl, Real.rpow_pos_of_pos (by norm_num) _, Real.rpow_lt_one_of_one_lt_of_neg (by norm_num) (by linarith)⟩
  by_cases hH : kq = .sym "H"
  · have hqH : q.sym = "H" := by
      cases hkq with
      | sym => injection hH
      | z => cases hH
    have hq' := hydrogen_eq hy hq hqH
    have hb : q.ph.1 = some 12000 := by rw [hq']; unfold hydrogen; split <;> rfl
    subst hH
    cases ha : r.ph.1 with
    | none =>
      rw [ha] at e1
      exact ⟨.nan, .nan, ratio_nan_H e1, by simp, fun a b h => by cases h⟩
    | some a =>
      rw [ha] at e1
      obtain ⟨u, e, -, -⟩ := C35_hydrogen _ kr _ _ e1
      refine ⟨_, u, e, by simp [hb], ?_⟩
      intro a' b h1 h2
      injection h1 with h1; rw [hb] at h2; injection h2 with h2
      subst h1 h2
      apply fin'
      congr 2; push_cast; ring
  · cases ha : r.ph.1 with
    | none =>
      rw [ha] at e1
      exact ⟨.nan, .nan, ratio_nan_general hH e1 e2 (.inl rfl), by simp, fun a b h => by cases h⟩
    | some a =>
      cases hb : q.ph.1 with
      | none =>
        rw [hb] at e2
        exact ⟨.nan, .nan, ratio_nan_general hH e1 e2 (.inr rfl), by simp, fun a b _ h => by cases h⟩
      | some b =>
        rw [ha] at e1; rw [hb] at e2
        refine ⟨_, _, C35_ratio _ kr kq _ _ _ _ hH e1 e2 (thou_cases _) (thou_cases _), by simp, ?_⟩
        intro a' b' h1 h2
        injection h1 with h1; injection h2 with h2
        subst h1 h2
        apply fin'
        congr 2; ring

/-- C206: no element is more abundant than hydrogen. -/
theorem C206_most (y : Int) (hy : Shipped y) (d : List ARow) (hd : refData (some y) = .ok d) (r : TRow) (hr : r ∈ refLines y) (kr : AKey)
    (hkr : Names r kr) (hm : r.ph.1 ≠ none) :
    ∃ (x : ℝ) (u : Fl), abundanceRatio d kr (.sym "H") = .ok (.fin x, u) ∧ 0 < x ∧ x ≤ 1 ∧ (x = 1 ↔ r.sym = "H") := by
  have hH := hydrogen_mem hy
  have hs : (hydrogen y).sym = "H" := by unfold hydrogen; split <;> rfl
  have hp : (hydrogen y).ph.1 = some 12000 := by unfold hydrogen; split <;> rfl
  obtain ⟨m, u, e, -, h⟩ := C206_ratio y hy d hd r (hydrogen y) hr hH kr (.sym "H") hkr (by rw [← hs]; exact .sym)
  obtain ⟨a, ha⟩ := Option.ne_none_iff_exists'.mp hm
  obtain ⟨h1, h2, h3⟩ := h a 12000 ha hp
  have hok := line_ok hy hr
  have hle : a ≤ 12000 ∧ (a = 12000 → r.sym = "H") := by
    unfold lineOk at hok
    rw [ha] at hok
    cases hu : r.ph.2 with
    | none =>
      rw [hu] at hok
      simp only [Bool.and_eq_true, decide_eq_true_eq, beq_iff_eq] at hok
      exact ⟨hok.1.1.le, fun _ => hok.1.2⟩
    | some w =>
      rw [hu] at hok
      simp only [Bool.and_eq_true, Bool.or_eq_true, decide_eq_true_eq, beq_iff_eq] at hok
      exact ⟨hok.1.2, fun e => hok.2.resolve_left (fun h => h e)⟩
  rcases lt_or_eq_of_le hle.1 with hlt | heq
  · obtain ⟨x, rfl, hx0, hx1⟩ := h3 hlt
    refine ⟨x, u, e, hx0, hx1.le, ⟨fun h => absurd h hx1.ne, fun h => ?_⟩⟩
    rw [hydrogen_eq hy hr h, hp] at ha
    injection ha with ha; omega
  · rw [h2 heq] at e
    exact ⟨1, u, e, one_pos, le_refl _, fun _ => hle.2 heq, fun _ => rfl⟩

/-- C206 (violated in one case: the ratio does not depend on how hydrogen is named): the ratio to `"H"` is the ratio to atomic number 1 for every
element of both tables, except that hydrogen over hydrogen in 2009 has a missing uncertainty when the denominator is named by symbol and no
uncertainty when it is named by number. -/
theorem C206_hydrogen (y : Int) (hy : Shipped y) (d : List ARow) (hd : refData (some y) = .ok d) (r : TRow) (hr : r ∈ refLines y) (kr : AKey)
    (hkr : Names r kr) :
    (¬ (y = 2009 ∧ r.sym = "H") → abundanceRatio d kr (.z 1) = abundanceRatio d kr (.sym "H")) ∧
    (y = 2009 → r.sym = "H" → abundanceRatio d kr (.z 1) = .ok (.fin 1, .fin 0) ∧ abundanceRatio d kr (.sym "H") = .ok (.fin 1, .nan)) := by
  rw [refData_ok hy] at hd
  injection hd with hd
  subst hd
  have e1 := ref_has hy hr hkr
  have hz : (hydrogen y).z = 1 := by unfold hydrogen; split <;> rfl
  have hp : (hydrogen y).ph.1 = some 12000 := by unfold hydrogen; split <;> rfl
  have hpu : (hydrogen y).ph.2 = none ∨ (hydrogen y).ph.2 = some 0 := by unfold hydrogen; split <;> simp
  have eH : HasElement ((refLines y).map TRow.row) (.z 1) (.fin 12) (thou (hydrogen y).ph.2) := by
    have := ref_has hy (hydrogen_mem hy) (key := .z 1) (by rw [← hz]; exact .z)
    rw [hp] at this
    have e : thou (some 12000) = .fin 12 := by unfold thou; congr 1; norm_num
    rw [e] at this; exact this
  have hok := line_ok hy hr
  unfold lineOk at hok
  constructor
  · intro hne
    cases ha : r.ph.1 with
    | none =>
      rw [ha] at e1
      rw [ratio_nan_general (by simp) e1 eH (.inl rfl), ratio_nan_H e1]
    | some a =>
      cases hu : r.ph.2 with
      | none =>
        rw [ha, hu] at hok
        simp only [Bool.and_eq_true, decide_eq_true_eq, beq_iff_eq] at hok
        exact absurd ⟨hok.2, hok.1.2⟩ hne
      | some w =>
        rw [ha, hu] at hok e1
        simp only [Bool.and_eq_true, decide_eq_true_eq] at hok
        refine C35_hydrogen_agrees _ kr _ ((w : ℝ) / 1000) (thou (hydrogen y).ph.2) ?_ e1 eH ?_
        · have : (0 : ℝ) ≤ w := by exact_mod_cast hok.1.1
          positivity
        · rcases hpu with h | h <;> rw [h]
          · exact .inl rfl
          · right; unfold thou; simp
  · rintro rfl hs
    have := hydrogen_eq hy hr hs
    subst this
    have e1' : HasElement ((refLines 2009).map TRow.row) kr (.fin 12) .nan := by
      have e : thou (some 12000) = .fin 12 := by unfold thou; congr 1; norm_num
      rw [← e]; exact e1
    refine ⟨?_, ?_⟩
    · rw [C35_ratio _ kr (.z 1) 12 12 .nan _ (by simp) e1' eH (.inl rfl) (thou_cases _)]
      have : uncR (thou (hydrogen 2009).ph.2) = 0 := rfl
      rw [this]
      simp [uncR]
    · obtain ⟨u, e, h, -⟩ := C35_hydrogen _ kr 12 .nan e1'
      rw [e, h rfl]; simp

/-! ### comments -/

/-- C206 (comments; violated: errors differ from those of the other lookups): in 2009 there is never a comment, not even an error for a key of the
wrong type; in 2021 a key of the wrong type is a ValueError, an unknown element has no comment (the abundance lookup raises KeyError), a known
one has the comment of its line, or none if that is empty, whichever way it is named.  An element commented "meteorites" (documented as adopted from chondrites) has no abundance at all unless it is lithium,
and only those have none. -/
theorem C206_comment (key : AKey) :
    getComment 2009 key = .ok none ∧ getComment 2021 .other = .error .valueError ∧
    (key ≠ .other → (∀ r ∈ refLines 2021, ¬ Names r key) → getComment 2021 key = .ok none) ∧
    (∀ r ∈ refLines 2021, Names r key → getComment 2021 key = .ok (if r.comment = "" then none else some r.comment)) ∧
    (∀ r ∈ refLines 2021, r.comment ∈ ["", "definition", "helioseismology", "meteorites", "solar wind", "nuclear physics"]) ∧
    (∀ r ∈ refLines 2021, (r.ph.1 = none ↔ r.comment = "meteorites" ∧ r.sym ≠ "Li")) := by
  have hy : Shipped 2021 := .inr rfl
  refine ⟨rfl, rfl, ?_, ?_, ?_, ?_⟩
  · intro hne h
    unfold getComment
    rw [if_neg (by decide), if_neg hne, List.filter_eq_nil_iff.mpr (fun r hr hh => h r hr (hits_names hh))]
  · intro r hr hk
    unfold getComment
    rw [if_neg (by decide), if_neg (by rintro rfl; cases hk), hits_unique hy hr hk]
  · show ∀ r ∈ asplund2021, _
    decide +kernel
  · show ∀ r ∈ asplund2021, _
    decide +kernel

/-- concrete: iron over oxygen in 2021 is ten to minus 1.23, by symbol or by number -/
example (d : List ARow) (hd : refData (some 2021) = .ok d) :
    ∃ u, abundanceRatio d (.sym "Fe") (.z 8) = .ok (.fin ((10 : ℝ) ^ (((7460 : ℤ) - (8690 : ℤ) : ℝ) / 1000)), u) := by
  have h1 : (⟨26, "Fe", (some 7460, some 20), (some 7460, some 40), ""⟩ : TRow) ∈ refLines 2021 := List.mem_of_getElem? (i := 25) rfl
  have h2 : (⟨8, "O", (some 8390, some 40), (some 8690, some 40), ""⟩ : TRow) ∈ refLines 2021 := List.mem_of_getElem? (i := 7) rfl
  obtain ⟨m, u, e, -, h⟩ := C206_ratio 2021 (.inr rfl) d hd _ _ h1 h2 (.sym "Fe") (.z 8) .sym .z
  rw [(h 7460 8690 rfl rfl).1] at e
  exact ⟨u, e⟩

end SW
