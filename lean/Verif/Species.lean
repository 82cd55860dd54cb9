import Verif.PyStr

/-!
# Model: species arguments (core/base.py, core/plasma.py)
-/

namespace SW

/-- A Python argument: a string or anything else. -/
inductive PyVal where
  | str (s : String)
  | other
  deriving DecidableEq

/-- `isinstance(s, str)` for all arguments, returning the strings. -/
def allStr : List PyVal → Option (List String)
  | [] => some []
  | .str s :: l => (allStr l).map (s :: ·)
  | .other :: _ => none

/-- `Core._conform_species`, core/base.py:134-165. -/
def conform (args : List PyVal) : Except PyErr (List String) :=
  match allStr args with
  | none => .error .typeError
  | some l =>
    if l.any (hasChar ',') then .error .valueError
    else if l.any (hasChar '+') && decide (1 < l.length) then .error .valueError
    else .ok (pySorted (match l with
      | [s] => pySplit '+' s
      | l => l))

/-- The same on string arguments. -/
def conformS (l : List String) : Except PyErr (List String) := conform (l.map .str)

/-- `Plasma._chk_species`, core/plasma.py:505-528. `ions` is `self.ions.index`.
`np.unique(...)`/`Index.difference` only remove duplicates and sort, which does not affect the outcome and
is omitted; `unavailable.any()` is Python truthiness: an empty string does not count. -/
def chkSpecies (ions : List String) (args : List PyVal) : Except PyErr (List String) := do
  let sp ← conform args
  let minimal := sp.flatMap (pySplit '+')
  let unavailable := minimal.filter (fun s => !ions.contains s)
  if unavailable.any (fun s => s != "") then throw .valueError
  return sp

/-- `Base._clean_species_for_setting`, core/base.py:167-173 and 244-250. -/
def cleanSpecies (l : List String) : Except PyErr (List String) :=
  if l.isEmpty then .error .valueError
  else if l.any (hasChar '+') then .error .assertionError
  else .ok (pySorted l)

/-- core/plasma.py:541-543: a single name is split at commas. -/
def ionNames : List String → List String
  | [s] => pySplit ',' s
  | l => l

/-- The species part of `Plasma._set_ions`, core/plasma.py:540-551. -/
def setIonsSpecies (sp : List String) : Except PyErr (List String) :=
  if (ionNames sp).any (hasChar '+') then .error .assertionError else .ok (ionNames sp)

/-! ### Helper lemmas -/

theorem allStr_map (l : List String) : allStr (l.map .str) = some l := by
  induction l with
  | nil => rfl
  | cons s l ih => simp [allStr, ih]

theorem allStr_eq_some {args : List PyVal} {l : List String} (h : allStr args = some l) :
    args = l.map .str := by
  induction args generalizing l with
  | nil => simp [allStr] at h; simp [h]
  | cons a args ih =>
    cases a with
    | other => simp [allStr] at h
    | str s =>
      simp only [allStr, Option.map_eq_some_iff] at h
      obtain ⟨l', h1, rfl⟩ := h
      simp [ih h1]

theorem allStr_eq_none {args : List PyVal} : allStr args = none ↔ PyVal.other ∈ args := by
  induction args with
  | nil => simp [allStr]
  | cons a args ih => cases a <;> simp [allStr, ih]

/-- the pieces before sorting -/
theorem conformS_eq (l : List String) : conformS l =
    if l.any (hasChar ',') then .error .valueError
    else if l.any (hasChar '+') && decide (1 < l.length) then .error .valueError
    else .ok (pySorted (match l with | [s] => pySplit '+' s | l => l)) := by
  unfold conformS conform; rw [allStr_map]

theorem conform_ok_no_plus {args : List PyVal} {sp : List String} (h : conform args = .ok sp) :
    ∀ s ∈ sp, hasChar '+' s = false := by
  unfold conform at h
  split at h
  · cases h
  · rename_i l hl
    split at h
    · cases h
    · split at h
      · cases h
      · rename_i h1 h2
        injection h with h; subst h
        intro s hs
        rw [mem_pySorted] at hs
        split at hs
        · exact pySplit_no_sep _ _ _ hs
        · rename_i _ hne
          by_contra hc
          have hp : l.any (hasChar '+') = true := List.any_eq_true.mpr ⟨s, hs, by simpa using hc⟩
          have : ¬ 1 < l.length := by
            intro hlt; exact h2 (by simp [hp, hlt])
          match l, hne, hs, this with
          | [], _, hs, _ => simp at hs
          | [a], hne, _, _ => exact hne a rfl
          | _ :: _ :: _, _, _, h => simp at h

theorem flatMap_split_id (sp : List String) (h : ∀ s ∈ sp, hasChar '+' s = false) :
    sp.flatMap (pySplit '+') = sp := by
  induction sp with
  | nil => rfl
  | cons s sp ih =>
    rw [List.flatMap_cons, pySplit_self _ _ (h s (by simp)), ih (fun x hx => h x (by simp [hx]))]
    rfl

theorem chkSpecies_eq (ions : List String) (args : List PyVal) :
    chkSpecies ions args = (conform args).bind (fun sp =>
      if ∃ s ∈ sp, s ∉ ions ∧ s ≠ "" then .error .valueError else .ok sp) := by
  unfold chkSpecies
  cases h : conform args with
  | error e => rfl
  | ok sp =>
    show (if _ then _ else _) = (if _ then _ else _)
    rw [flatMap_split_id sp (conform_ok_no_plus h)]
    have : ((sp.filter (fun s => !ions.contains s)).any (fun s => s != "") = true) ↔
        ∃ s ∈ sp, s ∉ ions ∧ s ≠ "" := by
      simp [List.any_eq_true]
    by_cases hc : ∃ s ∈ sp, s ∉ ions ∧ s ≠ ""
    · rw [if_pos hc, if_pos (this.mpr hc)]; rfl
    · rw [if_neg hc, if_neg (fun h => hc (this.mp h))]; rfl

end SW
