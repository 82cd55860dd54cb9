import Mathlib.Data.List.Sort
import Mathlib.Data.String.Basic

/-!
# Python exceptions, string splitting, joining and sorting

Shared by every other module.  `pySplit`, `pyJoin`, `pySorted` model the Python builtins `str.split(sep)`
(one-character separator), `sep.join(list)` and `sorted(list_of_str)`; strings are compared by code point.
-/

namespace SW

/-- The Python exception classes that the modelled code raises. -/
inductive PyErr where
  | typeError | valueError | keyError | indexError | assertionError | notImplemented | attributeError
  | unboundLocal | runtimeError | invalidParameter | insufficientData | fitFailed | fileNotFound | other
  deriving DecidableEq, Repr

namespace Chars

/-- `str.split(sep)` on a character list: never returns the empty list. -/
def split (sep : Char) : List Char → List (List Char)
  | [] => [[]]
  | c :: cs =>
    if c = sep then [] :: split sep cs
    else match split sep cs with
      | [] => [[c]]
      | p :: ps => (c :: p) :: ps

/-- `sep.join(pieces)` -/
def join (sep : Char) : List (List Char) → List Char
  | [] => []
  | [p] => p
  | p :: q :: ps => p ++ sep :: join sep (q :: ps)

theorem split_ne_nil (sep : Char) (s : List Char) : split sep s ≠ [] := by
  induction s with
  | nil => simp [split]
  | cons c cs ih =>
    unfold split
    split
    · simp
    · split <;> simp

theorem join_split (sep : Char) (s : List Char) : join sep (split sep s) = s := by
  induction s with
  | nil => rfl
  | cons c cs ih =>
    unfold split
    by_cases h : c = sep
    · rw [if_pos h]
      rcases hs : split sep cs with _ | ⟨p, ps⟩
      · exact absurd hs (split_ne_nil _ _)
      · rw [hs] at ih
        simp [join, ih, h]
    · rw [if_neg h]
      rcases hs : split sep cs with _ | ⟨p, ps⟩
      · exact absurd hs (split_ne_nil _ _)
      · rw [hs] at ih
        cases ps with
        | nil => simpa [join] using ih
        | cons q qs => simpa [join] using ih

theorem not_mem_split (sep : Char) (s : List Char) : ∀ p ∈ split sep s, sep ∉ p := by
  induction s with
  | nil => simp [split]
  | cons c cs ih =>
    unfold split
    by_cases h : c = sep
    · rw [if_pos h]; intro p hp
      rcases List.mem_cons.mp hp with rfl | hp
      · simp
      · exact ih p hp
    · rw [if_neg h]
      rcases hs : split sep cs with _ | ⟨p, ps⟩
      · exact absurd hs (split_ne_nil _ _)
      · rw [hs] at ih
        intro x hx
        rcases List.mem_cons.mp hx with rfl | hx
        · have := ih p (by simp)
          simp [this, Ne.symm h]
        · exact ih x (by simp [hx])

theorem split_of_not_mem (sep : Char) (s : List Char) (h : sep ∉ s) : split sep s = [s] := by
  induction s with
  | nil => rfl
  | cons c cs ih =>
    simp only [List.mem_cons, not_or] at h
    unfold split
    rw [if_neg (Ne.symm h.1), ih h.2]

theorem split_append (sep : Char) (p s : List Char) (h : sep ∉ p) :
    split sep (p ++ sep :: s) = p :: split sep s := by
  induction p with
  | nil => simp [split]
  | cons c cs ih =>
    simp only [List.mem_cons, not_or] at h
    simp only [List.cons_append]
    rw [split, if_neg (Ne.symm h.1), ih h.2]

theorem split_join (sep : Char) (ps : List (List Char)) (hne : ps ≠ [])
    (h : ∀ p ∈ ps, sep ∉ p) : split sep (join sep ps) = ps := by
  induction ps with
  | nil => exact absurd rfl hne
  | cons p ps ih =>
    cases ps with
    | nil => exact split_of_not_mem _ _ (h p (by simp))
    | cons q qs =>
      rw [join, split_append _ _ _ (h p (by simp)), ih (by simp) (fun x hx => h x (by simp [hx]))]

theorem mem_join_of (sep : Char) (c : Char) (hc : c ≠ sep) (ps : List (List Char)) :
    c ∈ join sep ps ↔ ∃ p ∈ ps, c ∈ p := by
  induction ps with
  | nil => simp [join]
  | cons p ps ih =>
    cases ps with
    | nil => simp [join]
    | cons q qs => rw [join]; simp only [List.mem_append, List.mem_cons, ih]; simp [hc]

end Chars

/-- `ch in s` for a one-character `ch`. -/
def hasChar (c : Char) (s : String) : Bool := s.toList.contains c

/-- `s.split(sep)` -/
def pySplit (sep : Char) (s : String) : List String := (Chars.split sep s.toList).map String.ofList

/-- `sep.join(ps)` -/
def pyJoin (sep : Char) (ps : List String) : String :=
  String.ofList (Chars.join sep (ps.map String.toList))

/-- `sorted(l)` on strings -/
def pySorted (l : List String) : List String := l.insertionSort (· ≤ ·)

theorem hasChar_iff {c : Char} {s : String} : hasChar c s = true ↔ c ∈ s.toList := by
  simp [hasChar]

theorem pySplit_ne_nil (sep : Char) (s : String) : pySplit sep s ≠ [] := by
  simp [pySplit, Chars.split_ne_nil]

theorem pyJoin_pySplit (sep : Char) (s : String) : pyJoin sep (pySplit sep s) = s := by
  simp [pyJoin, pySplit, List.map_map, Function.comp_def, Chars.join_split]

theorem pySplit_no_sep (sep : Char) (s : String) : ∀ p ∈ pySplit sep s, hasChar sep p = false := by
  intro p hp
  obtain ⟨q, hq, rfl⟩ := List.mem_map.mp hp
  have := Chars.not_mem_split sep s.toList q hq
  simp [hasChar, this]

theorem pySplit_pyJoin (sep : Char) (ps : List String) (hne : ps ≠ [])
    (h : ∀ p ∈ ps, hasChar sep p = false) : pySplit sep (pyJoin sep ps) = ps := by
  unfold pySplit pyJoin
  rw [String.toList_ofList, Chars.split_join]
  · simp [List.map_map, Function.comp_def]
  · simpa using hne
  · intro p hp
    obtain ⟨q, hq, rfl⟩ := List.mem_map.mp hp
    have := h q hq
    simpa [hasChar] using this

theorem pySplit_self (sep : Char) (s : String) (h : hasChar sep s = false) : pySplit sep s = [s] := by
  unfold pySplit
  rw [Chars.split_of_not_mem]
  · simp
  · simpa [hasChar] using h

theorem hasChar_pyJoin (sep c : Char) (hc : c ≠ sep) (ps : List String) :
    hasChar c (pyJoin sep ps) = true ↔ ∃ p ∈ ps, hasChar c p = true := by
  rw [hasChar_iff, pyJoin, String.toList_ofList, Chars.mem_join_of _ _ hc]
  simp [hasChar]

theorem hasChar_pySplit (sep c : Char) (hc : c ≠ sep) (s : String) (h : hasChar c s = false) :
    ∀ p ∈ pySplit sep s, hasChar c p = false := by
  intro p hp
  by_contra hcon
  have := (hasChar_pyJoin sep c hc (pySplit sep s)).mpr ⟨p, hp, by simpa using hcon⟩
  rw [pyJoin_pySplit] at this
  simp [h] at this

theorem pySorted_perm (l : List String) : (pySorted l).Perm l := List.perm_insertionSort _ _
theorem pySorted_pairwise (l : List String) : (pySorted l).Pairwise (· ≤ ·) :=
  List.pairwise_insertionSort _ _
theorem pySorted_eq_of_perm {l l' : List String} (h : l.Perm l') : pySorted l = pySorted l' :=
  List.Perm.eq_of_pairwise' (r := (· ≤ ·)) (pySorted_pairwise _) (pySorted_pairwise _)
    (((pySorted_perm l).trans h).trans (pySorted_perm l').symm)
theorem pySorted_of_sorted {l : List String} (h : l.Pairwise (· ≤ ·)) : pySorted l = l :=
  List.Perm.eq_of_pairwise' (r := (· ≤ ·)) (pySorted_pairwise _) h (pySorted_perm l)
theorem pySorted_idem (l : List String) : pySorted (pySorted l) = pySorted l :=
  pySorted_of_sorted (pySorted_pairwise l)
theorem mem_pySorted {l : List String} {s : String} : s ∈ pySorted l ↔ s ∈ l :=
  (pySorted_perm l).mem_iff

end SW
