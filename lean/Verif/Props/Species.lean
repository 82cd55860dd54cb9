import Verif.Species

/-!
# Properties C01, C02 (species arguments)

Specification vocabulary: a `+`-joined name denotes the list of its `+`-free pieces.
-/

namespace SW

/-- Spec: the pieces a species *query* denotes. One string: the unique list of `+`-free pieces whose
`+`-join is the string; otherwise: the strings themselves. -/
def IsQueryPieces (l ps : List String) : Prop :=
  (∀ s, l = [s] → ps ≠ [] ∧ (∀ p ∈ ps, hasChar '+' p = false) ∧ pyJoin '+' ps = s) ∧
  (l.length ≠ 1 → ps = l)

/-- C01: a non-string argument is a TypeError. -/
theorem C01_type_error (args : List PyVal) :
    conform args = .error .typeError ↔ PyVal.other ∈ args := by
  rw [← allStr_eq_none]
  unfold conform
  cases allStr args with
  | none => simp
  | some l => simp only; split <;> [simp; (split <;> simp)]

/-- C01: ValueError exactly for a comma, or a `+` among several arguments. -/
theorem C01_value_error (l : List String) :
    conformS l = .error .valueError ↔
      (∃ s ∈ l, ',' ∈ s.toList) ∨ (1 < l.length ∧ ∃ s ∈ l, '+' ∈ s.toList) := by
  rw [conformS_eq]
  have hc : l.any (hasChar ',') = true ↔ ∃ s ∈ l, ',' ∈ s.toList := by simp [List.any_eq_true, hasChar]
  have hp : l.any (hasChar '+') = true ↔ ∃ s ∈ l, '+' ∈ s.toList := by simp [List.any_eq_true, hasChar]
  rw [← hc, ← hp]
  by_cases h1 : l.any (hasChar ',') = true
  · simp [h1]
  · by_cases h2 : l.any (hasChar '+') = true <;> by_cases h3 : 1 < l.length <;> simp [h1, h2, h3]

/-- C01: otherwise the call succeeds, with a sorted rearrangement of the denoted pieces: nothing is added,
lost or deduplicated. -/
theorem C01_canonical (l : List String)
    (hcomma : ∀ s ∈ l, ',' ∉ s.toList) (hplus : 1 < l.length → ∀ s ∈ l, '+' ∉ s.toList) :
    ∃ t ps, conformS l = .ok t ∧ IsQueryPieces l ps ∧ t.Perm ps ∧ t.Pairwise (· ≤ ·) := by
  have hc : ¬ l.any (hasChar ',') = true := by
    simp only [List.any_eq_true, hasChar_iff]; rintro ⟨s, hs, h⟩; exact hcomma s hs h
  have hp : ¬ (l.any (hasChar '+') && decide (1 < l.length)) = true := by
    simp only [Bool.and_eq_true, List.any_eq_true, hasChar_iff, decide_eq_true_eq]
    rintro ⟨⟨s, hs, h⟩, hl⟩; exact hplus hl s hs h
  rw [conformS_eq, if_neg hc, if_neg hp]
  refine ⟨_, _, rfl, ?_, pySorted_perm _, pySorted_pairwise _⟩
  constructor
  · rintro s rfl
    exact ⟨pySplit_ne_nil _ _, pySplit_no_sep _ _, pyJoin_pySplit _ _⟩
  · intro hl
    match l, hl with
    | [], _ => rfl
    | _ :: _ :: _, _ => rfl

/-- The denoted pieces are unique, so C01_canonical determines the result. -/
theorem C01_pieces_unique (l ps qs : List String) (hp : IsQueryPieces l ps) (hq : IsQueryPieces l qs) :
    ps = qs := by
  by_cases hl : l.length = 1
  · obtain ⟨s, rfl⟩ := List.length_eq_one_iff.mp hl
    obtain ⟨a1, a2, a3⟩ := hp.1 s rfl
    obtain ⟨b1, b2, b3⟩ := hq.1 s rfl
    rw [← pySplit_pyJoin '+' ps a1 a2, ← pySplit_pyJoin '+' qs b1 b2, a3, b3]
  · rw [hp.2 hl, hq.2 hl]

/-- C01: argument order is irrelevant. -/
theorem C01_order_args (l l' : List String) (h : l.Perm l') : conformS l = conformS l' := by
  rw [conformS_eq, conformS_eq]
  have h1 : l.any (hasChar ',') = l'.any (hasChar ',') := by
    rw [Bool.eq_iff_iff]; simp [List.any_eq_true, h.mem_iff]
  have h2 : l.any (hasChar '+') = l'.any (hasChar '+') := by
    rw [Bool.eq_iff_iff]; simp [List.any_eq_true, h.mem_iff]
  rw [h1, h2, h.length_eq]
  split
  · rfl
  · split
    · rfl
    · congr 1
      match l, l', h with
      | [], l', h => rw [List.nil_perm.mp h]
      | [s], l', h => rw [List.singleton_perm.mp h]
      | a :: b :: l, l', h =>
        match l', h.length_eq with
        | c :: d :: l', _ => exact pySorted_eq_of_perm h

/-- C01: the order inside one `+`-joined string is irrelevant. -/
theorem C01_order_plus (ps qs : List String) (h : ps.Perm qs) (hne : ps ≠ [])
    (hp : ∀ p ∈ ps, '+' ∉ p.toList) : conformS [pyJoin '+' ps] = conformS [pyJoin '+' qs] := by
  have hp' : ∀ p ∈ ps, hasChar '+' p = false := fun p hm => by simpa [hasChar] using hp p hm
  have hq' : ∀ p ∈ qs, hasChar '+' p = false := fun p hm => hp' p (h.mem_iff.mpr hm)
  have hqne : qs ≠ [] := by rintro rfl; exact hne (List.perm_nil.mp h)
  rw [conformS_eq, conformS_eq]
  have h1 : [pyJoin '+' ps].any (hasChar ',') = [pyJoin '+' qs].any (hasChar ',') := by
    rw [Bool.eq_iff_iff]
    simp only [List.any_cons, List.any_nil, Bool.or_false]
    rw [hasChar_pyJoin _ _ (by decide), hasChar_pyJoin _ _ (by decide)]
    simp [h.mem_iff]
  rw [h1]
  simp only [List.length_singleton, lt_irrefl, decide_false, Bool.and_false]
  rw [pySplit_pyJoin '+' ps hne hp', pySplit_pyJoin '+' qs hqne hq', pySorted_eq_of_perm h]

example : conformS ["p2", "a", "p1"] = .ok ["a", "p1", "p2"] := by decide +kernel
example : conformS ["p2+a+p1"] = .ok ["a", "p1", "p2"] := by decide +kernel
example : conformS ["p2+a", "p1"] = .error .valueError := by decide +kernel

/-- C02: only held species: the check passes with the canonical tuple. -/
theorem C02_available (ions : List String) (args : List PyVal) (t : List String)
    (h : conform args = .ok t) (ha : ∀ s ∈ t, s ∈ ions) : chkSpecies ions args = .ok t := by
  rw [chkSpecies_eq, h]
  simp only [Except.bind]
  rw [if_neg]; rintro ⟨s, hs, hn, _⟩; exact hn (ha s hs)

/-- C02: a non-empty unavailable name always raises ValueError. -/
theorem C02_unavailable (ions : List String) (args : List PyVal) (t : List String)
    (h : conform args = .ok t) (s : String) (hs : s ∈ t) (hn : s ∉ ions) (hne : s ≠ "") :
    chkSpecies ions args = .error .valueError := by
  rw [chkSpecies_eq, h]
  simp only [Except.bind]
  rw [if_pos ⟨s, hs, hn, hne⟩]

/-- C02: malformed arguments fail as in C01, whatever the plasma holds. -/
theorem C02_malformed (ions : List String) (args : List PyVal) (e : PyErr)
    (h : conform args = .error e) : chkSpecies ions args = .error e := by
  rw [chkSpecies_eq, h]; rfl

/-- C02, violated corner: the empty name is accepted although no plasma species is called "".  -/
theorem C02_empty_name_accepted (ions : List String) (s : String) (hs : s ∈ ions) (hp : '+' ∉ s.toList)
    (hc : ',' ∉ s.toList) (_hno : "" ∉ ions) :
    ∃ t, chkSpecies ions [.str (pyJoin '+' [s, ""])] = .ok t ∧ "" ∈ t := by
  have h : conform [.str (pyJoin '+' [s, ""])] = .ok (pySorted [s, ""]) := by
    have := conformS_eq [pyJoin '+' [s, ""]]
    simp only [] at this
    rw [pySplit_pyJoin '+' [s, ""] (by simp)
      (by
        intro p hpm
        simp only [List.mem_cons, List.not_mem_nil, or_false] at hpm
        rcases hpm with rfl | rfl
        · simpa [hasChar] using hp
        · decide)] at this
    have hcc : hasChar ',' (pyJoin '+' [s, ""]) = false := by
      rw [Bool.eq_false_iff, Ne, hasChar_pyJoin _ _ (by decide)]
      simp [hasChar, hc]
    rw [if_neg (by simp [hcc]), if_neg (by simp)] at this
    exact this
  refine ⟨pySorted [s, ""], ?_, by rw [mem_pySorted]; simp⟩
  rw [chkSpecies_eq, h]
  simp only [Except.bind]
  rw [if_neg]
  rintro ⟨x, hx, hn, hne⟩
  rw [mem_pySorted] at hx
  simp only [List.mem_cons, List.not_mem_nil, or_false] at hx
  rcases hx with rfl | rfl
  · exact hn hs
  · exact hne rfl

example : chkSpecies ["a", "p1"] [.str "p1+a"] = .ok ["a", "p1"] := by decide +kernel
example : chkSpecies ["a", "p1"] [.str "p1", .str "e"] = .error .valueError := by decide +kernel
example : chkSpecies ["a", "p1"] [.str "p1+"] = .ok ["", "p1"] := by decide +kernel

end SW
