import Verif.Props.Scripts

/-!
# Release scripts: requirements, recipe, feedstock, pull request references, comparison, readiness (C90, C146–C151)
-/

namespace SW.Scripts

/-! ### strings -/

/-- Specification: white space only. -/
def AllWs (s : List Char) : Prop := ∀ c ∈ s, isWs c = true

/-- Specification: neither starts nor ends with white space. -/
def Trimmed (s : List Char) : Prop := (∀ c, s.head? = some c → isWs c = false) ∧ (∀ c, s.getLast? = some c → isWs c = false)

theorem dropWhile_ws (w s : List Char) (hw : AllWs w) : (w ++ s).dropWhile isWs = s.dropWhile isWs := by
  induction w with
  | nil => rfl
  | cons c w ih =>
    have := hw c (by simp)
    simp [this, ih (fun x hx => hw x (by simp [hx]))]

theorem dropWhile_head (s : List Char) (h : ∀ c, s.head? = some c → isWs c = false) : s.dropWhile isWs = s := by
  cases s with
  | nil => rfl
  | cons c s => simp [h c rfl]

theorem strip_pad (w1 s w2 : List Char) (h1 : AllWs w1) (h2 : AllWs w2) (hs : Trimmed s) : stripWs (w1 ++ s ++ w2) = s := by
  unfold stripWs
  rw [List.append_assoc, dropWhile_ws _ _ h1]
  cases s with
  | nil =>
    rw [List.nil_append]
    have := dropWhile_ws w2 [] h2
    rw [List.append_nil] at this
    rw [this]; rfl
  | cons c s =>
    rw [dropWhile_head (c :: s ++ w2) (fun d hd => hs.1 d (by simpa using hd))]
    rw [List.reverse_append, dropWhile_ws _ _ (fun x hx => h2 x (by simpa using hx))]
    rw [dropWhile_head _ (fun d hd => hs.2 d (by rw [List.head?_reverse] at hd; exact hd)), List.reverse_reverse]

theorem strip_trimmed (s : List Char) (hs : Trimmed s) : stripWs s = s := by
  have := strip_pad [] s [] (by simp [AllWs]) (by simp [AllWs]) hs
  simpa using this

theorem strip_ws (s : List Char) (hs : AllWs s) : stripWs s = [] := by
  have := strip_pad s [] [] hs (by simp [AllWs]) (by simp [Trimmed])
  simpa using this

theorem takeWhile_ws (s : List Char) : AllWs (s.takeWhile isWs) := by
  intro c hc
  induction s with
  | nil => simp at hc
  | cons d s ih =>
    by_cases hd : isWs d = true
    · rw [List.takeWhile_cons_of_pos hd] at hc
      rcases List.mem_cons.mp hc with rfl | hc
      · exact hd
      · exact ih hc
    · rw [List.takeWhile_cons_of_neg hd] at hc; simp at hc

/-- Every text is white space, its stripped form, and white space. -/
theorem strip_decomp (s : List Char) : ∃ w1 w2, AllWs w1 ∧ AllWs w2 ∧ s = w1 ++ stripWs s ++ w2 ∧ Trimmed (stripWs s) := by
  refine ⟨s.takeWhile isWs, ((s.dropWhile isWs).reverse.takeWhile isWs).reverse, takeWhile_ws s, ?_, ?_, ?_⟩
  · intro c hc
    exact takeWhile_ws _ c (by simpa using hc)
  · unfold stripWs
    rw [List.append_assoc, ← List.reverse_append, List.takeWhile_append_dropWhile, List.reverse_reverse, List.takeWhile_append_dropWhile]
  · have hhead : ∀ (l : List Char) (c : Char), (l.dropWhile isWs).head? = some c → isWs c = false := by
      intro l
      induction l with
      | nil => intro c h; simp at h
      | cons d l ih =>
        intro c h
        by_cases hd : isWs d = true
        · rw [List.dropWhile_cons_of_pos hd] at h; exact ih c h
        · rw [List.dropWhile_cons_of_neg hd] at h
          simp only [List.head?_cons, Option.some.injEq] at h
          subst h; simpa using hd
    constructor
    · intro c hc
      unfold stripWs at hc
      rw [List.head?_reverse] at hc
      -- the last element of a suffix of the reversed list is the last element of that list, or the suffix is empty
      have hsuf : ((s.dropWhile isWs).reverse.dropWhile isWs) <:+ (s.dropWhile isWs).reverse := List.dropWhile_suffix _
      obtain ⟨t, ht⟩ := hsuf
      have hne : ((s.dropWhile isWs).reverse.dropWhile isWs) ≠ [] := by
        intro h0; rw [h0] at hc; simp at hc
      have : (s.dropWhile isWs).reverse.getLast? = some c := by
        rw [← ht, List.getLast?_append, hc]; rfl
      rw [List.getLast?_reverse] at this
      exact hhead s c this
    · intro c hc
      unfold stripWs at hc
      rw [List.getLast?_reverse] at hc
      exact hhead _ c hc

theorem splitFirst_skip (a : Char) (op pre s : List Char) (h : a ∉ pre) :
    splitFirst (a :: op) (pre ++ s) = (splitFirst (a :: op) s).map (fun p => (pre ++ p.1, p.2)) := by
  induction pre with
  | nil => rw [List.nil_append]; rcases splitFirst (a :: op) s with _ | ⟨p, q⟩ <;> rfl
  | cons c pre ih =>
    have hc : ¬ a = c := fun hh => h (by simp [hh])
    have := ih (fun hh => h (by simp [hh]))
    simp only [List.cons_append, splitFirst, List.isPrefixOf_cons_cons, beq_eq_false_iff_ne.mpr hc, Bool.false_and]
    rw [this]
    cases splitFirst (a :: op) s <;> simp

theorem splitFirst_none (a : Char) (op s : List Char) (h : a ∉ s) : splitFirst (a :: op) s = none := by
  have := splitFirst_skip a op s [] h
  rw [List.append_nil] at this
  rw [this]; simp [splitFirst]

theorem splitFirst_here (op s : List Char) : splitFirst op (op ++ s) = some ([], s) := by
  cases op with
  | nil => cases s <;> simp [splitFirst]
  | cons a op =>
    have : List.isPrefixOf (a :: op) (a :: (op ++ s)) = true := by
      rw [List.isPrefixOf_iff_prefix]; exact ⟨s, rfl⟩
    simp [splitFirst, this]

theorem splitFirst_at (a : Char) (op pre s : List Char) (h : a ∉ pre) : splitFirst (a :: op) (pre ++ (a :: op ++ s)) = some (pre, s) := by
  rw [splitFirst_skip a op pre _ h, splitFirst_here]; simp

theorem splitFirst_none_iff (op s : List Char) : splitFirst op s = none ↔ ¬ op <:+: s := by
  induction s with
  | nil =>
    cases op with
    | nil => simp [splitFirst]
    | cons a op => simp [splitFirst]
  | cons c cs ih =>
    unfold splitFirst
    by_cases h : op.isPrefixOf (c :: cs) = true
    · rw [if_pos h]
      rw [List.isPrefixOf_iff_prefix] at h
      simp [h.isInfix]
    · rw [if_neg h, Option.map_eq_none_iff, ih, List.infix_cons_iff]
      rw [List.isPrefixOf_iff_prefix] at h
      simp [h]

theorem splitFirst_some {op s p q : List Char} (h : splitFirst op s = some (p, q)) : s = p ++ op ++ q := by
  induction s generalizing p q with
  | nil =>
    unfold splitFirst at h
    split at h
    · rename_i h0; simp only [Option.some.injEq, Prod.mk.injEq] at h; simp [← h.1, ← h.2, h0]
    · simp at h
  | cons c cs ih =>
    unfold splitFirst at h
    by_cases hp : op.isPrefixOf (c :: cs) = true
    · rw [if_pos hp] at h
      simp only [Option.some.injEq, Prod.mk.injEq] at h
      rw [List.isPrefixOf_iff_prefix] at hp
      obtain ⟨t, ht⟩ := hp
      rw [← h.1, ← h.2, ← ht]; simp
    · rw [if_neg hp] at h
      rcases hs : splitFirst op cs with _ | ⟨p', q'⟩
      · rw [hs] at h; simp at h
      · rw [hs] at h
        simp only [Option.map_some, Option.some.injEq, Prod.mk.injEq] at h
        have := ih hs
        rw [← h.1, ← h.2, this]; simp

/-! ### C90: translating a requirement -/

/-- Specification: the characters operators are made of. -/
def opChars : List Char := ['<', '>', '=', '!', '~']

/-- Specification: a text without operator characters and without white space around it. -/
def Plain (s : List Char) : Prop := (∀ c ∈ opChars, c ∉ s) ∧ Trimmed s

theorem translateGo_cons (s : List Char) (op : String) (ops : List String) : translateGo s (op :: ops) =
    match splitFirst op.toList s with
    | some (p, v) => translated op (stripWs p) (stripWs v)
    | none => translateGo s ops := rfl

theorem translateGo_skip (s : List Char) (op : String) (ops : List String) (h : splitFirst op.toList s = none) :
    translateGo s (op :: ops) = translateGo s ops := by rw [translateGo_cons, h]

theorem translateGo_hit (s : List Char) (op : String) (ops : List String) (p v : List Char) (h : splitFirst op.toList s = some (p, v)) :
    translateGo s (op :: ops) = translated op (stripWs p) (stripWs v) := by rw [translateGo_cons, h]

theorem ws_no_op {w : List Char} (hw : AllWs w) : ∀ c ∈ opChars, c ∉ w := by
  intro c hc hm
  have := hw c hm
  simp only [opChars, List.mem_cons, List.not_mem_nil, or_false] at hc
  rcases hc with rfl | rfl | rfl | rfl | rfl <;> exact absurd this (by decide +kernel)

/-- the operators of the script never see a match earlier than the one written, in a requirement with one operator -/
theorem translate_one (pre post : List Char) (hpre : ∀ c ∈ opChars, c ∉ pre) (hpost : ∀ c ∈ opChars, c ∉ post) (op : String)
    (hop : op ∈ operators) : translate (pre ++ op.toList ++ post) = translated op (stripWs pre) (stripWs post) := by
  have e1 : ">=".toList = ['>', '='] := rfl
  have e2 : "<=".toList = ['<', '='] := rfl
  have e3 : "==".toList = ['=', '='] := rfl
  have e4 : "!=".toList = ['!', '='] := rfl
  have e5 : ">".toList = ['>'] := rfl
  have e6 : "<".toList = ['<'] := rfl
  have e7 : "~=".toList = ['~', '='] := rfl
  have a1 : '<' ∉ pre := hpre _ (by decide)
  have a2 : '>' ∉ pre := hpre _ (by decide)
  have a3 : '=' ∉ pre := hpre _ (by decide)
  have a4 : '!' ∉ pre := hpre _ (by decide)
  have a5 : '~' ∉ pre := hpre _ (by decide)
  have b1 : '<' ∉ post := hpost _ (by decide)
  have b2 : '>' ∉ post := hpost _ (by decide)
  have b3 : '=' ∉ post := hpost _ (by decide)
  have b4 : '!' ∉ post := hpost _ (by decide)
  have b5 : '~' ∉ post := hpost _ (by decide)
  -- a single `=` in the operator is not matched by `==`
  have single : ∀ x : Char, x ≠ '=' → splitFirst ['=', '='] (pre ++ (x :: '=' :: post)) = none := by
    intro x hx
    rw [splitFirst_skip _ _ _ _ a3]
    have h0 : splitFirst ['=', '='] post = none := splitFirst_none _ _ _ b3
    have h1 : ¬ List.isPrefixOf ['=', '='] ('=' :: post) = true := by
      cases post with
      | nil => simp
      | cons d post => simp only [List.isPrefixOf_cons_cons]; intro hh; simp at hh; exact b3 (by simp [← hh])
    have h2 : ¬ List.isPrefixOf ['=', '='] (x :: '=' :: post) = true := by
      simp only [List.isPrefixOf_cons_cons]; intro hh; simp at hh; exact hx hh.symm
    rw [splitFirst, if_neg h2, splitFirst, if_neg h1, h0]; rfl
  have noEq : ∀ x : Char, x ≠ '=' → ∀ t, splitFirst ['=', '='] (pre ++ (x :: post)) = t → t = none := by
    intro x hx t ht
    rw [← ht]
    exact splitFirst_none _ _ _ (by simp [a3, b3, Ne.symm hx])
  unfold translate operators
  simp only [operators, List.mem_cons, List.not_mem_nil, or_false] at hop
  rcases hop with rfl | rfl | rfl | rfl | rfl | rfl | rfl
  · apply translateGo_hit
    rw [e1, List.append_assoc]; exact splitFirst_at _ _ _ _ a2
  · rw [translateGo_skip]
    · apply translateGo_hit
      rw [e2, List.append_assoc]; exact splitFirst_at _ _ _ _ a1
    · rw [e1]; exact splitFirst_none _ _ _ (by simp [e2, a2, b2])
  · rw [translateGo_skip, translateGo_skip]
    · apply translateGo_hit
      rw [e3, List.append_assoc]; exact splitFirst_at _ _ _ _ a3
    · rw [e2]; exact splitFirst_none _ _ _ (by simp [e3, a1, b1])
    · rw [e1]; exact splitFirst_none _ _ _ (by simp [e3, a2, b2])
  · rw [translateGo_skip, translateGo_skip, translateGo_skip]
    · apply translateGo_hit
      rw [e4, List.append_assoc]; exact splitFirst_at _ _ _ _ a4
    · rw [e3, e4, List.append_assoc]; exact single '!' (by decide)
    · rw [e2]; exact splitFirst_none _ _ _ (by simp [e4, a1, b1])
    · rw [e1]; exact splitFirst_none _ _ _ (by simp [e4, a2, b2])
  · have hge : splitFirst ['>', '='] (pre ++ ('>' :: post)) = none := by
      rw [splitFirst_skip _ _ _ _ a2]
      have h1 : ¬ List.isPrefixOf ['>', '='] ('>' :: post) = true := by
        cases post with
        | nil => simp
        | cons d post => simp only [List.isPrefixOf_cons_cons]; intro hh; simp at hh; exact b3 (by simp [← hh])
      rw [splitFirst, if_neg h1, splitFirst_none _ _ _ b2]; rfl
    rw [translateGo_skip, translateGo_skip, translateGo_skip, translateGo_skip]
    · apply translateGo_hit
      rw [e5, List.append_assoc]; exact splitFirst_at _ _ _ _ a2
    · rw [e4]; exact splitFirst_none _ _ _ (by simp [e5, a4, b4])
    · rw [e3]; exact splitFirst_none _ _ _ (by simp [e5, a3, b3])
    · rw [e2]; exact splitFirst_none _ _ _ (by simp [e5, a1, b1])
    · rw [e1, e5, List.append_assoc]; exact hge
  · have hle : splitFirst ['<', '='] (pre ++ ('<' :: post)) = none := by
      rw [splitFirst_skip _ _ _ _ a1]
      have h1 : ¬ List.isPrefixOf ['<', '='] ('<' :: post) = true := by
        cases post with
        | nil => simp
        | cons d post => simp only [List.isPrefixOf_cons_cons]; intro hh; simp at hh; exact b3 (by simp [← hh])
      rw [splitFirst, if_neg h1, splitFirst_none _ _ _ b1]; rfl
    rw [translateGo_skip, translateGo_skip, translateGo_skip, translateGo_skip, translateGo_skip]
    · apply translateGo_hit
      rw [e6, List.append_assoc]; exact splitFirst_at _ _ _ _ a1
    · rw [e5]; exact splitFirst_none _ _ _ (by simp [e6, a2, b2])
    · rw [e4]; exact splitFirst_none _ _ _ (by simp [e6, a4, b4])
    · rw [e3]; exact splitFirst_none _ _ _ (by simp [e6, a3, b3])
    · rw [e2, e6, List.append_assoc]; exact hle
    · rw [e1]; exact splitFirst_none _ _ _ (by simp [e6, a2, b2])
  · rw [translateGo_skip, translateGo_skip, translateGo_skip, translateGo_skip, translateGo_skip, translateGo_skip]
    · apply translateGo_hit
      rw [e7, List.append_assoc]; exact splitFirst_at _ _ _ _ a5
    · rw [e6]; exact splitFirst_none _ _ _ (by simp [e7, a1, b1])
    · rw [e5]; exact splitFirst_none _ _ _ (by simp [e7, a2, b2])
    · rw [e4]; exact splitFirst_none _ _ _ (by simp [e7, a4, b4])
    · rw [e3, e7, List.append_assoc]; exact single '~' (by decide)
    · rw [e2]; exact splitFirst_none _ _ _ (by simp [e7, a1, b1])
    · rw [e1]; exact splitFirst_none _ _ _ (by simp [e7, a2, b2])

theorem translate_bare (s : List Char) (h : ∀ c ∈ opChars, c ∉ s) : translate s = condaName (stripWs s) := by
  have a1 : '<' ∉ s := h _ (by decide)
  have a2 : '>' ∉ s := h _ (by decide)
  have a3 : '=' ∉ s := h _ (by decide)
  have a4 : '!' ∉ s := h _ (by decide)
  have a5 : '~' ∉ s := h _ (by decide)
  unfold translate operators
  rw [translateGo_skip s ">=" _ (splitFirst_none '>' ['='] _ a2), translateGo_skip s "<=" _ (splitFirst_none '<' ['='] _ a1),
    translateGo_skip s "==" _ (splitFirst_none '=' ['='] _ a3), translateGo_skip s "!=" _ (splitFirst_none '!' ['='] _ a4),
    translateGo_skip s ">" _ (splitFirst_none '>' [] _ a2), translateGo_skip s "<" _ (splitFirst_none '<' [] _ a1),
    translateGo_skip s "~=" _ (splitFirst_none '~' ['='] _ a5)]
  rfl

/-- Specification: the conda spelling of a package name. -/
def CondaSpelling (pip conda : List Char) : Prop :=
  (String.ofList pip, String.ofList conda) ∈ condaNames ∨ ((∀ c, (String.ofList pip, c) ∉ condaNames) ∧ conda = pip)

theorem lookup_iff (k c : String) : condaNames.lookup k = some c ↔ (k, c) ∈ condaNames := by
  simp only [condaNames, List.lookup, List.mem_cons, Prod.mk.injEq, List.not_mem_nil, or_false]
  by_cases h1 : k = "tables"
  · subst h1; simp [eq_comm]
  by_cases h2 : k = "blosc2"
  · subst h2; simp [eq_comm]
  by_cases h3 : k = "msgpack"
  · subst h3; simp [eq_comm]
  by_cases h4 : k = "mypy-extensions"
  · subst h4; simp [eq_comm]
  by_cases h5 : k = "restructuredtext-lint"
  · subst h5; simp [eq_comm]
  · simp [h1, h2, h3, h4, h5, beq_eq_false_iff_ne.mpr h1, beq_eq_false_iff_ne.mpr h2, beq_eq_false_iff_ne.mpr h3,
      beq_eq_false_iff_ne.mpr h4, beq_eq_false_iff_ne.mpr h5]

theorem condaName_spec (p q : List Char) : condaName p = q ↔ CondaSpelling p q := by
  unfold condaName CondaSpelling
  rcases h : condaNames.lookup (String.ofList p) with _ | c
  · have hno : ∀ c, (String.ofList p, c) ∉ condaNames := by
      intro c hc
      rw [← lookup_iff, h] at hc; simp at hc
    simp only [Option.getD_none, String.toList_ofList]
    constructor
    · intro hh; exact Or.inr ⟨hno, hh.symm⟩
    · rintro (hh | ⟨_, hh⟩)
      · exact absurd hh (hno _)
      · exact hh.symm
  · rw [lookup_iff] at h
    simp only [Option.getD_some]
    constructor
    · intro hh; left; rw [← hh, String.ofList_toList]; exact h
    · rintro (hh | ⟨hh, _⟩)
      · rw [← lookup_iff] at h hh
        rw [h] at hh
        simp only [Option.some.injEq] at hh
        rw [hh, String.toList_ofList]
      · exact absurd h (hh c)

/-- C90: a requirement with one constraint, `name op version` with any spacing, becomes the conda name with the same constraint; an `==` pin
and any constraint on `tzdata` are dropped; a bare name becomes the conda name. -/
theorem C90_translate (name ver w0 w1 w2 w3 conda : List Char) (hname : Plain name) (hver : Plain ver)
    (h0 : AllWs w0) (h1 : AllWs w1) (h2 : AllWs w2) (h3 : AllWs w3) (hc : CondaSpelling name conda) :
    (∀ op ∈ [">=", "<=", "!=", ">", "<", "~="], name ≠ "tzdata".toList →
      translate (w0 ++ name ++ w1 ++ op.toList ++ (w2 ++ ver ++ w3)) = conda ++ op.toList ++ ver) ∧
    translate (w0 ++ name ++ w1 ++ "==".toList ++ (w2 ++ ver ++ w3)) = conda ∧
    (∀ op ∈ operators, name = "tzdata".toList →
      translate (w0 ++ name ++ w1 ++ op.toList ++ (w2 ++ ver ++ w3)) = "tzdata".toList) ∧
    translate (w0 ++ name ++ w1) = conda := by
  have hp : ∀ c ∈ opChars, c ∉ w0 ++ name ++ w1 := by
    intro c hc
    simp only [List.mem_append, not_or]
    exact ⟨⟨ws_no_op h0 c hc, hname.1 c hc⟩, ws_no_op h1 c hc⟩
  have hq : ∀ c ∈ opChars, c ∉ w2 ++ ver ++ w3 := by
    intro c hc
    simp only [List.mem_append, not_or]
    exact ⟨⟨ws_no_op h2 c hc, hver.1 c hc⟩, ws_no_op h3 c hc⟩
  have hs : stripWs (w0 ++ name ++ w1) = name := strip_pad _ _ _ h0 h1 hname.2
  have hs' : stripWs (w2 ++ ver ++ w3) = ver := strip_pad _ _ _ h2 h3 hver.2
  have hcn : condaName name = conda := (condaName_spec _ _).mpr hc
  have hone := fun op hop => translate_one (w0 ++ name ++ w1) (w2 ++ ver ++ w3) hp hq op hop
  refine ⟨?_, ?_, ?_, ?_⟩
  · intro op hop htz
    have hop' : op ∈ operators := by
      simp only [List.mem_cons, List.not_mem_nil, or_false] at hop
      rcases hop with rfl | rfl | rfl | rfl | rfl | rfl <;> decide
    have hne : op ≠ "==" := by
      simp only [List.mem_cons, List.not_mem_nil, or_false] at hop
      rcases hop with rfl | rfl | rfl | rfl | rfl | rfl <;> decide
    have hni : String.ofList name ∉ incompatible := by
      simp only [incompatible, List.mem_cons, List.not_mem_nil, or_false]
      intro hh; apply htz; rw [← hh, String.toList_ofList]
    rw [hone op hop', hs, hs', translated, if_neg hni, if_neg hne, hcn]
  · rw [hone "==" (by decide), hs, hs', translated]
    split
    · exact hcn
    · rw [if_pos rfl, hcn]
  · intro op hop htz
    rw [hone op hop, hs, hs', translated, htz]
    rw [if_pos (by simp [incompatible])]
    decide +kernel
  · rw [translate_bare _ hp, hs, hcn]

example : translate "tables >= 3.9".toList = "pytables>=3.9".toList := by decide +kernel
example : translate "tzdata==2025.3".toList = "tzdata".toList := by decide +kernel
example : Plain "mypy-extensions".toList ∧ CondaSpelling "mypy-extensions".toList "mypy_extensions".toList := by
  refine ⟨⟨by decide +kernel, ?_, ?_⟩, Or.inl (by decide +kernel)⟩
  · intro c hc
    obtain rfl : c = 'm' := by
      have : "mypy-extensions".toList.head? = some 'm' := by decide +kernel
      rw [this] at hc; simpa using hc.symm
    decide +kernel
  · intro c hc
    obtain rfl : c = 's' := by
      have : "mypy-extensions".toList.getLast? = some 's' := by decide +kernel
      rw [this] at hc; simpa using hc.symm
    decide +kernel

theorem condaName_with_op (p : List Char) (c : Char) (hc : c ∈ opChars) (hp : c ∈ p) : condaName p = p := by
  rw [condaName_spec]
  right
  refine ⟨?_, rfl⟩
  intro q hq
  have hk : ∀ k ∈ condaNames, ∀ c ∈ opChars, c ∉ k.1.toList := by decide +kernel
  have := hk _ hq c hc
  rw [String.toList_ofList] at this
  exact this hp

/-- C90 (violated): with a second constraint or an environment marker that contains `>=`, the split happens there: the pin stays, and the
package keeps its pip name, so `tables` is never translated. -/
theorem C90_marker (name ver mid v : List Char) (op : String) (hop : op ∈ operators) (hn : '>' ∉ name) (hv : '>' ∉ ver)
    (hgt : '>' ∉ op.toList) (hm : '>' ∉ mid)
    (ht : Trimmed (name ++ op.toList ++ ver ++ mid)) (hv' : Trimmed v) :
    translate (name ++ op.toList ++ ver ++ mid ++ ">=".toList ++ v) = name ++ op.toList ++ ver ++ mid ++ ">=".toList ++ v := by
  obtain ⟨p, hp⟩ : ∃ p, p = name ++ op.toList ++ ver ++ mid := ⟨_, rfl⟩
  rw [← hp]
  rw [← hp] at ht
  have hgtp : '>' ∉ p := by rw [hp]; simp [hn, hv, hm, hgt]
  have hmem : ∃ c ∈ opChars, c ∈ p := by
    simp only [operators, List.mem_cons, List.not_mem_nil, or_false] at hop
    rcases hop with rfl | rfl | rfl | rfl | rfl | rfl | rfl
    · exact absurd (by decide +kernel) hgt
    · exact ⟨'<', by decide, by rw [hp]; simp⟩
    · exact ⟨'=', by decide, by rw [hp]; simp⟩
    · exact ⟨'!', by decide, by rw [hp]; simp⟩
    · exact absurd (by decide +kernel) hgt
    · exact ⟨'<', by decide, by rw [hp]; simp⟩
    · exact ⟨'~', by decide, by rw [hp]; simp⟩
  obtain ⟨c, hc, hcp⟩ := hmem
  have hsp : splitFirst ">=".toList (p ++ ">=".toList ++ v) = some (p, v) := by
    rw [List.append_assoc]
    exact splitFirst_at '>' ['='] p v hgtp
  unfold translate operators
  rw [translateGo_hit _ _ _ p v hsp, strip_trimmed p ht, strip_trimmed v hv', translated, if_neg, if_neg (by decide),
    condaName_with_op p c hc hcp]
  simp only [incompatible, List.mem_cons, List.not_mem_nil, or_false]
  intro hh
  have : p = "tzdata".toList := by rw [← hh, String.toList_ofList]
  rw [this] at hcp
  have hno : ∀ c ∈ opChars, c ∉ "tzdata".toList := by decide +kernel
  exact hno c hc hcp

example : translate "tables==3.9.2 ; python_version >= '3.8'".toList = "tables==3.9.2 ; python_version>='3.8'".toList := by decide +kernel
example : translate "tables<4,>=3.9".toList = "tables<4,>=3.9".toList := by decide +kernel

/-! ### C146: the environment file -/

/-- C146: an existing file is refused unless `--overwrite` is given; otherwise the dependencies are those of the lines one by one in file
order, where blank lines and comment lines give none, and a pinned line, however indented, gives exactly its conda name. -/
theorem C146_environment (a b : List (List Char)) (ex ov : Bool) :
    (generateEnv a true false = .error .other) ∧
    (ex = false ∨ ov = true → ∃ la lb, generateEnv a ex ov = .ok la ∧ generateEnv b ex ov = .ok lb ∧ generateEnv (a ++ b) ex ov = .ok (la ++ lb)) ∧
    (∀ w, AllWs w → generateEnv [w] false ov = .ok []) ∧
    (∀ w rest, AllWs w → generateEnv [w ++ '#' :: rest] false ov = .ok []) ∧
    (∀ w name ver rest conda, AllWs w → Plain name → name ≠ [] → name.head? ≠ some '#' → CondaSpelling name conda → Plain ver → AllWs rest →
      ver ≠ [] → generateEnv [w ++ name ++ "==".toList ++ ver ++ rest] false ov = .ok [conda]) := by
  refine ⟨rfl, ?_, ?_, ?_, ?_⟩
  · intro h
    have : (ex && !ov) = false := by rcases h with rfl | rfl <;> simp
    refine ⟨_, _, by rw [generateEnv, this]; rfl, by rw [generateEnv, this]; rfl, ?_⟩
    rw [generateEnv, this]
    simp
  · intro w hw
    simp [generateEnv, strip_ws w hw]
  · intro w rest hw
    obtain ⟨w1, w2, h1, h2, h3, h4⟩ := strip_decomp (w ++ '#' :: rest)
    have hhead : (stripWs (w ++ '#' :: rest)).head? = some '#' := by
      unfold stripWs
      rw [dropWhile_ws _ _ hw, List.dropWhile_cons_of_neg (by decide +kernel)]
      rw [List.head?_reverse]
      have : ((('#' :: rest).reverse.dropWhile isWs) ++ []).getLast? = some '#' := by
        rw [List.append_nil, List.reverse_cons, List.dropWhile_append]
        split
        · rw [List.dropWhile_cons_of_neg (by decide +kernel)]; rfl
        · simp
      simpa using this
    simp [generateEnv, hhead]
  · intro w name ver rest conda hw hname hne hhash hc hver hrest hvne
    have hline : stripWs (w ++ name ++ "==".toList ++ ver ++ rest) = name ++ "==".toList ++ ver := by
      have : w ++ name ++ "==".toList ++ ver ++ rest = w ++ (name ++ "==".toList ++ ver) ++ rest := by simp
      rw [this]
      apply strip_pad _ _ _ hw hrest
      constructor
      · intro c hc
        apply hname.2.1 c
        cases name with
        | nil => exact absurd rfl hne
        | cons d name => simpa using hc
      · intro c hc
        apply hver.2.2 c
        rw [List.getLast?_append] at hc
        rcases hl : ver.getLast? with _ | d
        · rw [List.getLast?_eq_none_iff] at hl; exact absurd hl hvne
        · rw [hl] at hc; simpa using hc
    have hhead : (name ++ "==".toList ++ ver).head? = name.head? := by
      cases name with
      | nil => exact absurd rfl hne
      | cons d name => rfl
    have hnn : (name ++ "==".toList ++ ver).isEmpty = false := by
      cases name <;> simp
    have ht := (C90_translate name ver [] [] [] [] conda hname hver (by simp [AllWs]) (by simp [AllWs]) (by simp [AllWs]) (by simp [AllWs]) hc).2.1
    simp only [List.nil_append, List.append_nil] at ht
    simp only [generateEnv, List.map_cons, List.map_nil, hline, Bool.false_and]
    rw [if_neg (by simp), List.filter_cons, if_pos (by rw [hnn, hhead]; simp [hhash]), List.filter_nil, List.map_cons, List.map_nil, ht]

/-- C146 (violated): option lines of the lock file (`-r other.txt`, `--hash=…` continuation lines) are written as packages. -/
theorem C146_options (rest : List Char) (ht : Trimmed ('-' :: rest)) (h : ∀ c ∈ opChars, c ∉ rest) (ov : Bool)
    (hdash : ∀ c, (String.ofList ('-' :: rest), c) ∉ condaNames) :
    generateEnv ['-' :: rest] false ov = .ok ['-' :: rest] := by
  have h1 : translate ('-' :: rest) = '-' :: rest := by
    rw [translate_bare, strip_trimmed _ ht]
    · exact (condaName_spec _ _).mpr (Or.inr ⟨hdash, rfl⟩)
    · intro c hc
      simp only [List.mem_cons, not_or]
      refine ⟨?_, h c hc⟩
      rintro rfl
      exact absurd hc (by decide)
  simp [generateEnv, strip_trimmed _ ht, h1]

example : generateEnv ["-r base.txt".toList, "numpy==1.26.4".toList, "    # via pandas".toList, "tables==3.9".toList] false false =
    .ok ["-r base.txt".toList, "numpy".toList, "pytables".toList] := by decide +kernel

end SW.Scripts
