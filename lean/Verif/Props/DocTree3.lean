import Verif.Props.DocTree2

/-!
# Docstring analysers: the validator (C278) and concrete files
-/

namespace SW
namespace DocTree

open Scripts

/-! ### C278: the validator -/

theorem takeWhile_ws_append (w r : Txt) (hw : ∀ c ∈ w, isWs c = true) (hr : ∀ c, r.head? = some c → isWs c = false) :
    (w ++ r).takeWhile isWs = w ∧ (w ++ r).dropWhile isWs = r := by
  induction w with
  | nil =>
    cases r with
    | nil => exact ⟨rfl, rfl⟩
    | cons c r => simp [hr c rfl]
  | cons c w ih =>
    obtain ⟨h1, h2⟩ := ih (fun x hx => hw x (List.mem_cons_of_mem _ hx))
    simp [hw c (List.mem_cons_self), h1, h2]

/-- `\s*\n\s*-+\s*\n` at the start of a text -/
def Underlined (r : Txt) : Prop :=
  ∃ w1 w2 k w3 z, r = w1 ++ '\n' :: (w2 ++ (List.replicate (k + 1) '-' ++ (w3 ++ '\n' :: z))) ∧
    (∀ c ∈ w1, isWs c = true) ∧ (∀ c ∈ w2, isWs c = true) ∧ (∀ c ∈ w3, isWs c = true)

theorem dash_ws : isWs '-' = false := by decide
theorem nl_ws : isWs '\n' = true := by decide

theorem mem_split_ws (w : Txt) (h : '\n' ∈ w) : ∃ a b, w = a ++ '\n' :: b := List.append_of_mem h

theorem dashes_split (q : Txt) : ∃ k, q = List.replicate k '-' ++ q.dropWhile (· == '-') := by
  induction q with
  | nil => exact ⟨0, rfl⟩
  | cons c q ih =>
    by_cases h : c = '-'
    · obtain ⟨k, hk⟩ := ih
      refine ⟨k + 1, ?_⟩
      subst h
      rw [List.dropWhile_cons_of_pos (by rfl), List.replicate_succ, List.cons_append, ← hk]
    · refine ⟨0, ?_⟩
      rw [List.dropWhile_cons_of_neg (by simpa using h)]
      rfl

theorem underlined_iff (r : Txt) : underlined r = true ↔ Underlined r := by
  unfold underlined
  rw [Bool.and_eq_true, Bool.and_eq_true]
  constructor
  · rintro ⟨⟨h1, h2⟩, h3⟩
    have h1' : '\n' ∈ r.takeWhile isWs := by simpa using h1
    have h3' : '\n' ∈ ((r.dropWhile isWs).dropWhile (· == '-')).takeWhile isWs := by simpa using h3
    obtain ⟨a, b, hab⟩ := mem_split_ws _ h1'
    obtain ⟨c, d, hcd⟩ := mem_split_ws _ h3'
    obtain ⟨k, hk⟩ := dashes_split (r.dropWhile isWs)
    have hk0 : k ≠ 0 := by
      intro h0
      rw [h0] at hk
      have h2' : (r.dropWhile isWs).head? = some '-' := by simpa using h2
      cases hq : r.dropWhile isWs with
      | nil => rw [hq] at h2'; cases h2'
      | cons x y =>
        rw [hq] at h2' hk
        have hx : x = '-' := by simpa using h2'
        rw [hx, List.dropWhile_cons_of_pos (by rfl)] at hk
        have h4 : (List.dropWhile (fun c => c == '-') y).length ≤ y.length := (List.dropWhile_suffix _).length_le
        have := congrArg List.length hk
        simp at this
        omega
    obtain ⟨k, rfl⟩ := Nat.exists_eq_succ_of_ne_zero hk0
    obtain ⟨t, ht⟩ : ∃ t, t = (r.dropWhile isWs).dropWhile (· == '-') := ⟨_, rfl⟩
    rw [← ht] at hk hcd
    have e1 : r = r.takeWhile isWs ++ r.dropWhile isWs := (List.takeWhile_append_dropWhile).symm
    have e2 : t = t.takeWhile isWs ++ t.dropWhile isWs := (List.takeWhile_append_dropWhile).symm
    have hws : ∀ u : Txt, ∀ x ∈ u.takeWhile isWs, isWs x = true := by
      intro u
      induction u with
      | nil => simp
      | cons y u ih =>
        intro x hx
        rw [List.takeWhile_cons] at hx
        split at hx
        · rcases List.mem_cons.1 hx with rfl | hx
          · assumption
          · exact ih x hx
        · cases hx
    refine ⟨a, b, k, c, d ++ t.dropWhile isWs, ?_, ?_, ?_, ?_⟩
    · rw [e1, hab]
      conv_lhs => rw [hk]
      conv_lhs => rw [e2, hcd]
      simp
    · intro x hx; exact hws r x (by rw [hab]; simp [hx])
    · intro x hx; exact hws r x (by rw [hab]; simp [hx])
    · intro x hx; exact hws t x (by rw [hcd]; simp [hx])
  · rintro ⟨w1, w2, k, w3, z, rfl, h1, h2, h3⟩
    obtain ⟨t1, t2⟩ := takeWhile_ws_append (w1 ++ '\n' :: w2) (List.replicate (k + 1) '-' ++ (w3 ++ '\n' :: z))
      (by
        intro c hc
        rcases List.mem_append.1 hc with hc | hc
        · exact h1 c hc
        · rcases List.mem_cons.1 hc with rfl | hc
          · exact nl_ws
          · exact h2 c hc)
      (by intro c hc; simp [List.replicate_succ] at hc; rw [← hc]; exact dash_ws)
    have e : w1 ++ '\n' :: (w2 ++ (List.replicate (k + 1) '-' ++ (w3 ++ '\n' :: z))) = (w1 ++ '\n' :: w2) ++ (List.replicate (k + 1) '-' ++ (w3 ++ '\n' :: z)) := by
      simp
    rw [e, t1, t2]
    refine ⟨⟨by simp, by simp [List.replicate_succ]⟩, ?_⟩
    have hd : ∀ m : Nat, (List.replicate m '-' ++ (w3 ++ '\n' :: z)).dropWhile (· == '-') = w3 ++ '\n' :: z := by
      intro m
      induction m with
      | zero =>
        cases w3 with
        | nil => rfl
        | cons x w3 =>
          have hx := h3 x (List.mem_cons_self)
          have : x ≠ '-' := by rintro rfl; rw [dash_ws] at hx; cases hx
          simp [this]
      | succ m ih => rw [List.replicate_succ, List.cons_append, List.dropWhile_cons_of_pos (by rfl), ih]
    rw [hd]
    have : ∀ u : Txt, (∀ c ∈ u, isWs c = true) → '\n' ∈ (u ++ '\n' :: z).takeWhile isWs := by
      intro u
      induction u with
      | nil => intro _; simp [nl_ws]
      | cons x u ih =>
        intro h
        have := ih (fun c hc => h c (List.mem_cons_of_mem _ hc))
        simp [h x (List.mem_cons_self), this]
    simpa using this w3 h3

/-- C278: a docstring has a section exactly if the name of the section is followed, after blanks with a line break among them, by a line of dashes ended by a line break - no
matter what precedes the name. -/
theorem has_section_iff (d sec : Txt) : hasSection d sec = true ↔ ∃ a r, d = a ++ (sec ++ r) ∧ Underlined r := by
  unfold hasSection
  rw [List.any_eq_true]
  constructor
  · rintro ⟨t, ht, h⟩
    rw [Bool.and_eq_true, List.isPrefixOf_iff_prefix] at h
    rw [List.mem_tails] at ht
    obtain ⟨a, rfl⟩ := ht
    obtain ⟨⟨r, rfl⟩, h2⟩ := h
    refine ⟨a, r, rfl, ?_⟩
    rw [List.drop_left, underlined_iff] at h2
    exact h2
  · rintro ⟨a, r, rfl, h⟩
    refine ⟨sec ++ r, by rw [List.mem_tails]; exact ⟨a, rfl⟩, ?_⟩
    rw [Bool.and_eq_true, List.isPrefixOf_iff_prefix, List.drop_left, underlined_iff]
    exact ⟨⟨r, rfl⟩, h⟩

def vstep (o : Patterns) (s : Val) : Ev → Val
  | .opens n d l => { s with results := s.results ++ structureOf o d "class" n l, cur := some n }
  | .closes => { s with cur := none }
  | .defines n d l => valFn o n d l s

mutual
theorem val_fold (o : Patterns) : (n : Node) → ∀ s, val o n s = (events n).foldl (vstep o) s
  | .cls n d l b => by
    intro s
    rw [val, events, valAll_fold o b]
    simp [vstep]
  | .fn n d l p b => by
    intro s
    rw [val, events, valAll_fold o b]
    simp [vstep]
  | .other c => by
    intro s
    rw [val, events, valAll_fold o c]
theorem valAll_fold (o : Patterns) : (b : List Node) → ∀ s, valAll o b s = (eventsAll b).foldl (vstep o) s
  | [] => by intro s; rfl
  | n :: r => by
    intro s
    rw [valAll, eventsAll, val_fold o n, valAll_fold o r, List.foldl_append]
end

/-- the issues of a class or a function at its place -/
def issuesOf (o : Patterns) : Ev × Option Txt → List Issue
  | (.opens n d l, _) => structureOf o d "class" n l
  | (.closes, _) => []
  | (.defines n d l, c) =>
    if underscore n = true ∧ n ≠ initName then []
    else structureOf o d (if c.isSome then "method" else "function") (shownName c n) l

theorem val_eq (o : Patterns) (s0 : Val) (h0 : s0.cur = none) (evs : List Ev) :
    (evs.foldl (vstep o) s0).cur = attributed evs ∧
    (evs.foldl (vstep o) s0).results = s0.results ++ (placed evs).flatMap (issuesOf o) := by
  induction evs using List.reverseRecOn with
  | nil => simp [attributed, placed, h0]
  | append_singleton l e ih =>
    obtain ⟨i1, i2⟩ := ih
    rw [List.foldl_append, List.foldl_cons, List.foldl_nil, attributed_snoc, placed_snoc, List.flatMap_append]
    generalize l.foldl (vstep o) s0 = t at i1 i2
    cases e with
    | opens n d l' => exact ⟨rfl, by simp [vstep, i2, issuesOf]⟩
    | closes => exact ⟨rfl, by simp [vstep, i2, issuesOf]⟩
    | defines n d l' =>
      rw [← i1]
      by_cases h : underscore n = true ∧ n ≠ initName
      · have e : vstep o t (.defines n d l') = t := by
          show valFn o n d l' t = t
          unfold valFn
          exact if_pos (by simpa using h)
        rw [e]
        exact ⟨rfl, by simp [i2, issuesOf, h]⟩
      · have e : vstep o t (.defines n d l') = { t with results := t.results ++ structureOf o d (if t.cur.isSome then "method" else "function") (shownName t.cur n) l' } := by
          show valFn o n d l' t = _
          unfold valFn
          exact if_neg (by simpa using h)
        rw [e]
        refine ⟨rfl, ?_⟩
        simp only [i2, List.append_assoc, List.flatMap_cons, List.flatMap_nil, List.append_nil, issuesOf]
        rw [if_neg h]

/-- C278: the issues of a file, in the order of the file: those of its docstring, then those of each class and of each function whose name does not begin with an underscore
(`__init__` included), as a method of the class it is attributed to, else as a function. -/
theorem validate_eq (o : Patterns) (path : Txt) (f : File) :
    validateFile o path (some f) = structureOf o f.doc "module" path 1 ++ (placed (eventsAll f.body)).flatMap (issuesOf o) := by
  show (valAll o f.body _).results = _
  rw [valAll_fold]
  exact (val_eq o { results := structureOf o f.doc "module" path 1 } rfl _).2

theorem structure_kinds (o : Patterns) (d : Option Txt) (comp : String) (n : Txt) (l : Nat)
    (h : comp = "module" ∨ comp = "class" ∨ comp = "method" ∨ comp = "function") (i : Issue) (hi : i ∈ structureOf o d comp n l) :
    i.component = comp ∧ i.name = n ∧ i.line = l ∧ (i.fault = .missingDoc ∨ i.fault = .missingUnits ∨ i.fault = .missingLatex ∨ i.fault = .missingExamples) := by
  unfold structureOf at hi
  have hl : requiredSections.lookup comp = none := by
    rcases h with rfl | rfl | rfl | rfl <;> decide
  split at hi
  · simp at hi; subst hi; simp
  · rw [hl] at hi
    simp only [Option.getD_none, List.filter_nil, List.map_nil, List.nil_append] at hi
    unfold scientific at hi
    split at hi
    · simp at hi
    · simp only [List.mem_append] at hi
      rcases hi with (hi | hi) | hi <;> (split at hi <;> simp at hi <;> subst hi <;> simp)

theorem issuesOf_kinds (o : Patterns) (p : Ev × Option Txt) (i : Issue) (hi : i ∈ issuesOf o p) :
    i.fault = .missingDoc ∨ i.fault = .missingUnits ∨ i.fault = .missingLatex ∨ i.fault = .missingExamples := by
  obtain ⟨e, c⟩ := p
  cases e with
  | opens n d l => exact (structure_kinds o d "class" n l (by simp) i hi).2.2.2
  | closes => simp [issuesOf] at hi
  | defines n d l =>
    simp only [issuesOf] at hi
    split at hi
    · simp at hi
    · refine (structure_kinds o d _ _ l ?_ i hi).2.2.2
      cases c.isSome <;> simp

/-- C278 (finding): the required sections are listed under `functions`, `methods`, `classes`, `properties`, the components are called `function`, `method`, `class`, `module`:
a missing section is never reported, for any package. -/
theorem validate_no_section (o : Patterns) (files : List Source) (i : Issue) (hi : i ∈ validateAll o files) (s : Txt) : i.fault ≠ .missingSection s := by
  unfold validateAll at hi
  rw [List.mem_flatten] at hi
  obtain ⟨l, hl, hil⟩ := hi
  rw [List.mem_map] at hl
  obtain ⟨f, _, rfl⟩ := hl
  cases ht : f.tree with
  | none => rw [ht] at hil; simp [validateFile] at hil; subst hil; simp
  | some t =>
    rw [ht, validate_eq, List.mem_append, List.mem_flatMap] at hil
    have : i.fault = .missingDoc ∨ i.fault = .missingUnits ∨ i.fault = .missingLatex ∨ i.fault = .missingExamples := by
      rcases hil with h | ⟨p, _, h⟩
      · exact (structure_kinds o _ _ _ _ (by simp) i h).2.2.2
      · exact issuesOf_kinds o p i h
    rcases this with h | h | h | h <;> rw [h] <;> simp

theorem structure_missing (o : Patterns) (d : Option Txt) (comp : String) (n : Txt) (l : Nat) (h : hasDoc d = false) :
    structureOf o d comp n l = [⟨.missingDoc, comp, n, l⟩] := by
  unfold structureOf
  rcases d with _ | ⟨_ | ⟨c, t⟩⟩
  · rfl
  · rfl
  · simp [hasDoc] at h

theorem structure_short (o : Patterns) (d : Txt) (comp : String) (n : Txt) (l : Nat) (hd : d ≠ []) (hc : comp = "function" ∨ comp = "method") (hs : lineCount d < 5) :
    structureOf o (some d) comp n l = [] := by
  have hl : requiredSections.lookup comp = none := by
    rcases hc with rfl | rfl <;> decide
  cases d with
  | nil => exact absurd rfl hd
  | cons a r =>
    show (((requiredSections.lookup comp).getD []).filter _).map _ ++ scientific o (a :: r) comp n l = []
    rw [hl]
    unfold scientific
    rw [if_pos (by rcases hc with rfl | rfl <;> simp [hs])]
    rfl

/-- C278: without docstring, a component has one issue, that the docstring is missing.  With one, a function or a method has no issue if the docstring has fewer than five
lines, and a class has the issue of the missing examples exactly if there is no `Examples` section. -/
theorem validate_component (o : Patterns) (n : Txt) (l : Nat) :
    (∀ d comp, hasDoc d = false → structureOf o d comp n l = [⟨.missingDoc, comp, n, l⟩]) ∧
    (∀ d comp, d ≠ [] → comp = "function" ∨ comp = "method" → lineCount d < 5 → structureOf o (some d) comp n l = []) ∧
    (∀ d, d ≠ [] → ((⟨.missingExamples, "class", n, l⟩ : Issue) ∈ structureOf o (some d) "class" n l ↔ hasSection d "Examples".toList = false)) ∧
    (∀ d comp, d ≠ [] → comp = "function" ∨ comp = "method" → 5 ≤ lineCount d →
      ((⟨.missingExamples, comp, n, l⟩ : Issue) ∈ structureOf o (some d) comp n l ↔
        hasSection d "Examples".toList = false ∧ (15 < lineCount d ∨ o.manyParams d = true)) ∧
      ((⟨.missingUnits, comp, n, l⟩ : Issue) ∈ structureOf o (some d) comp n l ↔ likely physicsWords n d = true ∧ o.units d = false) ∧
      ((⟨.missingLatex, comp, n, l⟩ : Issue) ∈ structureOf o (some d) comp n l ↔ likely mathWords n d = true ∧ o.latex d = false)) := by
  have open_ : ∀ d comp, d ≠ [] → comp = "function" ∨ comp = "method" ∨ comp = "class" → structureOf o (some d) comp n l = scientific o d comp n l := by
    intro d comp hd hc
    have hl : requiredSections.lookup comp = none := by
      rcases hc with rfl | rfl | rfl <;> decide
    cases d with
    | nil => exact absurd rfl hd
    | cons a r =>
      show (((requiredSections.lookup comp).getD []).filter _).map _ ++ scientific o (a :: r) comp n l = _
      rw [hl]; rfl
  refine ⟨fun d comp h => structure_missing o d comp n l h, fun d comp hd hc hs => structure_short o d comp n l hd hc hs, ?_, ?_⟩
  · intro d hd
    rw [open_ d "class" hd (by simp)]
    unfold scientific
    rw [if_neg (by simp)]
    simp only [List.mem_append]
    constructor
    · rintro ((h | h) | h)
      · split at h <;> simp at h
      · split at h <;> simp at h
      · split at h
        · rename_i hh; simp [needsExamples] at hh; exact hh
        · simp at h
    · intro h
      right
      rw [if_pos (by rw [h]; simp [needsExamples])]
      simp
  · intro d comp hd hc hlines
    have hcls : (comp == "class") = false := by rcases hc with rfl | rfl <;> decide
    rw [open_ d comp hd (by rcases hc with rfl | rfl <;> simp)]
    unfold scientific
    rw [if_neg (by simp; intro _; omega)]
    simp only [List.mem_append]
    refine ⟨⟨?_, ?_⟩, ⟨?_, ?_⟩, ⟨?_, ?_⟩⟩
    · rintro ((h | h) | h)
      · split at h <;> simp at h
      · split at h <;> simp at h
      · split at h
        · rename_i hh
          rw [Bool.and_eq_true, needsExamples, hcls] at hh
          simp at hh
          exact ⟨hh.2, hh.1.symm⟩
        · simp at h
    · rintro ⟨h, h'⟩
      right
      rw [if_pos (by rw [h]; rcases h' with h' | h' <;> simp [needsExamples, h'])]
      simp
    · rintro ((h | h) | h)
      · split at h
        · rename_i hh; simpa using hh
        · simp at h
      · split at h <;> simp at h
      · split at h <;> simp at h
    · rintro h
      left; left
      rw [if_pos (by simp [h])]
      simp
    · rintro ((h | h) | h)
      · split at h <;> simp at h
      · split at h
        · rename_i hh; simpa using hh
        · simp at h
      · split at h <;> simp at h
    · rintro h
      left; right
      rw [if_pos (by simp [h])]
      simp

/-- C278: a file without issues parses, has a docstring, every class in it has a docstring with an `Examples` section, and every function whose name does not begin with an
underscore, and every `__init__`, has a docstring.  A file that does not parse has exactly one issue. -/
theorem validate_clean (o : Patterns) (path : Txt) (t : Option File) :
    (t = none → validateFile o path t = [⟨.parseError, "file", path, 0⟩]) ∧
    (validateFile o path t = [] → ∃ f, t = some f ∧ hasDoc f.doc = true ∧
      (∀ n d l, Ev.opens n d l ∈ eventsAll f.body → hasDoc d = true ∧ hasSection (d.getD []) "Examples".toList = true) ∧
      (∀ n d l, Ev.defines n d l ∈ eventsAll f.body → underscore n = false ∨ n = initName → hasDoc d = true)) := by
  refine ⟨by rintro rfl; rfl, ?_⟩
  intro h
  cases t with
  | none => simp [validateFile] at h
  | some f =>
    rw [validate_eq, List.append_eq_nil_iff] at h
    obtain ⟨h1, h2⟩ := h
    rw [List.flatMap_eq_nil_iff] at h2
    have mem1 : ∀ e ∈ eventsAll f.body, ∃ c, (e, c) ∈ placed (eventsAll f.body) := by
      intro e he
      obtain ⟨a, b, hab⟩ := List.append_of_mem he
      rw [hab]
      exact ⟨_, placed_mid a b e⟩
    refine ⟨f, rfl, ?_, ?_, ?_⟩
    · by_contra hn
      rw [structure_missing o _ _ _ _ (by simpa using hn)] at h1
      simp at h1
    · intro n d l he
      obtain ⟨c, hc⟩ := mem1 _ he
      have h3 : structureOf o d "class" n l = [] := h2 _ hc
      have hd : hasDoc d = true := by
        by_contra hn
        rw [structure_missing o _ _ _ _ (by simpa using hn)] at h3
        simp at h3
      refine ⟨hd, ?_⟩
      rcases d with _ | ⟨_ | ⟨a, r⟩⟩
      · simp [hasDoc] at hd
      · simp [hasDoc] at hd
      · by_contra hn
        have := ((validate_component o n l).2.2.1 (a :: r) (by simp)).2 (by simpa using hn)
        rw [h3] at this
        simp at this
    · intro n d l he hu
      obtain ⟨c, hc⟩ := mem1 _ he
      have h3 : issuesOf o (.defines n d l, c) = [] := h2 _ hc
      simp only [issuesOf] at h3
      rw [if_neg (by rintro ⟨a, b⟩; rcases hu with hu | hu; · rw [hu] at a; cases a
                     · exact b hu)] at h3
      by_contra hn
      rw [structure_missing o _ _ _ _ (by simpa using hn)] at h3
      simp at h3

/-! ### Concrete files -/

def doc1 : Option Txt := some "A docstring.".toList

/-- a class with an inner class and a method after it, a private function and a public one -/
def demo : File :=
  ⟨doc1, [.cls "C".toList doc1 1 [.fn "__init__".toList doc1 2 false [], .cls "D".toList doc1 4 [.fn "_g".toList none 5 false []], .fn "h".toList none 7 true []],
    .other [.fn "_private".toList none 9 false []], .fn "public".toList doc1 11 false [.fn "inner".toList none 12 false []]]⟩

example : (analyze "demo.py".toList demo).stats.methods = 2 ∧ (analyze "demo.py".toList demo).stats.functions = 4 ∧
    (analyze "demo.py".toList demo).missing.map (fun m => (m.type, String.ofList m.name)) = [("function", "h"), ("function", "inner")] := by decide +kernel
example : itemCount demo = 9 ∧ documentedCount demo = 5 ∧ (placed (eventsAll demo.body)).countP unlisted = 2 := by decide +kernel
/-- the inner class and what follows it are out of line with `coverage_methods_lexical`; the rest of the file is not -/
example : ShallowAll [.cls "C".toList doc1 1 [.fn "f".toList none 2 false []], .fn "public".toList doc1 11 false []] := by
  refine ⟨?_, ⟨?_, ?_⟩⟩
  · show List.all _ _ = true; decide +kernel
  · trivial
  · trivial
example : (baseAll demo.body {}).functions = 6 ∧ (baseAll demo.body {}).methods = 3 ∧ (baseAll demo.body {}).issues.length = 6 := by decide +kernel
example : (baseline [⟨"latest_x.py".toList, "p".toList, some demo⟩]).1.functions = 0 := by decide +kernel
example : hasSection "A class.\n\nExamples\n--------\n>>> C()".toList "Examples".toList = true := by decide +kernel
example : (report [⟨"test_x.py".toList, "a".toList, some demo⟩, ⟨"x.py".toList, "b".toList, some demo⟩, ⟨"y.py".toList, "c".toList, none⟩]).entries.length = 1 := by
  decide +kernel
example : validateFile ⟨fun _ => true, fun _ => true, fun _ => false⟩ "m.py".toList
    (some ⟨some "The temperature.".toList, [.fn "f".toList doc1 1 false [], .fn "_g".toList none 3 false []]⟩) = [] := by decide +kernel

/-! ### the words of C275 to C278 in plain terms -/

theorem split_length (sep : Char) (d : Txt) : (Chars.split sep d).length = d.count sep + 1 := by
  induction d with
  | nil => rfl
  | cons c d ih =>
    unfold Chars.split
    by_cases h : c = sep
    · rw [if_pos h, List.length_cons, ih, h, List.count_cons_self]
    · rw [if_neg h, List.count_cons_of_ne h]
      cases e : Chars.split sep d with
      | nil => rw [e] at ih; simp at ih
      | cons p ps => rw [e] at ih; simpa using ih

/-- lines are what Python's split at line feeds returns, private names start with an underscore, and the keywords are these, in the lower-case name
and docstring -/
theorem validate_words (n d : Txt) :
    lineCount d = (Chars.split '\n' d).length ∧ (underscore n = true ↔ n.head? = some '_') ∧
    (likely physicsWords n d = true ↔ ∃ w ∈ ["temperature", "velocity", "magnetic", "plasma", "thermal", "energy", "pressure", "density", "speed", "mass",
      "charge"], String.toList w <:+: (n ++ ' ' :: d).map Char.toLower) ∧
    (likely mathWords n d = true ↔ ∃ w ∈ ["calculate", "compute", "sqrt", "log", "exp", "integrate", "derivative", "equation", "formula", "algorithm"],
      String.toList w <:+: (n ++ ' ' :: d).map Char.toLower) := by
  have hm : ∀ l : List String, ∀ t : Txt, (l.map String.toList).any (mentions t) = true ↔ ∃ k ∈ l, String.toList k <:+: t := by
    intro l t
    rw [List.any_eq_true]
    constructor
    · rintro ⟨k, hk, h⟩
      obtain ⟨w, hw, rfl⟩ := List.mem_map.mp hk
      exact ⟨w, hw, (splitFirst_isSome _ _).mp h⟩
    · rintro ⟨w, hw, h⟩
      exact ⟨_, List.mem_map_of_mem hw, (splitFirst_isSome _ _).mpr h⟩
  refine ⟨(split_length _ _).symm, ?_, hm _ _, hm _ _⟩
  cases n with
  | nil => simp [underscore]
  | cons c n =>
    by_cases h : c = '_'
    · subst h; simp [underscore]
    · simp [underscore, h]

/-- the shares of the baseline are the percentages of the documented among the counted functions, classes, methods and all of them -/
theorem baseline_shares_exact (files : List Source) (r : Shares) (h : (baseline files).2 = .ok r) :
    let T := (baseline files).1
    r.functions * T.functions = 100 * T.docFunctions ∧ r.classes * T.classes = 100 * T.docClasses ∧ r.methods * T.methods = 100 * T.docMethods ∧
    r.overall * (T.functions + T.classes + T.methods) = 100 * (T.docFunctions + T.docClasses + T.docMethods) := by
  intro T
  have hb2 : (baseline files).2 = T.shares := rfl
  rw [hb2] at h
  generalize T = T at h ⊢
  unfold Base.shares at h
  split at h
  · cases h
  · rename_i hz
    push Not at hz
    injection h with h
    subst h
    have f0 : (T.functions : ℚ) ≠ 0 := by exact_mod_cast hz.1
    have c0 : (T.classes : ℚ) ≠ 0 := by exact_mod_cast hz.2.1
    have m0 : (T.methods : ℚ) ≠ 0 := by exact_mod_cast hz.2.2
    have s0 : ((T.functions + T.classes + T.methods : Nat) : ℚ) ≠ 0 := by
      have : T.functions + T.classes + T.methods ≠ 0 := by omega
      exact_mod_cast this
    refine ⟨?_, ?_, ?_, ?_⟩
    · simp only []; field_simp
    · simp only []; field_simp
    · simp only []; field_simp
    · simp only []
      push_cast at s0 ⊢
      field_simp

end DocTree
end SW
