import Verif.TexInfo
import Mathlib.Data.List.Nodup
import Mathlib.Tactic.Ring

/-!
# C57, C58, C106, C107: annotations of a fit
-/

namespace SW
namespace Tex

/-! ### C57: math mode is balanced -/

theorem dollars_append (a b : Str) : dollars (a ++ b) = dollars a + dollars b := by
  unfold dollars; exact List.count_append

theorem dollars_wrap (x : Str) : dollars ('$' :: x ++ ['$']) = dollars x + 2 := by
  unfold dollars; simp [List.count_append]

/-- C57: text without dollars is delimited, text with an even positive number is unchanged, an odd number is
rejected with ValueError. -/
theorem C57_escapes (x : Str) :
    (dollars x = 0 → addEscapes x = .ok ('$' :: x ++ ['$'])) ∧
    (dollars x ≠ 0 → dollars x % 2 = 0 → addEscapes x = .ok x) ∧
    (dollars x % 2 = 1 → addEscapes x = .error .valueError) ∧
    (∀ y, addEscapes x = .ok y → dollars y % 2 = 0 ∧ dollars y ≠ 0 ∧ addEscapes y = .ok y) := by
  have h1 : dollars x = 0 → addEscapes x = .ok ('$' :: x ++ ['$']) := by
    intro h
    unfold addEscapes
    rw [if_pos h]
    simp only [dollars_wrap, h]
    rfl
  have h2 : dollars x ≠ 0 → dollars x % 2 = 0 → addEscapes x = .ok x := by
    intro h he
    unfold addEscapes
    rw [if_neg h]
    simp [he]
  have h3 : dollars x % 2 = 1 → addEscapes x = .error .valueError := by
    intro h
    unfold addEscapes
    rw [if_neg (show ¬ dollars x = 0 by omega)]
    simp [h]
  refine ⟨h1, h2, h3, ?_⟩
  intro y hy
  by_cases h0 : dollars x = 0
  · rw [h1 h0] at hy
    have := Except.ok.inj hy
    have hd : dollars y = 2 := by rw [← this, dollars_wrap, h0]
    refine ⟨by omega, by omega, ?_⟩
    unfold addEscapes
    rw [if_neg (show ¬ dollars y = 0 by omega)]
    simp [hd]
  · by_cases he : dollars x % 2 = 0
    · have hx := h2 h0 he
      have hy' := hy
      rw [hx] at hy'
      have := Except.ok.inj hy'
      subst this
      exact ⟨he, h0, hx⟩
    · rw [h3 (by omega)] at hy
      cases hy

theorem dollars_replaceL (p : Char) (ps rep : Str) (hp : '$' ∉ p :: ps) (hr : '$' ∉ rep) (s : Str) :
    dollars (replaceL p ps rep s) = dollars s := by
  generalize hn : s.length = n
  induction n using Nat.strong_induction_on generalizing s with
  | _ n ih =>
    cases s with
    | nil => rw [replaceL]
    | cons c cs =>
      rw [replaceL]
      split
      · next hpre =>
        have hpre' := List.isPrefixOf_iff_prefix.mp hpre
        obtain ⟨t, ht⟩ := hpre'
        have hcs : cs = ps ++ t := by
          have := ht
          simp only [List.cons_append, List.cons.injEq] at this
          exact this.2.symm
        have hdrop : cs.drop ps.length = t := by rw [hcs]; simp
        rw [dollars_append, hdrop, ih t.length (by rw [← hn, hcs]; simp; omega) t rfl, ← ht, dollars_append]
        have e1 : dollars rep = 0 := List.count_eq_zero.mpr hr
        have e2 : dollars (p :: ps) = 0 := List.count_eq_zero.mpr hp
        omega
      · have := ih cs.length (by rw [← hn]; simp) cs rfl
        unfold dollars at this ⊢
        rw [List.count_cons, List.count_cons, this]

theorem dollars_joinNL (l : List Str) : dollars (joinNL l) = (l.map dollars).sum := by
  induction l with
  | nil => rfl
  | cons a l ih =>
    cases l with
    | nil => simp [joinNL]
    | cons b l =>
      have : dollars ('\n' :: joinNL (b :: l)) = dollars (joinNL (b :: l)) := by
        unfold dollars; rw [List.count_cons]; simp
      rw [joinNL, dollars_append, this, ih]
      simp

/-- C57: the parameter part of an annotation has exactly two dollars per non-empty line, whatever the lines are --
math mode is always balanced. -/
theorem C57_annotation_balanced (lines : List Str) :
    dollars (finishInfo lines) = 2 * (lines.filter (· ≠ [])).length := by
  unfold finishInfo
  simp only []
  rw [dollars_replaceL _ _ _ (by decide) (by decide), dollars_replaceL _ _ _ (by decide) (by decide), dollars_joinNL]
  induction lines with
  | nil => rfl
  | cons x l ih =>
    rw [List.map_cons, List.map_cons, List.sum_cons, ih]
    by_cases hx : x = []
    · subst hx; simp [dollars]
    · have e : dollars ("$ ".toList ++ x.filter (· ≠ '$') ++ " $".toList) = 2 := by
        rw [dollars_append, dollars_append]
        have : dollars (x.filter (· ≠ '$')) = 0 := by
          unfold dollars
          rw [List.count_eq_zero]
          intro h
          have := (List.mem_filter.mp h).2
          simp at this
        rw [this]; rfl
      simp only [hx, if_false, e, ne_eq, not_false_eq_true, decide_true, List.filter_cons_of_pos, List.length_cons]
      omega

/-- every entry has an even number of dollars -/
def AllEven (l : List Str) : Prop := ∀ x ∈ l, dollars x % 2 = 0

/-- what escaping makes of one entry -/
def escaped (x : Str) : Str := if dollars x = 0 then '$' :: x ++ ['$'] else x

theorem dollars_escaped_even (x : Str) (h : dollars x % 2 = 0) : dollars (escaped x) % 2 = 0 ∧ dollars (escaped x) ≠ 0 := by
  unfold escaped
  split
  · next h0 => rw [dollars_wrap]; omega
  · next h0 => exact ⟨h, h0⟩

theorem addEscapes_even (x : Str) (h : dollars x % 2 = 0) : addEscapes x = .ok (escaped x) := by
  unfold escaped
  split
  · next h0 => exact (C57_escapes x).1 h0
  · next h0 => exact (C57_escapes x).2.1 h0 h

theorem escapeAll_even (l : List Str) (h : AllEven l) : escapeAll l = (l.map escaped, .ok ()) := by
  induction l with
  | nil => rfl
  | cons x l ih =>
    rw [escapeAll, addEscapes_even x (h x (by simp))]
    simp only []
    rw [ih (fun y hy => h y (by simp [hy]))]
    rfl

theorem escapeAll_odd (l : List Str) (h : ¬ AllEven l) : (escapeAll l).2 = .error .valueError := by
  induction l with
  | nil => exact absurd (by intro x hx; simp at hx) h
  | cons x l ih =>
    rw [escapeAll]
    by_cases hx : dollars x % 2 = 0
    · rw [addEscapes_even x hx]
      simp only []
      apply ih
      intro hl
      apply h
      intro y hy
      rcases List.mem_cons.mp hy with rfl | hy
      · exact hx
      · exact hl y hy
    · rw [(C57_escapes x).2.2.1 (by omega)]

theorem sum_even (l : List Str) (h : AllEven l) : ((l.map escaped).map dollars).sum % 2 = 0 := by
  induction l with
  | nil => rfl
  | cons x l ih =>
    have h1 := (dollars_escaped_even x (h x (by simp))).1
    have h2 := ih (fun y hy => h y (by simp [hy]))
    simp only [List.map_cons, List.sum_cons]
    omega

/-- C57: a *list* of extra lines is accepted iff every line has an even number of dollars; the result is then the
old text, a newline, and the delimited lines joined by newlines (an empty list adds "$$"), so balance is kept. -/
theorem C57_additional_list (info : Str) (l : List Str) :
    (¬ AllEven l → (addInfo info (.list l)).1 = .error .valueError) ∧
    (AllEven l → ∃ t, (addInfo info (.list l)).1 = .ok (info ++ '\n' :: t) ∧ dollars t % 2 = 0 ∧
      (l ≠ [] → t = joinNL (l.map escaped))) := by
  constructor
  · intro h
    unfold addInfo
    simp only [escapeAll_odd l h]
  · intro h
    unfold addInfo
    simp only [escapeAll_even l h]
    have hs : dollars (joinNL (l.map escaped)) % 2 = 0 := by rw [dollars_joinNL]; exact sum_even l h
    rw [addEscapes_even _ hs]
    refine ⟨_, rfl, (dollars_escaped_even _ hs).1, ?_⟩
    intro hne
    unfold escaped
    rw [if_neg]
    rw [dollars_joinNL]
    match l, hne with
    | x :: l, _ =>
      have := (dollars_escaped_even x (h x (by simp))).2
      simp only [List.map_cons, List.sum_cons]
      unfold escaped at this
      omega

/-- C57 (violated part): an extra *string* is neither checked nor delimited: the dollars simply add up, so one odd
string unbalances the annotation. -/
theorem C57_string_unchecked (info s : Str) :
    addInfo info (.str s) = (.ok (info ++ '\n' :: s), none) ∧
    (dollars info % 2 = 0 → dollars s % 2 = 1 → dollars (info ++ '\n' :: s) % 2 = 1) := by
  refine ⟨rfl, ?_⟩
  intro h1 h2
  rw [dollars_append]
  have : dollars ('\n' :: s) = dollars s := by unfold dollars; rw [List.count_cons]; simp
  rw [this]
  omega

/-! ### C106: the caller's object -/

/-- C106 (violated): a list passed as additional info is overwritten with the delimited lines (so the caller's list
changes whenever an entry has no dollars), and any non-empty tuple is rejected although iterables are documented. -/
theorem C106_argument_mutated (info : Str) (l : List Str) :
    (AllEven l → (addInfo info (.list l)).2 = some (l.map escaped)) ∧
    (∀ x ∈ l, dollars x = 0 → escaped x ≠ x) ∧
    (l ≠ [] → ∃ e, (addInfo info (.tuple l)).1 = .error e) := by
  refine ⟨?_, ?_, ?_⟩
  · intro h
    unfold addInfo
    simp only [escapeAll_even l h]
    have hs : dollars (joinNL (l.map escaped)) % 2 = 0 := by rw [dollars_joinNL]; exact sum_even l h
    rw [addEscapes_even _ hs]
  · intro x _ h0 he
    unfold escaped at he
    rw [if_pos h0] at he
    have := congrArg List.length he
    simp at this
    omega
  · intro hne
    match l, hne with
    | x :: l, _ =>
      cases h : addEscapes x with
      | error e => exact ⟨e, by simp only [addInfo, h]⟩
      | ok y => exact ⟨.typeError, by simp only [addInfo, h]⟩

/-- C106 (violated): even a rejected list is changed: the entries before the first unbalanced one are already delimited. -/
theorem C106_partial_mutation (info : Str) (pre : List Str) (x : Str) (post : List Str) (hpre : AllEven pre)
    (hx : dollars x % 2 = 1) :
    addInfo info (.list (pre ++ x :: post)) = (.error .valueError, some (pre.map escaped ++ x :: post)) := by
  have h : escapeAll (pre ++ x :: post) = (pre.map escaped ++ x :: post, .error .valueError) := by
    induction pre with
    | nil =>
      simp only [List.nil_append, List.map_nil, escapeAll]
      rw [(C57_escapes x).2.2.1 hx]
    | cons a pre ih =>
      simp only [List.cons_append, List.map_cons, escapeAll]
      rw [addEscapes_even a (hpre a (by simp)), ih (fun y hy => hpre y (by simp [hy]))]
  unfold addInfo
  simp only [h]

/-- non-vacuity: a one-line list is mutated, the same tuple is rejected -/
example : (addInfo [] (.list ["a".toList])).2 = some ["$a$".toList] ∧
    (addInfo [] (.tuple ["a".toList])).1 = .error .typeError := by decide +kernel

/-! ### C58: parameters and the stored text -/

/-- C58: parameters are accepted iff every name in popt has an uncertainty; extra uncertainties are accepted. -/
theorem C58_popt {α : Type} (popt psigma : Dict α) :
    ((∀ k, popt.has k → psigma.has k) → setPopt popt psigma = .ok ⟨popt, psigma⟩) ∧
    (¬ (∀ k, popt.has k → psigma.has k) → setPopt popt psigma = .error .valueError) := by
  have e : popt.all (fun kv => decide (psigma.has kv.1)) = true ↔ ∀ k, popt.has k → psigma.has k := by
    simp only [List.all_eq_true, decide_eq_true_eq]
    constructor
    · intro h k hk
      obtain ⟨kv, hkv, rfl⟩ := List.mem_map.mp hk
      exact h kv hkv
    · intro h kv hkv
      exact h kv.1 (List.mem_map.mpr ⟨kv, hkv, rfl⟩)
  unfold setPopt
  constructor
  · intro h; rw [if_pos (e.mpr h)]
  · intro h; rw [if_neg (fun hh => h (e.mp hh))]

/-- the text after a history of build calls -/
def runBuilds (s : State) : List (List String × Except PyErr Str) → State
  | [] => s
  | c :: l => runBuilds (buildInfo c.1 c.2 s).1 l

/-- the calls that succeed: known keywords only and a text that could be assembled -/
def Succeeds (c : List String × Except PyErr Str) (t : Str) : Prop := (∀ k ∈ c.1, k ∈ buildKw) ∧ c.2 = .ok t

/-- C58: an unknown keyword raises ValueError and keeps the stored text; after any history of builds
`str(TeX_info)` is the text of the last successful one (and a default build if there was none). -/
theorem C58_history (s : State) (calls : List (List String × Except PyErr Str)) (dflt : Except PyErr Str) :
    (∀ kw body, (∃ k ∈ kw, k ∉ buildKw) → buildInfo kw body s = (s, .error .valueError)) ∧
    (∀ pre c post t, calls = pre ++ c :: post → Succeeds c t → (∀ c' ∈ post, ∀ t', ¬ Succeeds c' t') →
      (info dflt (runBuilds s calls)).2 = .ok t) ∧
    ((∀ c ∈ calls, ∀ t, ¬ Succeeds c t) → runBuilds s calls = s) ∧
    (info dflt none).2 = dflt := by
  have hfail : ∀ (c : List String × Except PyErr Str) (s : State), (∀ t, ¬ Succeeds c t) → (buildInfo c.1 c.2 s).1 = s := by
    intro c s h
    unfold buildInfo
    split
    · next hk =>
      cases hb : c.2 with
      | error e => rfl
      | ok t =>
        exfalso
        apply h t
        refine ⟨?_, hb⟩
        intro k hkk
        have := List.all_eq_true.mp hk k hkk
        simpa using this
    · rfl
  have hnone : ∀ (calls : List (List String × Except PyErr Str)) (s : State),
      (∀ c ∈ calls, ∀ t, ¬ Succeeds c t) → runBuilds s calls = s := by
    intro calls
    induction calls with
    | nil => intro s _; rfl
    | cons c l ih =>
      intro s h
      rw [runBuilds, hfail c s (h c (by simp))]
      exact ih s (fun c' hc' => h c' (by simp [hc']))
  refine ⟨?_, ?_, hnone calls s, ?_⟩
  · rintro kw body ⟨k, hk, hn⟩
    unfold buildInfo
    rw [if_neg]
    intro h
    have := List.all_eq_true.mp h k hk
    simp at this
    exact hn this
  · intro pre c post t hc hs hpost
    subst hc
    have hrun : ∀ (pre : List (List String × Except PyErr Str)) (s : State) l,
        runBuilds s (pre ++ l) = runBuilds (runBuilds s pre) l := by
      intro pre
      induction pre with
      | nil => intro s l; rfl
      | cons a pre ih => intro s l; rw [List.cons_append, runBuilds, runBuilds, ih]
    rw [hrun, runBuilds]
    have hb : (buildInfo c.1 c.2 (runBuilds s pre)).1 = some t := by
      unfold buildInfo
      rw [if_pos (List.all_eq_true.mpr (fun k hk => by simpa using hs.1 k hk)), hs.2]
    rw [hb, hnone post _ hpost]
    rfl
  · unfold info buildInfo
    simp only [List.all_nil, if_true]
    cases dflt <;> rfl

/-! ### C107: translation of parameter names -/

theorem find_of_nodup {α : Type} (d : Dict α) (hd : (d.map Prod.fst).Nodup) (k : String) (v : α) (h : (k, v) ∈ d) :
    d.find? (fun kv => kv.1 = k) = some (k, v) := by
  induction d with
  | nil => simp at h
  | cons a d ih =>
    simp only [List.map_cons, List.nodup_cons] at hd
    rcases List.mem_cons.mp h with h | h
    · rw [← h]; simp
    · have hne : a.1 ≠ k := by
        intro he
        exact hd.1 (List.mem_map.mpr ⟨(k, v), h, he.symm⟩)
      rw [List.find?_cons_of_neg (by simpa using hne)]
      exact ih hd.2 h

/-- C107: translating a name that is not a parameter raises KeyError. -/
theorem C107_missing {α : Type} (d : Dict α) (k0 k1 : String) (rest : List (String × String)) (h : k0 ∉ d.map Prod.fst) :
    translate d ((k0, k1) :: rest) = .error .keyError := by
  have : d.find? (fun kv => kv.1 = k0) = none := by
    rw [List.find?_eq_none]
    intro x hx he
    exact h (List.mem_map.mpr ⟨x, hx, by simpa using he⟩)
  simp only [translate, rename, this]

/-- C107: renaming one parameter to a fresh LaTeX name keeps every value: the entry reappears under the new name, the
others are untouched, and nothing is added. -/
theorem C107_rename {α : Type} (d : Dict α) (hd : (d.map Prod.fst).Nodup) (k0 k1 : String) (v : α) (h0 : (k0, v) ∈ d)
    (h1 : k1 ∉ d.map Prod.fst) :
    ∃ d', rename d k0 k1 = .ok d' ∧ (d'.map Prod.fst).Nodup ∧ d'.length = d.length ∧
      ∀ kv, kv ∈ d' ↔ (kv = (k1, v) ∨ (kv ∈ d ∧ kv.1 ≠ k0)) := by
  unfold rename
  rw [find_of_nodup d hd k0 v h0]
  simp only []
  have hk1 : k1 ∉ (d.filter (fun x => x.1 ≠ k0)).map Prod.fst := by
    intro h
    obtain ⟨x, hx, hx1⟩ := List.mem_map.mp h
    exact h1 (List.mem_map.mpr ⟨x, (List.mem_filter.mp hx).1, hx1⟩)
  rw [if_neg hk1]
  refine ⟨_, rfl, ?_, ?_, ?_⟩
  · rw [List.map_append, List.nodup_append]
    refine ⟨hd.sublist ((List.filter_sublist).map _), by simp, ?_⟩
    intro a ha b hb
    simp only [List.map_cons, List.map_nil, List.mem_singleton] at hb
    subst hb
    intro he
    exact hk1 (he ▸ ha)
  · have hlen : (d.filter (fun x => x.1 ≠ k0)).length + 1 = d.length := by
      clear hk1 h1
      induction d with
      | nil => simp at h0
      | cons a d ih =>
        simp only [List.map_cons, List.nodup_cons] at hd
        rcases List.mem_cons.mp h0 with h | h
        · subst h
          have : d.filter (fun x => x.1 ≠ k0) = d := by
            apply List.filter_eq_self.mpr
            intro x hx
            simp only [ne_eq, decide_not, Bool.not_eq_eq_eq_not, Bool.not_true, decide_eq_false_iff_not]
            intro he
            exact hd.1 (List.mem_map.mpr ⟨x, hx, he⟩)
          rw [List.filter_cons_of_neg (by simp), this]
          rfl
        · have hne : a.1 ≠ k0 := by
            intro he
            exact hd.1 (List.mem_map.mpr ⟨(k0, v), h, he.symm⟩)
          rw [List.filter_cons_of_pos (by simpa using hne)]
          have := ih hd.2 h
          simp only [List.length_cons]
          omega
    simp only [List.length_append, List.length_singleton]
    omega
  · intro kv
    simp only [List.mem_append, List.mem_filter, List.mem_singleton, ne_eq, decide_not, Bool.not_eq_eq_eq_not,
      Bool.not_true, decide_eq_false_iff_not]
    tauto

/-- what a list of renamings does to a name: the first matching one applies -/
def target (l : List (String × String)) (k : String) : String :=
  match l.find? (fun p => p.1 = k) with
  | some p => p.2
  | none => k

/-- C107: a whole translation with distinct source names, all present, and distinct fresh target names keeps every
parameter value under its translated name and loses none. -/
theorem C107_translate {α : Type} (l : List (String × String)) : ∀ (d : Dict α), (d.map Prod.fst).Nodup →
    (l.map Prod.fst).Nodup → (l.map Prod.snd).Nodup → (∀ p ∈ l, p.1 ∈ d.map Prod.fst) →
    (∀ p ∈ l, p.2 ∉ d.map Prod.fst) →
    ∃ d', translate d l = .ok d' ∧ d'.length = d.length ∧ ∀ k v, (k, v) ∈ d → (target l k, v) ∈ d' := by
  induction l with
  | nil =>
    intro d _ _ _ _ _
    exact ⟨d, rfl, rfl, fun k v h => h⟩
  | cons p l ih =>
    obtain ⟨k0, k1⟩ := p
    intro d hd hs ht hsrc htgt
    obtain ⟨⟨k0', v⟩, hkv, hk0⟩ := List.mem_map.mp (hsrc (k0, k1) (by simp))
    simp only [] at hk0
    subst hk0
    have hfresh : k1 ∉ d.map Prod.fst := htgt (k0', k1) (by simp)
    obtain ⟨d', hr, hnd, hlen, hmem⟩ := C107_rename d hd k0' k1 v hkv hfresh
    simp only [List.map_cons, List.nodup_cons] at hs ht
    have hkeys : ∀ x, x ∈ d'.map Prod.fst ↔ (x = k1 ∨ (x ∈ d.map Prod.fst ∧ x ≠ k0')) := by
      intro x
      constructor
      · intro hx
        obtain ⟨kv, hkv', rfl⟩ := List.mem_map.mp hx
        rcases (hmem kv).mp hkv' with h | ⟨h, hne⟩
        · left; rw [h]
        · right; exact ⟨List.mem_map.mpr ⟨kv, h, rfl⟩, hne⟩
      · rintro (rfl | ⟨h, hne⟩)
        · exact List.mem_map.mpr ⟨(x, v), (hmem _).mpr (Or.inl rfl), rfl⟩
        · obtain ⟨kv, hkv', rfl⟩ := List.mem_map.mp h
          exact List.mem_map.mpr ⟨kv, (hmem _).mpr (Or.inr ⟨hkv', hne⟩), rfl⟩
    obtain ⟨d'', ht', hlen', hmem'⟩ := ih d' hnd hs.2 ht.2
      (by
        intro p hp
        rw [hkeys]
        right
        refine ⟨hsrc p (by simp [hp]), ?_⟩
        intro he
        exact hs.1 (List.mem_map.mpr ⟨p, hp, he⟩))
      (by
        intro p hp
        rw [hkeys]
        rintro (he | ⟨h, _⟩)
        · exact ht.1 (List.mem_map.mpr ⟨p, hp, he⟩)
        · exact htgt p (by simp [hp]) h)
    refine ⟨d'', ?_, by rw [hlen', hlen], ?_⟩
    · rw [translate, hr]; exact ht'
    · intro k w hkw
      by_cases hk : k = k0'
      · subst hk
        have hw : w = v := by
          have e1 := find_of_nodup d hd k w hkw
          have e2 := find_of_nodup d hd k v hkv
          rw [e1] at e2
          have := Option.some.inj e2
          exact (Prod.mk.injEq _ _ _ _ ▸ this).2
        subst hw
        have h3 := hmem' k1 w ((hmem _).mpr (Or.inl rfl))
        have e1 : target ((k, k1) :: l) k = k1 := by simp [target]
        have e2 : target l k1 = k1 := by
          unfold target
          rw [List.find?_eq_none.mpr]
          intro p hp he
          simp only [decide_eq_true_eq] at he
          exact hfresh (he ▸ hsrc p (by simp [hp]))
        rw [e1]
        rw [e2] at h3
        exact h3
      · have h3 := hmem' k w ((hmem _).mpr (Or.inr ⟨hkw, hk⟩))
        have e1 : target ((k0', k1) :: l) k = target l k := by
          unfold target
          rw [List.find?_cons_of_neg (by simpa using fun h => hk h.symm)]
        rw [e1]
        exact h3

/-- C107 (violated): translating one name to another existing parameter's name silently drops that parameter. -/
theorem C107_collision {α : Type} (d : Dict α) (hd : (d.map Prod.fst).Nodup) (k0 k1 : String) (v w : α) (hne : k0 ≠ k1)
    (h0 : (k0, v) ∈ d) (h1 : (k1, w) ∈ d) :
    ∃ d', rename d k0 k1 = .ok d' ∧ d'.length + 1 = d.length ∧ (k1, v) ∈ d' ∧ ∀ u, (k1, u) ∈ d' → u = v := by
  unfold rename
  rw [find_of_nodup d hd k0 v h0]
  simp only []
  have hm : (k1, w) ∈ d.filter (fun x => x.1 ≠ k0) := List.mem_filter.mpr ⟨h1, by simpa using Ne.symm hne⟩
  rw [if_pos (List.mem_map.mpr ⟨_, hm, rfl⟩)]
  refine ⟨_, rfl, ?_, ?_, ?_⟩
  · rw [List.length_map]
    clear hm h1
    induction d with
    | nil => simp at h0
    | cons a d ih =>
      simp only [List.map_cons, List.nodup_cons] at hd
      rcases List.mem_cons.mp h0 with h | h
      · subst h
        have : d.filter (fun x => x.1 ≠ k0) = d := by
          apply List.filter_eq_self.mpr
          intro x hx
          simp only [ne_eq, decide_not, Bool.not_eq_eq_eq_not, Bool.not_true, decide_eq_false_iff_not]
          intro he
          exact hd.1 (List.mem_map.mpr ⟨x, hx, he⟩)
        rw [List.filter_cons_of_neg (by simp), this]
        rfl
      · have hne' : a.1 ≠ k0 := by
          intro he
          exact hd.1 (List.mem_map.mpr ⟨(k0, v), h, he.symm⟩)
        rw [List.filter_cons_of_pos (by simpa using hne')]
        have := ih hd.2 h
        simp only [List.length_cons]
        omega
  · exact List.mem_map.mpr ⟨(k1, w), hm, by simp⟩
  · intro u hu
    obtain ⟨x, hx, he⟩ := List.mem_map.mp hu
    by_cases hxk : x.1 = k1
    · rw [if_pos hxk] at he
      exact (Prod.mk.injEq _ _ _ _ ▸ he).2.symm
    · rw [if_neg hxk] at he
      rw [he] at hxk
      exact absurd rfl hxk

end Tex
end SW
