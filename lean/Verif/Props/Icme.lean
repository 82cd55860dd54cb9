import Verif.Icme
import Mathlib.Data.List.Sort
import Mathlib.Tactic.Linarith

/-!
# C69-C72, C121-C123: the ICME catalogue
-/

namespace SW
namespace Icme

/-! ### C69 -/

/-- an event with measured end covers the time `t` -/
def Covers (e : Event) (t : Int) : Prop := ∃ a b, e.start = some a ∧ e.moEnd = some b ∧ a ≤ t ∧ t ≤ b

theorem natLe_trans {a b c : Option Int} (h1 : natLe a b) (h2 : natLe b c) : natLe a c := by
  cases a <;> cases b <;> cases c <;> simp_all [natLe]
  omega

theorem mem_take_search {s : List (Option Int × Option Int)} (hs : s.Pairwise (fun a b => natLe a.1 b.1)) (t : Option Int)
    (e : Option Int) :
    (e ∈ (s.map Prod.snd).take (searchRight (s.map Prod.fst) t)) ↔ ∃ p ∈ s, p.2 = e ∧ natLe p.1 t := by
  induction s with
  | nil => simp
  | cons p s ih =>
    have ih := ih (List.pairwise_cons.mp hs).2
    have hp := (List.pairwise_cons.mp hs).1
    unfold searchRight at *
    by_cases h : natLe p.1 t
    · rw [List.map_cons, List.map_cons, List.takeWhile_cons_of_pos (by simpa using h), List.length_cons, List.take_succ_cons,
        List.mem_cons, ih]
      constructor
      · rintro (rfl | ⟨q, hq, h1, h2⟩)
        · exact ⟨p, by simp, rfl, h⟩
        · exact ⟨q, by simp [hq], h1, h2⟩
      · rintro ⟨q, hq, h1, h2⟩
        rcases List.mem_cons.mp hq with rfl | hq
        · left; exact h1.symm
        · right; exact ⟨q, hq, h1, h2⟩
    · rw [List.map_cons, List.map_cons, List.takeWhile_cons_of_neg (by simpa using h)]
      simp only [List.length_nil, List.take_zero, List.not_mem_nil, false_iff]
      rintro ⟨q, hq, _, h2⟩
      rcases List.mem_cons.mp hq with rfl | hq
      · exact h h2
      · exact h (natLe_trans (hp q hq) h2)

theorem containsOne_iff {s : List (Option Int × Option Int)} (hs : s.Pairwise (fun a b => natLe a.1 b.1)) (t : Option Int) :
    containsOne s t = true ↔ ∃ p ∈ s, natLe p.1 t ∧ leOpt t p.2 = true := by
  unfold containsOne
  simp only [Bool.and_eq_true, decide_eq_true_eq, List.any_eq_true]
  constructor
  · rintro ⟨_, e, he, hle⟩
    obtain ⟨p, hp, rfl, h⟩ := (mem_take_search hs t e).mp he
    exact ⟨p, hp, h, hle⟩
  · rintro ⟨p, hp, h, hle⟩
    have he := (mem_take_search hs t p.2).mpr ⟨p, hp, rfl, h⟩
    refine ⟨?_, p.2, he, hle⟩
    by_contra h0
    have : searchRight (s.map Prod.fst) t = 0 := by omega
    rw [this] at he
    simp at he

/-- C69: whatever the order, overlaps or ties of the events and whatever order `argsort` picks for ties, `contains` answers for
each time (in place) whether some event with a measured end covers it; a missing time is never contained. -/
theorem C69_contains (A : Argsort) (cat : List Event) (times : List (Option Int)) :
    (contains A cat times).length = times.length ∧
    (∀ (i : Nat) (t : Int), times[i]? = some (some t) →
      ∃ b, (contains A cat times)[i]? = some b ∧ (b = true ↔ ∃ e ∈ cat, Covers e t)) ∧
    (∀ i : Nat, times[i]? = some none → (contains A cat times)[i]? = some false) := by
  classical
  have key : contains A cat times = times.map (fun t => decide (∃ e ∈ cat, ∃ t', t = some t' ∧ Covers e t')) := by
    unfold contains
    by_cases h0 : times.length = 0
    · rw [if_pos h0, List.length_eq_zero_iff.mp h0]; rfl
    rw [if_neg h0]
    have hstr : ∀ e t', e ∈ cat → Covers e t' → e ∈ strict cat := by
      rintro e t' he ⟨a, b, _, hb, _⟩
      exact List.mem_filter.mpr ⟨he, by simp [hb]⟩
    by_cases h1 : cat.length = 0
    · rw [if_pos h1]
      have : cat = [] := List.length_eq_zero_iff.mp h1
      subst this
      simp
    rw [if_neg h1]
    by_cases h2 : (strict cat).length = 0
    · rw [if_pos h2]
      have hs : strict cat = [] := List.length_eq_zero_iff.mp h2
      apply List.map_congr_left
      intro t _
      symm
      rw [decide_eq_false_iff_not]
      rintro ⟨e, he, t', _, hc⟩
      have := hstr e t' he hc
      rw [hs] at this; simp at this
    rw [if_neg h2]
    apply List.map_congr_left
    intro t _
    rw [Bool.eq_iff_iff, containsOne_iff (A.sorted _), decide_eq_true_iff]
    constructor
    · rintro ⟨p, hp, h3, h4⟩
      have hp' := (A.perm _).mem_iff.mp hp
      obtain ⟨e, he, rfl⟩ := List.mem_map.mp hp'
      have he' := (List.mem_filter.mp he).1
      cases ht : t with
      | none => rw [ht] at h4; simp [leOpt] at h4
      | some t' =>
        rw [ht] at h3 h4
        cases hs : e.start with
        | none => simp [hs, natLe] at h3
        | some a =>
          cases hb : e.moEnd with
          | none => simp [hb, leOpt] at h4
          | some b =>
            simp only [hs, natLe] at h3
            simp only [hb, leOpt, decide_eq_true_eq] at h4
            exact ⟨e, he', t', rfl, a, b, hs, hb, h3, h4⟩
    · rintro ⟨e, he, t', rfl, hc⟩
      have hes := hstr e t' he hc
      obtain ⟨a, b, ha, hb, h3, h4⟩ := hc
      refine ⟨(e.start, e.moEnd), (A.perm _).mem_iff.mpr (List.mem_map.mpr ⟨e, hes, rfl⟩), ?_, ?_⟩
      · simpa [ha, natLe] using h3
      · simpa [hb, leOpt] using h4
  rw [key]
  refine ⟨by simp, ?_, ?_⟩
  · intro i t h
    refine ⟨_, by rw [List.getElem?_map, h]; rfl, ?_⟩
    rw [decide_eq_true_iff]
    constructor
    · rintro ⟨e, he, t', ht, hc⟩
      obtain rfl := Option.some.inj ht
      exact ⟨e, he, hc⟩
    · rintro ⟨e, he, hc⟩; exact ⟨e, he, t, rfl, hc⟩
  · intro i h
    rw [List.getElem?_map, h]
    simp

/-- such a sort exists: insertion sort -/
def insArgsort : Argsort where
  sort l := l.insertionSort (fun a b => natLe a.1 b.1)
  perm l := List.perm_insertionSort _ _
  sorted l := by
    have : Std.Total (fun (a b : Option Int × Option Int) => natLe a.1 b.1) := ⟨by
      rintro ⟨a, _⟩ ⟨b, _⟩
      cases a <;> cases b <;> simp only [natLe, true_or, or_true]
      omega⟩
    have : IsTrans (Option Int × Option Int) (fun a b => natLe a.1 b.1) := ⟨fun a b c h1 h2 => natLe_trans h1 h2⟩
    exact List.pairwise_insertionSort _ l

/-- non-vacuity: two overlapping events in reverse order, one without end -/
example : contains insArgsort
    [⟨"b", some "Wind", some 50, none, some 60⟩, ⟨"c", some "Wind", some 5, none, none⟩, ⟨"a", some "Wind", some 10, none, some 100⟩]
    [some 5, some 10, some 61, some 100, none, some 101] = [false, true, true, true, false, false] := by
  decide +kernel

/-! ### C70 -/

/-- C70: the end of an event is the measured end, else 24 h after the start of the magnetic obstacle, else 24 h after the start of
the event; it is missing only if all three times are. -/
theorem C70_interval_end (e : Event) :
    (∀ b, e.moEnd = some b → intervalEnd e = some b) ∧
    (e.moEnd = none → ∀ m, e.moStart = some m → intervalEnd e = some (m + 86400)) ∧
    (e.moEnd = none → e.moStart = none → ∀ a, e.start = some a → intervalEnd e = some (a + 86400)) ∧
    (intervalEnd e = none ↔ e.moEnd = none ∧ e.moStart = none ∧ e.start = none) := by
  obtain ⟨id, c, s, m, b⟩ := e
  cases s <;> cases m <;> cases b <;> simp [intervalEnd, day24]

/-- C70: a range query returns, in catalogue order, exactly the events that start by its end and end at or after its start. -/
theorem C70_range (cat : List Event) (q0 q1 : Int) :
    (eventsInRange cat (some q0) (some q1)).Sublist cat ∧
    ∀ e, e ∈ eventsInRange cat (some q0) (some q1) ↔
      e ∈ cat ∧ ∃ a b, e.start = some a ∧ intervalEnd e = some b ∧ a ≤ q1 ∧ q0 ≤ b := by
  refine ⟨List.filter_sublist, ?_⟩
  intro e
  unfold eventsInRange
  rw [List.mem_filter]
  refine and_congr_right (fun _ => ?_)
  cases hs : e.start <;> cases hb : intervalEnd e <;> simp [leOpt]

/-! ### C121: the two queries -/

/-- C121: a time contained in an event is found by the range query of that instant; the converse (violated) fails exactly for
events whose end is not measured: these are returned by the range query but never by `contains`. -/
theorem C121_queries (A : Argsort) (cat : List Event) (t : Int) :
    (contains A cat [some t] = [true] → eventsInRange cat (some t) (some t) ≠ []) ∧
    (contains A cat [some t] = [true] ↔ ∃ e ∈ eventsInRange cat (some t) (some t), e.moEnd.isSome) ∧
    (∀ e a, e ∈ cat → e.start = some a → e.moEnd = none → e.moStart = none → a ≤ t → t ≤ a + 86400 →
      e ∈ eventsInRange cat (some t) (some t) ∧ ((∀ e' ∈ cat, e' = e) → contains A cat [some t] = [false])) := by
  obtain ⟨hl, hv, _⟩ := C69_contains A cat [some t]
  obtain ⟨b, hb, hbi⟩ := hv 0 t rfl
  have hc : contains A cat [some t] = [b] := by
    match hcv : contains A cat [some t], hl with
    | [x], _ => rw [hcv] at hb; simp at hb; rw [hb]
  have main : contains A cat [some t] = [true] ↔ ∃ e ∈ eventsInRange cat (some t) (some t), e.moEnd.isSome := by
    rw [hc]
    simp only [List.cons.injEq, and_true]
    rw [hbi]
    constructor
    · rintro ⟨e, he, a, c, ha, hc, h1, h2⟩
      refine ⟨e, ((C70_range cat t t).2 e).mpr ⟨he, a, c, ha, (C70_interval_end e).1 c hc, h1, h2⟩, by simp [hc]⟩
    · rintro ⟨e, he, hs⟩
      obtain ⟨he', a, c, ha, hc, h1, h2⟩ := ((C70_range cat t t).2 e).mp he
      obtain ⟨d, hd⟩ := Option.isSome_iff_exists.mp hs
      have := (C70_interval_end e).1 d hd
      rw [hc] at this
      obtain rfl := Option.some.inj this
      exact ⟨e, he', a, c, ha, hd, h1, h2⟩
  refine ⟨?_, main, ?_⟩
  · intro h
    obtain ⟨e, he, _⟩ := main.mp h
    exact List.ne_nil_of_mem he
  · intro e a he ha hn hm h1 h2
    refine ⟨((C70_range cat t t).2 e).mpr ⟨he, a, _, ha, (C70_interval_end e).2.2.1 hn hm a ha, h1, h2⟩, ?_⟩
    intro hall
    rw [hc]
    have : ¬ b = true := by
      rw [hbi]
      rintro ⟨e', he', x, y, _, hy, _⟩
      rw [hall e' he', hn] at hy
      cases hy
    simp only [Bool.not_eq_true] at this
    rw [this]

/-! ### C71 -/

theorem mapM_craft {cat : List Event} {names : List String} (h : cat.mapM (fun e => e.craft) = some names) :
    ∀ n, n ∈ names ↔ ∃ e ∈ cat, e.craft = some n := by
  induction cat generalizing names with
  | nil => simp at h; subst h; simp
  | cons e l ih =>
    rw [List.mapM_cons] at h
    cases hc : e.craft with
    | none => rw [hc] at h; cases h
    | some c =>
      rw [hc] at h
      cases hl : l.mapM (fun e => e.craft) with
      | none => rw [hl] at h; cases h
      | some ns =>
        rw [hl] at h
        have h' : some (c :: ns) = some names := h
        obtain rfl := Option.some.inj h'
        intro n
        simp only [List.mem_cons, ih hl, exists_eq_or_imp, hc, Option.some.injEq]
        constructor
        · rintro (rfl | h)
          · left; rfl
          · right; exact h
        · rintro (rfl | h)
          · left; rfl
          · right; exact h

theorem mem_unique {l : List String} {n : String} : n ∈ unique l ↔ n ∈ l := by
  induction l with
  | nil => rfl
  | cons a l ih =>
    simp only [unique, List.mem_cons, List.mem_filter, ih, decide_eq_true_eq]
    by_cases h : n = a
    · simp [h]
    · simp [h]

theorem mapM_some_of_all : ∀ {cat : List Event}, (∀ e ∈ cat, e.craft.isSome) → ∃ names, cat.mapM (fun e => e.craft) = some names
  | [], _ => ⟨[], rfl⟩
  | e :: l, h => by
    obtain ⟨ns, hn⟩ := mapM_some_of_all (fun e he => h e (List.mem_cons_of_mem _ he))
    obtain ⟨c, hc⟩ := Option.isSome_iff_exists.mp (h e (by simp))
    exact ⟨c :: ns, by rw [List.mapM_cons, hc, hn]; rfl⟩

theorem mapM_none_of_missing : ∀ {cat : List Event}, (∃ e ∈ cat, e.craft = none) → cat.mapM (fun e => e.craft) = none
  | [], h => by simp at h
  | e :: l, h => by
    rw [List.mapM_cons]
    cases hc : e.craft with
    | none => rfl
    | some c =>
      have : ∃ e ∈ l, e.craft = none := by
        obtain ⟨x, hx, hn⟩ := h
        rcases List.mem_cons.mp hx with rfl | hx
        · rw [hc] at hn; cases hn
        · exact ⟨x, hx, hn⟩
      rw [mapM_none_of_missing this]; rfl

theorem filter_ok (low : String → String) (name : String) (cat : List Event) (h : ∀ e ∈ cat, e.craft.isSome) :
    ∃ names actual, (∀ n, n ∈ names ↔ ∃ e ∈ cat, e.craft = some n) ∧
      actual = (nameMap low names (low name)).getD name ∧
      filterCraft low name cat = .ok (cat.filter (fun e => e.craft = some actual)) := by
  obtain ⟨ns, hns⟩ := mapM_some_of_all h
  refine ⟨unique ns, _, ?_, rfl, ?_⟩
  · intro n; rw [mem_unique]; exact mapM_craft hns n
  · unfold filterCraft; rw [hns]

theorem nameMap_none {low : String → String} {names : List String} {k : String} :
    nameMap low names k = none ↔ ∀ n ∈ names, low n ≠ k := by
  unfold nameMap
  rw [List.find?_eq_none]
  simp

theorem nameMap_some {low : String → String} {names : List String} {k n : String} (h : nameMap low names k = some n) :
    n ∈ names ∧ low n = k := by
  unfold nameMap at h
  have h1 := List.mem_of_find?_eq_some h
  have h2 := List.find?_some h
  exact ⟨by simpa using h1, by simpa using h2⟩

/-- names in the catalogue are spelled consistently -/
def Consistent (low : String → String) (cat : List Event) : Prop :=
  ∀ e ∈ cat, ∀ e' ∈ cat, ∀ n n', e.craft = some n → e'.craft = some n' → low n = low n' → n = n'

/-- C71: in a consistently spelled catalogue `filter` keeps, in order, exactly the events whose spacecraft equals the name up to
case; the result depends on the name only up to case, filtering twice with the same name changes nothing, and with two different
names leaves nothing. -/
theorem C71_filter (low : String → String) (name : String) (cat : List Event) (h : ∀ e ∈ cat, e.craft.isSome)
    (hc : Consistent low cat) :
    ∃ out, filterCraft low name cat = .ok out ∧ out.Sublist cat ∧
      (∀ e, e ∈ out ↔ e ∈ cat ∧ ∃ n, e.craft = some n ∧ low n = low name) ∧
      out = cat.filter (fun e => decide (e.craft.map low = some (low name))) := by
  obtain ⟨names, actual, hn, ha, hf⟩ := filter_ok low name cat h
  have hmem : ∀ e, e ∈ cat.filter (fun e => e.craft = some actual) ↔ e ∈ cat ∧ ∃ n, e.craft = some n ∧ low n = low name := by
    intro e
    rw [List.mem_filter, decide_eq_true_eq]
    refine and_congr_right (fun he => ?_)
    cases hm : nameMap low names (low name) with
    | none =>
      rw [hm] at ha
      have hno := nameMap_none.mp hm
      constructor
      · intro hea; exact absurd (by rw [ha]; rfl) (hno actual ((hn actual).mpr ⟨e, he, hea⟩))
      · rintro ⟨n, hen, hl⟩; exact absurd hl (hno n ((hn n).mpr ⟨e, he, hen⟩))
    | some a =>
      rw [hm] at ha
      simp only [Option.getD_some] at ha
      subst ha
      obtain ⟨h1, h2⟩ := nameMap_some hm
      obtain ⟨e', he', hea'⟩ := (hn actual).mp h1
      constructor
      · intro hea; exact ⟨actual, hea, h2⟩
      · rintro ⟨n, hen, hl⟩
        rw [hen, hc e he e' he' n actual hen hea' (hl.trans h2.symm)]
  refine ⟨_, hf, List.filter_sublist, hmem, ?_⟩
  apply List.filter_congr
  intro e he
  have h1 := hmem e
  rw [List.mem_filter, decide_eq_true_eq] at h1
  rw [Bool.eq_iff_iff, decide_eq_true_eq, decide_eq_true_eq]
  constructor
  · intro hea
    obtain ⟨_, n, hn, hl⟩ := h1.mp ⟨he, hea⟩
    rw [hn, Option.map_some, hl]
  · intro hm
    obtain ⟨n, hn, hl⟩ := Option.map_eq_some_iff.mp hm
    exact (h1.mpr ⟨he, n, hn, hl⟩).2

/-- C71: consequences for repeated filters -/
theorem C71_repeat (low : String → String) (a b : String) (cat : List Event) (h : ∀ e ∈ cat, e.craft.isSome)
    (hc : Consistent low cat) (out : List Event) (ho : filterCraft low a cat = .ok out) :
    (low a = low b → filterCraft low b cat = .ok out ∧ filterCraft low b out = .ok out) ∧
    (low a ≠ low b → filterCraft low b out = .ok []) := by
  obtain ⟨o1, h1, hs, hm, he1⟩ := C71_filter low a cat h hc
  rw [ho] at h1
  obtain rfl := Except.ok.inj h1
  have hsub : ∀ e ∈ out, e ∈ cat := fun e he => hs.subset he
  have hc' : Consistent low out := fun e he e' he' => hc e (hsub e he) e' (hsub e' he')
  obtain ⟨o2, h2, _, hm2, he2⟩ := C71_filter low b cat h hc
  obtain ⟨o3, h3, _, hm3, he3⟩ := C71_filter low b out (fun e he => h e (hsub e he)) hc'
  constructor
  · intro hab
    refine ⟨?_, ?_⟩
    · rw [h2, he2, he1, hab]
    · rw [h3, he3]
      congr 1
      rw [List.filter_eq_self]
      intro e he
      obtain ⟨_, n, hn, hl⟩ := (hm e).mp he
      simp [hn, hl, hab]
  · intro hab
    rw [h3, he3]
    congr 1
    rw [List.filter_eq_nil_iff]
    intro e he
    obtain ⟨_, n, hn, hl⟩ := (hm e).mp he
    simp only [hn, Option.map_some, Option.some.injEq, decide_eq_true_eq]
    rw [hl]; exact hab

theorem unique_append_last {l : List String} {x : String} (h : x ∉ l) : unique (l ++ [x]) = unique l ++ [x] := by
  induction l with
  | nil => rfl
  | cons a l ih =>
    have hx : x ≠ a := by intro he; exact h (by simp [he])
    rw [List.cons_append, unique, ih (fun hm => h (by simp [hm])), List.filter_append]
    simp [unique, hx]

/-- C71 (violated for inconsistent spelling): if the last new spelling in the catalogue differs from an earlier one by case only,
a filter for that spacecraft, even in the earlier spelling, loses every event in the earlier spelling. -/
theorem C71_spelling_lost (low : String → String) (pre : List Event) (e : Event) (n n' : String) (hpre : ∀ x ∈ pre, x.craft.isSome)
    (he : e.craft = some n) (hnew : ∀ x ∈ pre, x.craft ≠ some n) (hl : low n' = low n) (hne : n' ≠ n) :
    ∃ out, filterCraft low n' (pre ++ [e]) = .ok out ∧ (∀ x ∈ out, x.craft = some n) ∧
      ∀ x ∈ pre, x.craft = some n' → x ∉ out := by
  obtain ⟨ns, hns⟩ := mapM_some_of_all hpre
  have hall : (pre ++ [e]).mapM (fun e => e.craft) = some (ns ++ [n]) := by
    rw [List.mapM_append, hns]
    simp only [List.mapM_cons, List.mapM_nil, he]
    rfl
  have hn : n ∉ ns := by
    intro h
    obtain ⟨x, hx, hxe⟩ := (mapM_craft hns n).mp h
    exact hnew x hx hxe
  have hmap : nameMap low (unique (ns ++ [n])) (low n') = some n := by
    unfold nameMap
    rw [unique_append_last hn, List.reverse_append]
    simp [hl]
  refine ⟨(pre ++ [e]).filter (fun e => e.craft = some n), ?_, ?_, ?_⟩
  · unfold filterCraft
    rw [hall]
    simp only [hmap, Option.getD_some]
  · intro x hx
    simpa using (List.mem_filter.mp hx).2
  · intro x _ hxn hx
    have := (List.mem_filter.mp hx).2
    rw [hxn] at this
    simp at this
    exact hne this

/-- C71 (violated): one event without spacecraft name makes every filter fail -/
theorem C71_missing_name (low : String → String) (name : String) (cat : List Event) (h : ∃ e ∈ cat, e.craft = none) :
    filterCraft low name cat = .error .attributeError := by
  unfold filterCraft
  rw [mapM_none_of_missing h]

/-- non-vacuity -/
example : Consistent id [⟨"a", some "Wind", some 1, none, none⟩, ⟨"b", some "ACE", some 1, none, none⟩] := by
  intro e _ e' _ n n' _ _ h; exact h

/-! ### C72 -/

/-- C72: the server is asked iff there is no cache directory, no cache file, or the file is more than 30 days old; a successful
answer is served and, with a cache directory, stored with the present time; a failure is reported and leaves the cache alone; a
fresh file is served unchanged. -/
theorem C72_load (dir : Bool) (now : Int) (server : Option (List Event)) (file : Option CacheFile) :
    ((load dir now server file).2.2 = true ↔ (dir = false ∨ file = none ∨ ∃ f, file = some f ∧ 30 * 86400 < now - f.mtime)) ∧
    ((load dir now server file).2.2 = true → ∀ d, server = some d → (load dir now server file).2.1 = .ok d ∧
        (dir = true → (load dir now server file).1 = some ⟨now, some d⟩)) ∧
    ((load dir now server file).2.2 = true → server = none → (load dir now server file).2.1 = .error .network ∧
        (load dir now server file).1 = file) ∧
    ((load dir now server file).2.2 = false → ∃ f, file = some f ∧ (load dir now server file).1 = file ∧
        ∀ d, f.content = some d → (load dir now server file).2.1 = .ok d) ∧
    (dir = false → (load dir now server file).1 = file) := by
  cases dir with
  | false => cases server <;> simp [load]
  | true =>
    cases file with
    | none => cases server <;> simp [load]
    | some f =>
      obtain ⟨m, c⟩ := f
      by_cases h : maxAge < now - m
      · have h' : (2592000 : Int) < now - m := h
        cases server <;> simp [load, Option.filter, h, h']
      · have h0 : ¬ (2592000 : Int) < now - m := h
        have h' : now ≤ 2592000 + m := by omega
        cases c with
        | none => simp [load, Option.filter, h, h']
        | some d => simp [load, Option.filter, h, h']

/-- a history of runs with a cache directory: (time, server answer) -/
def runs : List (Int × Option (List Event)) → Option CacheFile → Option CacheFile
  | [], f => f
  | r :: l, f => runs l (load true r.1 r.2 f).1

/-- the cache holds an answer given by the server at the file's time -/
def Genuine (log : List (Int × List Event)) (f : Option CacheFile) : Prop :=
  ∀ c, f = some c → ∃ d, c.content = some d ∧ (c.mtime, d) ∈ log

/-- C72 (histories): every run of every history either fails for the network or serves an
answer the server gave at most 30 days before. -/
theorem C72_history (log : List (Int × List Event)) (f : Option CacheFile) (hg : Genuine log f)
    (past : List (Int × Option (List Event))) (now : Int) (server : Option (List Event))
    (hlog : ∀ r ∈ past ++ [(now, server)], ∀ d, r.2 = some d → (r.1, d) ∈ log) :
    Genuine log (runs past f) ∧
    ((load true now server (runs past f)).2.1 = .error .network ∨
      ∃ t d, (load true now server (runs past f)).2.1 = .ok d ∧ (t, d) ∈ log ∧ now - t ≤ 30 * 86400) := by
  have step : ∀ (now : Int) (server : Option (List Event)) (f : Option CacheFile), Genuine log f →
      (∀ d, server = some d → (now, d) ∈ log) →
      Genuine log (load true now server f).1 ∧ ((load true now server f).2.1 = .error .network ∨
        ∃ t d, (load true now server f).2.1 = .ok d ∧ (t, d) ∈ log ∧ now - t ≤ 30 * 86400) := by
    intro now server f hg hs
    obtain ⟨h1, h2, h3, h4, _⟩ := C72_load true now server f
    by_cases hask : (load true now server f).2.2 = true
    · cases hsv : server with
      | none =>
        rw [hsv] at hask h3
        obtain ⟨a, b⟩ := h3 hask rfl
        exact ⟨by rw [b]; exact hg, Or.inl a⟩
      | some d =>
        rw [hsv] at hask h2
        obtain ⟨a, b⟩ := h2 hask d rfl
        refine ⟨?_, Or.inr ⟨now, d, a, hs d hsv, by omega⟩⟩
        rw [b rfl]
        intro c hc
        obtain rfl := Option.some.inj hc
        exact ⟨d, rfl, hs d hsv⟩
    · have hask' : (load true now server f).2.2 = false := by simpa using hask
      obtain ⟨c, hc, he, hd⟩ := h4 hask'
      obtain ⟨d, hcd, hin⟩ := hg c hc
      refine ⟨by rw [he]; exact hg, Or.inr ⟨c.mtime, d, hd d hcd, hin, ?_⟩⟩
      by_contra hlt
      exact hask (h1.mpr (Or.inr (Or.inr ⟨c, hc, by omega⟩)))
  have hp : ∀ (past : List (Int × Option (List Event))) (f : Option CacheFile), Genuine log f →
      (∀ r ∈ past, ∀ d, r.2 = some d → (r.1, d) ∈ log) → Genuine log (runs past f) := by
    intro past
    induction past with
    | nil => intro f hg _; exact hg
    | cons r l ih =>
      intro f hg hl
      exact ih _ (step r.1 r.2 f hg (fun d hd => hl r (by simp) d hd)).1 (fun r hr => hl r (by simp [hr]))
  have hgp := hp past f hg (fun r hr => hlog r (by simp [hr]))
  exact ⟨hgp, (step now server _ hgp (fun d hd => hlog (now, server) (by simp) d hd)).2⟩

/-! ### C122 -/

/-- C122 (violated): the cache file is written in place; after a crash during the write every run of the following 30 days fails to
read it, whatever the server would answer, and never repairs it. -/
theorem C122_truncated_cache (t : Int) (l : List (Int × Option (List Event))) (h : ∀ r ∈ l, r.1 - t ≤ 30 * 86400) :
    runs l (crashInWrite t) = crashInWrite t ∧
    ∀ r ∈ l, (load true r.1 r.2 (crashInWrite t)).2.1 = .error .corrupt := by
  have one : ∀ (now : Int) (s : Option (List Event)), now - t ≤ 30 * 86400 →
      load true now s (crashInWrite t) = (crashInWrite t, .error .corrupt, false) := by
    intro now s hn
    have : ¬ maxAge < now - t := by unfold maxAge; omega
    simp [load, crashInWrite, Option.filter, this]
  refine ⟨?_, fun r hr => by rw [one r.1 r.2 (h r hr)]⟩
  induction l with
  | nil => rfl
  | cons r l ih =>
    rw [runs, one r.1 r.2 (h r (by simp))]
    exact ih (fun r hr => h r (by simp [hr]))

/-! ### C123 -/

/-- C123: the summary counts all events and those with measured end, and its dates bound every event; an empty catalogue gives
zeros and missing dates. -/
theorem C123_summary (craft : Option String) (cat : List Event) :
    (summary craft cat).nEvents = cat.length ∧
    (summary craft cat).nStrict = cat.countP (fun e => e.moEnd.isSome) ∧
    (summary craft cat).nStrict ≤ (summary craft cat).nEvents ∧
    (∀ e ∈ cat, ∀ a, e.start = some a → ∃ lo, (summary craft cat).first = some lo ∧ lo ≤ a) ∧
    (∀ e ∈ cat, ∀ b, intervalEnd e = some b → ∃ hi, (summary craft cat).last = some hi ∧ b ≤ hi) ∧
    (∀ lo, (summary craft cat).first = some lo → ∃ e ∈ cat, e.start = some lo) ∧
    (∀ hi, (summary craft cat).last = some hi → ∃ e ∈ cat, intervalEnd e = some hi) := by
  have hstr : (strict cat).length = cat.countP (fun e => e.moEnd.isSome) := by
    unfold strict; rw [List.countP_eq_length_filter]
  by_cases h0 : cat.length = 0
  · have : cat = [] := List.length_eq_zero_iff.mp h0
    subst this
    simp [summary]
  · have hs : summary craft cat = ⟨cat.length, (strict cat).length, minOpt (cat.map Event.start),
        maxOpt (cat.map intervalEnd), craft.filter (fun s => s ≠ "")⟩ := by
      unfold summary; rw [if_neg h0]
    rw [hs]
    refine ⟨rfl, hstr, List.length_filter_le _ _, ?_, ?_, ?_, ?_⟩
    · intro e he a ha
      have hm : a ∈ (cat.map Event.start).filterMap id := by
        rw [List.mem_filterMap]; exact ⟨some a, List.mem_map.mpr ⟨e, he, ha⟩, rfl⟩
      cases hmin : ((cat.map Event.start).filterMap id).min? with
      | none => rw [List.min?_eq_none_iff.mp hmin] at hm; simp at hm
      | some lo => exact ⟨lo, hmin, (List.min?_eq_some_iff.mp hmin).2 a hm⟩
    · intro e he b hb
      have hm : b ∈ (cat.map intervalEnd).filterMap id := by
        rw [List.mem_filterMap]; exact ⟨some b, List.mem_map.mpr ⟨e, he, hb⟩, rfl⟩
      cases hmax : ((cat.map intervalEnd).filterMap id).max? with
      | none => rw [List.max?_eq_none_iff.mp hmax] at hm; simp at hm
      | some hi => exact ⟨hi, hmax, (List.max?_eq_some_iff.mp hmax).2 b hm⟩
    · intro lo hlo
      have := (List.min?_eq_some_iff.mp hlo).1
      rw [List.mem_filterMap] at this
      obtain ⟨x, hx, he⟩ := this
      obtain ⟨e, hem, rfl⟩ := List.mem_map.mp hx
      exact ⟨e, hem, he⟩
    · intro hi hhi
      have := (List.max?_eq_some_iff.mp hhi).1
      rw [List.mem_filterMap] at this
      obtain ⟨x, hx, he⟩ := this
      obtain ⟨e, hem, rfl⟩ := List.mem_map.mp hx
      exact ⟨e, hem, he⟩

/-- C70: the durations behind the summary statistics: one per event with a start and an end, in order, each end minus start (so never
negative when no event ends before it starts). -/
theorem C70_durations (cat : List Event) (known : List (Event × Int × Int))
    (h : known.map Prod.fst = cat.filter (fun e => e.start.isSome && (intervalEnd e).isSome))
    (hk : ∀ p ∈ known, p.1.start = some p.2.1 ∧ intervalEnd p.1 = some p.2.2) :
    (durations cat).length = known.length ∧
    ∀ (k : Nat) (p : Event × Int × Int), known[k]? = some p → ∃ d, (durations cat)[k]? = some d ∧ p.2.1 + d = p.2.2 := by
  have key : durations cat = known.map (fun p => p.2.2 - p.2.1) := by
    unfold durations
    induction cat generalizing known with
    | nil =>
      have : known = [] := by simpa using h
      subst this; rfl
    | cons e l ih =>
      by_cases hs : (e.start.isSome && (intervalEnd e).isSome) = true
      · rw [List.filter_cons, if_pos hs] at h
        cases known with
        | nil => simp at h
        | cons p ps =>
          simp only [List.map_cons, List.cons.injEq] at h
          obtain ⟨h1, h2⟩ := h
          obtain ⟨a, b⟩ := hk p (by simp)
          rw [h1] at a b
          rw [List.filterMap_cons, a, b, ih ps h2 (fun q hq => hk q (by simp [hq]))]
          rfl
      · rw [List.filter_cons, if_neg hs] at h
        rw [List.filterMap_cons, ih known h hk]
        cases ha : e.start <;> cases hb : intervalEnd e <;> simp [ha, hb] at hs ⊢
  rw [key]
  refine ⟨by simp, ?_⟩
  intro k p hp
  exact ⟨p.2.2 - p.2.1, by rw [List.getElem?_map, hp]; rfl, by omega⟩

end Icme
end SW
