import Verif.Extrema
import Verif.Props.Activity
import Mathlib.Tactic.Linarith
import Mathlib.Tactic.FieldSimp

/-!
# C204, C205: extrema of an activity index, from the raw series to the dates
-/

namespace SW
namespace Act
open Classical

/-! ## C204: smoothing -/

/-- specification: the measured values with a time in `(lo, hi]` -/
noncomputable def measuredIn (raw : Series) (lo hi : Int) : List ℝ :=
  raw.filterMap (fun p => match p.2 with
    | .fin a => if lo < p.1 ∧ p.1 ≤ hi then some a else none
    | _ => none)

theorem numbers_filter (raw : Series) (P : Int → Prop) [DecidablePred P] :
    numbers ((raw.filter (fun p => decide (P p.1))).map Prod.snd) = raw.filterMap (fun p => match p.2 with
      | .fin a => if P p.1 then some a else none
      | _ => none) := by
  induction raw with
  | nil => rfl
  | cons p l ih =>
    obtain ⟨t, x⟩ := p
    rw [List.filter_cons, List.filterMap_cons]
    by_cases h : P t
    · rw [if_pos (by simpa using h)]
      unfold numbers at ih ⊢
      rw [List.map_cons, List.filterMap_cons, ih]
      cases x <;> simp [h]
    · rw [if_neg (by simpa using h), ih]
      cases x <;> simp [h]

theorem sum_bounds (l : List ℝ) (lo hi : ℝ) (h : ∀ a ∈ l, lo ≤ a ∧ a ≤ hi) : lo * l.length ≤ l.sum ∧ l.sum ≤ hi * l.length := by
  induction l with
  | nil => simp
  | cons a l ih =>
    obtain ⟨h1, h2⟩ := ih (fun b hb => h b (List.mem_cons_of_mem _ hb))
    obtain ⟨h3, h4⟩ := h a (by simp)
    simp only [List.sum_cons, List.length_cons, Nat.cast_add, Nat.cast_one]
    constructor <;> nlinarith

/-- C204: each smoothed sample is dated half a window before a measurement and holds the mean of the measured values within half a window
on either side of its date (missing iff there is none), which lies between the smallest and the largest of them; there is one sample per
measurement, in order. -/
theorem C204_mean (h : Int) (raw : Series) :
    (smooth (some h) raw).map Prod.fst = raw.map (fun p => p.1 - h) ∧
    ∀ s y, (s, y) ∈ smooth (some h) raw →
      (y = .nan ↔ measuredIn raw (s - h) (s + h) = []) ∧
      (measuredIn raw (s - h) (s + h) ≠ [] → ∃ m : ℝ, y = .fin m ∧
        m * (measuredIn raw (s - h) (s + h)).length = (measuredIn raw (s - h) (s + h)).sum ∧
        ∀ lo hi : ℝ, (∀ a ∈ measuredIn raw (s - h) (s + h), lo ≤ a ∧ a ≤ hi) → lo ≤ m ∧ m ≤ hi) := by
  refine ⟨by simp [smooth, Function.comp_def], ?_⟩
  intro s y hm
  simp only [smooth, List.mem_map, Prod.mk.injEq] at hm
  obtain ⟨p, -, rfl, rfl⟩ := hm
  have e : numbers ((raw.filter (fun q => decide (p.1 - 2 * h < q.1 ∧ q.1 ≤ p.1))).map Prod.snd) =
      measuredIn raw (p.1 - h - h) (p.1 - h + h) := by
    rw [numbers_filter raw (fun t => p.1 - 2 * h < t ∧ t ≤ p.1)]
    unfold measuredIn
    rw [show p.1 - h - h = p.1 - 2 * h by ring, show p.1 - h + h = p.1 by ring]
  unfold rollMean
  rw [e]
  generalize measuredIn raw (p.1 - h - h) (p.1 - h + h) = l
  cases l with
  | nil => simp
  | cons a l =>
    simp only [reduceCtorEq, false_iff, ne_eq, not_false_eq_true, true_and, forall_const]
    have hpos : (0 : ℝ) < ((a :: l).length : ℝ) := by simp only [List.length_cons]; positivity
    refine ⟨_, rfl, by field_simp, ?_⟩
    intro lo hi hb
    obtain ⟨h1, h2⟩ := sum_bounds (a :: l) lo hi hb
    exact ⟨(le_div_iff₀ hpos).mpr h1, (div_le_iff₀ hpos).mpr h2⟩

/-- C204 (violated: smoothed values are dated before the measurements): the first smoothed sample is the first measurement itself, dated half
a window before it. -/
theorem C204_first (h t0 : Int) (a : ℝ) (l : Series) (hh : 0 < h) (hs : ∀ p ∈ l, t0 < p.1) :
    (smooth (some h) ((t0, .fin a) :: l)).head? = some (t0 - h, .fin a) := by
  have e : l.filter (fun p => decide (t0 - 2 * h < p.1 ∧ p.1 ≤ t0)) = [] := by
    rw [List.filter_eq_nil_iff]
    intro p hp
    have := hs p hp
    simp only [decide_eq_true_eq]; omega
  simp only [smooth, List.map_cons, List.head?_cons, Option.some.injEq, Prod.mk.injEq, true_and, rollMean]
  rw [List.filter_cons, if_pos (by simp only [decide_eq_true_eq]; omega), e]
  simp [numbers]

/-! ## C205: dates of the extrema -/

theorem mapM_ok_mem {α β : Type} (f : α → Except PyErr β) : ∀ (l : List α) (r : List β), l.mapM f = .ok r → ∀ y ∈ r, ∃ x ∈ l, f x = .ok y
  | [], r, h, y, hy => by
    rw [List.mapM_nil] at h; cases h; simp at hy
  | x :: l, r, h, y, hy => by
    rw [List.mapM_cons] at h
    cases hx : f x with
    | error e => rw [hx] at h; cases h
    | ok b =>
      cases hl : l.mapM f with
      | error e => rw [hx, hl] at h; cases h
      | ok bs =>
        rw [hx, hl] at h
        cases h
        rcases List.mem_cons.mp hy with rfl | hy
        · exact ⟨x, by simp, hx⟩
        · obtain ⟨z, hz, e⟩ := mapM_ok_mem f l bs hl y hy
          exact ⟨z, List.mem_cons_of_mem _ hz, e⟩

theorem groupExtremum_val {thr : ℝ} {vs : List ℝ} {v : ℝ} :
    (groupExtremum thr vs = .ok (.max v) → v ∈ vs ∧ ∀ x ∈ vs, x ≤ v) ∧
    (groupExtremum thr vs = .ok (.min v) → v ∈ vs ∧ ∀ x ∈ vs, v ≤ x) := by
  cases vs with
  | nil => constructor <;> intro h <;> cases h
  | cons a l =>
    constructor <;> intro h <;> unfold groupExtremum at h <;> simp only [] at h <;> split at h <;> cases h
    · exact foldl_max_spec a l
    · exact foldl_min_spec a l

theorem dated_some {thr : ℝ} {g : List (Int × ℝ)} {k : Bool} {d : Int} (h : dated thr g = .ok (some (k, d))) :
    ∃ v, (groupExtremum thr (g.map Prod.snd) = .ok (if k then .max v else .min v)) ∧ g.find? (fun p => decide (p.2 = v)) = some (d, v) := by
  unfold dated at h
  have key : ∀ v (b : Bool), (g.find? (fun p => decide (p.2 = v))).map (fun p => (b, p.1)) = some (k, d) →
      b = k ∧ g.find? (fun p => decide (p.2 = v)) = some (d, v) := by
    intro v b e
    cases hf : g.find? (fun p => decide (p.2 = v)) with
    | none => rw [hf] at e; cases e
    | some p =>
      rw [hf] at e
      have := List.find?_some hf
      obtain ⟨t, w⟩ := p
      simp only [Option.map_some, Option.some.injEq, Prod.mk.injEq] at e
      simp only [decide_eq_true_eq] at this
      exact ⟨e.1, by rw [e.2, this]⟩
  split at h
  · cases h
  · cases h
  · rename_i v hv
    injection h with h
    obtain ⟨rfl, h2⟩ := key v true h
    exact ⟨v, by simpa using hv, h2⟩
  · rename_i v hv
    injection h with h
    obtain ⟨rfl, h2⟩ := key v false h
    exact ⟨v, by simpa using hv, h2⟩

theorem mem_between {data : Series} {l r d : Int} {v : ℝ} :
    (d, v) ∈ between data l r ↔ (d, Fl.fin v) ∈ data ∧ l < d ∧ d ≤ r := by
  unfold between
  rw [List.mem_filterMap]
  constructor
  · rintro ⟨⟨t, x⟩, h, e⟩
    rw [List.mem_filter] at h
    cases x with
    | fin a =>
      simp only [Option.some.injEq, Prod.mk.injEq] at e
      obtain ⟨rfl, rfl⟩ := e
      exact ⟨h.1, by simpa using h.2⟩
    | nan => cases e
    | pinf => cases e
    | ninf => cases e
  · rintro ⟨h1, h2⟩
    exact ⟨(d, .fin v), List.mem_filter.mpr ⟨h1, by simpa using h2⟩, rfl⟩

theorem between_sorted {data : Series} (hs : data.Pairwise (fun a b => a.1 < b.1)) (l r : Int) :
    (between data l r).Pairwise (fun a b => a.1 < b.1) := by
  unfold between
  refine List.Pairwise.filterMap _ ?_ (hs.filter _)
  rintro ⟨t, x⟩ ⟨u, y⟩ h b hb c hc
  cases x <;> simp only [Option.mem_def, reduceCtorEq, Option.some.injEq] at hb
  cases y <;> simp only [Option.mem_def, reduceCtorEq, Option.some.injEq] at hc
  subst hb hc; exact h

theorem cells_mem {data : Series} {g : List (Int × ℝ)} : ∀ {es : List Int}, g ∈ cells data es → ∃ l r, [l, r] <:+: es ∧ g = between data l r
  | [], h => by simp [cells] at h
  | [_], h => by simp [cells] at h
  | l :: r :: rest, h => by
    rw [cells, List.mem_cons] at h
    rcases h with rfl | h
    · exact ⟨l, r, ⟨[], rest, by simp⟩, rfl⟩
    · obtain ⟨l', r', ⟨a, b, e⟩, hg⟩ := cells_mem h
      exact ⟨l', r', ⟨l :: a, b, by rw [← e]; simp⟩, hg⟩

theorem find_first {g : List (Int × ℝ)} (hs : g.Pairwise (fun a b => a.1 < b.1)) {v : ℝ} {d : Int}
    (h : g.find? (fun p => decide (p.2 = v)) = some (d, v)) : (d, v) ∈ g ∧ ∀ d', (d', v) ∈ g → d ≤ d' := by
  refine ⟨List.mem_of_find?_eq_some h, ?_⟩
  induction g with
  | nil => simp at h
  | cons p g ih =>
    intro d' hd'
    rw [List.find?_cons] at h
    rw [List.pairwise_cons] at hs
    by_cases hp : p.2 = v
    · simp only [hp, decide_true] at h
      injection h with h
      rcases List.mem_cons.mp hd' with e | hd'
      · rw [← e] at h; injection h with h; omega
      · have := hs.1 _ hd'
        rw [h] at this; simp only at this; omega
    · simp only [hp, decide_false] at h
      rcases List.mem_cons.mp hd' with e | hd'
      · rw [← e] at hp; exact absurd rfl hp
      · exact ih hs.2 h d' hd'

/-- C205: a maximum is dated at the first sample attaining the largest smoothed value of its interval between two neighbouring edges; likewise
a minimum. -/
theorem C205_extremum (thr : ℝ) (data : Series) (es mx mn : List Int) (hs : data.Pairwise (fun a b => a.1 < b.1))
    (h : candidates thr data es = .ok (mx, mn)) :
    (∀ d ∈ mx, ∃ (l r : Int) (v : ℝ), [l, r] <:+: es ∧ l < d ∧ d ≤ r ∧ (d, Fl.fin v) ∈ data ∧
      ∀ d' v', (d', Fl.fin v') ∈ data → l < d' → d' ≤ r → v' ≤ v ∧ (v' = v → d ≤ d')) ∧
    (∀ d ∈ mn, ∃ (l r : Int) (v : ℝ), [l, r] <:+: es ∧ l < d ∧ d ≤ r ∧ (d, Fl.fin v) ∈ data ∧
      ∀ d' v', (d', Fl.fin v') ∈ data → l < d' → d' ≤ r → v ≤ v' ∧ (v' = v → d ≤ d')) := by
  unfold candidates at h
  cases hm : (cells data es).mapM (dated thr) with
  | error e => rw [hm] at h; cases h
  | ok ds =>
    rw [hm] at h
    injection h with h
    injection h with h1 h2
    have main : ∀ k d, some (k, d) ∈ ds → ∃ (l r : Int) (v : ℝ), [l, r] <:+: es ∧ l < d ∧ d ≤ r ∧ (d, Fl.fin v) ∈ data ∧
        groupExtremum thr ((between data l r).map Prod.snd) = .ok (if k then .max v else .min v) ∧
        ∀ d', (d', Fl.fin v) ∈ data → l < d' → d' ≤ r → d ≤ d' := by
      intro k d hd
      obtain ⟨g, hg, e⟩ := mapM_ok_mem _ _ _ hm _ hd
      obtain ⟨l, r, hlr, rfl⟩ := cells_mem hg
      obtain ⟨v, e1, e2⟩ := dated_some e
      obtain ⟨m1, m2⟩ := find_first (between_sorted hs l r) e2
      obtain ⟨a, b, c⟩ := mem_between.mp m1
      exact ⟨l, r, v, hlr, b, c, a, e1, fun d' h1 h2 h3 => m2 d' (mem_between.mpr ⟨h1, h2, h3⟩)⟩
    constructor
    · intro d hd
      rw [← h1, List.mem_filterMap] at hd
      obtain ⟨o, ho, e⟩ := hd
      obtain ⟨k, d0, rfl, e'⟩ : ∃ k d0, o = some (k, d0) ∧ (if k = true then some d0 else none) = some d := by
        cases o with
        | none => cases e
        | some p => exact ⟨p.1, p.2, rfl, e⟩
      cases k <;> simp only [Bool.false_eq_true, if_false, if_true, reduceCtorEq, Option.some.injEq] at e'
      subst e'
      obtain ⟨l, r, v, a1, a2, a3, a4, a5, a6⟩ := main _ _ ho
      refine ⟨l, r, v, a1, a2, a3, a4, fun d' v' b1 b2 b3 => ⟨?_, fun e => a6 d' (e ▸ b1) b2 b3⟩⟩
      exact (groupExtremum_val.1 a5).2 v' (List.mem_map.mpr ⟨(d', v'), mem_between.mpr ⟨b1, b2, b3⟩, rfl⟩)
    · intro d hd
      rw [← h2, List.mem_filterMap] at hd
      obtain ⟨o, ho, e⟩ := hd
      obtain ⟨k, d0, rfl, e'⟩ : ∃ k d0, o = some (k, d0) ∧ (if k = true then none else some d0) = some d := by
        cases o with
        | none => cases e
        | some p => exact ⟨p.1, p.2, rfl, e⟩
      cases k <;> simp only [Bool.false_eq_true, if_false, if_true, reduceCtorEq, Option.some.injEq] at e'
      subst e'
      obtain ⟨l, r, v, a1, a2, a3, a4, a5, a6⟩ := main _ _ ho
      refine ⟨l, r, v, a1, a2, a3, a4, fun d' v' b1 b2 b3 => ⟨?_, fun e => a6 d' (e ▸ b1) b2 b3⟩⟩
      exact (groupExtremum_val.2 a5).2 v' (List.mem_map.mpr ⟨(d', v'), mem_between.mpr ⟨b1, b2, b3⟩, rfl⟩)

theorem keepAfter_sub (sep : Int) : ∀ (l : List Int) (prev : Int), ∀ x ∈ keepAfter sep prev l, x ∈ l
  | [], _, x, h => by simp [keepAfter] at h
  | y :: l, prev, x, h => by
    rw [keepAfter] at h
    split at h
    · rcases List.mem_cons.mp h with rfl | h
      · simp
      · exact List.mem_cons_of_mem _ (keepAfter_sub sep l y x h)
    · exact List.mem_cons_of_mem _ (keepAfter_sub sep l y x h)

theorem validate_sub {sep : Int} {l r : List Int} (h : validate sep l = .ok r) : ∀ x ∈ r, x ∈ l := by
  cases l with
  | nil => cases h
  | cons y l =>
    injection h with h
    subst h
    intro x hx
    rcases List.mem_cons.mp hx with rfl | hx
    · simp
    · exact List.mem_cons_of_mem _ (keepAfter_sub sep l y x hx)

theorem trim_sub (name : String) (a b : List Int) : (∀ x ∈ (trim name a b).1, x ∈ a) ∧ ∀ x ∈ (trim name a b).2, x ∈ b := by
  have hd : ∀ (l : List Int), ∀ x ∈ l.drop 1, x ∈ l := fun l x h => List.mem_of_mem_drop h
  have hl : ∀ (l : List Int), ∀ x ∈ l.dropLast, x ∈ l := fun l x h => List.dropLast_subset l h
  unfold trim
  split
  · exact ⟨hd a, fun x h => h⟩
  · split
    · exact ⟨fun x h => h, fun x h => hd b x (hl _ x h)⟩
    · split
      · exact ⟨hd a, hl b⟩
      · split
        · exact ⟨fun x h => h, hl b⟩
        · split
          · exact ⟨fun x h => h, hd b⟩
          · exact ⟨fun x h => h, fun x h => h⟩

theorem validateBoth_sub {sep : Int} {name : String} {a b : List Int} {v : List Int × List Int}
    (h : validateBoth sep name a b = .ok v) : (∀ x ∈ v.1, x ∈ a) ∧ ∀ x ∈ v.2, x ∈ b := by
  unfold validateBoth at h
  obtain ⟨t1, t2⟩ := trim_sub name a b
  cases h1 : validate sep (trim name a b).1 with
  | error e => simp only [h1, bind, Except.bind, reduceCtorEq] at h
  | ok r1 =>
    cases h2 : validate sep (trim name a b).2 with
    | error e => simp only [h1, h2, bind, Except.bind, reduceCtorEq] at h
    | ok r2 =>
      simp only [h1, h2, bind, Except.bind, pure, Except.pure, Except.ok.injEq] at h
      subst h
      exact ⟨fun x hx => t1 x (validate_sub h1 x hx), fun x hx => t2 x (validate_sub h2 x hx)⟩

theorem formatExtrema_sub {mins maxs : List Int} {rows : List Row} (h : formatExtrema mins maxs = .ok rows) :
    ∀ row ∈ rows, ∀ d, (row.min = some d → d ∈ mins) ∧ (row.max = some d → d ∈ maxs) := by
  cases mins with
  | nil => cases maxs <;> cases h
  | cons m0 mins =>
    cases maxs with
    | nil => cases h
    | cons x0 maxs =>
      simp only [formatExtrema] at h
      split at h <;> injection h with h <;> subst h <;> intro row hrow d
      · rcases List.mem_cons.mp hrow with rfl | hrow
        · exact ⟨fun e => (by simp at e), fun e => (by simp at e; rw [← e]; simp)⟩
        · rw [List.mem_map] at hrow
          obtain ⟨i, -, rfl⟩ := hrow
          exact ⟨fun e => List.mem_of_getElem? e, fun e => List.mem_of_getElem? e⟩
      · rw [List.mem_map] at hrow
        obtain ⟨i, -, rfl⟩ := hrow
        exact ⟨fun e => List.mem_of_getElem? e, fun e => List.mem_of_getElem? e⟩

theorem crossingsFrom_sub (thr : ℝ) : ∀ (l : Series) (prev : Fl), ∀ t ∈ crossingsFrom thr prev l, ∃ x, (t, x) ∈ l
  | [], _, t, h => by simp [crossingsFrom] at h
  | (u, y) :: l, prev, t, h => by
    rw [crossingsFrom] at h
    split at h
    · rcases List.mem_cons.mp h with rfl | h
      · exact ⟨y, by simp⟩
      · obtain ⟨x, hx⟩ := crossingsFrom_sub thr l y t h; exact ⟨x, List.mem_cons_of_mem _ hx⟩
    · obtain ⟨x, hx⟩ := crossingsFrom_sub thr l y t h; exact ⟨x, List.mem_cons_of_mem _ hx⟩

theorem crossings_sub (thr : ℝ) (l : Series) : ∀ t ∈ crossings thr l, ∃ x, (t, x) ∈ l := by
  cases l with
  | nil => intro t h; simp [crossings] at h
  | cons p l =>
    obtain ⟨u, y⟩ := p
    intro t h
    rw [crossings, List.mem_append] at h
    rcases h with h | h
    · split at h
      · rw [List.mem_singleton] at h; subst h; exact ⟨y, by simp⟩
      · simp at h
    · obtain ⟨x, hx⟩ := crossingsFrom_sub thr l y t h; exact ⟨x, List.mem_cons_of_mem _ hx⟩

theorem edges_sub {raw : Series} {cr es : List Int} (h : edges raw cr = .ok es) : ∀ e ∈ es, e ∈ cr ∨ ∃ x, (e, x) ∈ raw := by
  unfold edges at h
  split at h
  · rename_i c0 c1 r0 r1 h0 h1 h2 h3
    injection h with h
    have m0 : ∃ x, (r0.1, x) ∈ raw := ⟨r0.2, List.mem_of_head? h2⟩
    have m1 : ∃ x, (r1.1, x) ∈ raw := ⟨r1.2, List.mem_of_getLast? h3⟩
    have hb : ∀ e ∈ (if c1 < r1.1 then cr ++ [r1.1] else cr), e ∈ cr ∨ ∃ x, (e, x) ∈ raw := by
      intro e he
      split at he
      · rcases List.mem_append.mp he with he | he
        · exact Or.inl he
        · rw [List.mem_singleton] at he; subst he; exact Or.inr m1
      · exact Or.inl he
    intro e he
    rw [← h] at he
    split at he
    · rcases List.mem_cons.mp he with rfl | he
      · exact Or.inr m0
      · exact hb e he
    · exact hb e he
  · cases h

/-- what a successful calculation did -/
theorem extremaTable_ok {y77 sep : Int} {name : String} {raw : Series} {thr : Option Thr} {half : Option Int} {rows : List Row}
    (h : extremaTable y77 sep name raw thr half = .ok rows) :
    ∃ th es mx mn v, threshold name thr ((smooth half (trusted y77 name raw)).map Prod.snd) = .ok th ∧
      edges (trusted y77 name raw) (crossings th (smooth half (trusted y77 name raw))) = .ok es ∧
      candidates th (smooth half (trusted y77 name raw)) es = .ok (mx, mn) ∧ validateBoth sep name mx mn = .ok v ∧
      formatExtrema v.2 v.1 = .ok rows := by
  unfold extremaTable at h
  split at h
  · cases h
  · simp only [] at h
    split at h
    · cases h
    · rename_i th hth
      split at h
      · cases h
      · rename_i es hes
        split at h
        · cases h
        · rename_i c hc
          split at h
          · cases h
          · rename_i v hv
            exact ⟨th, es, c.1, c.2, v, hth, hes, hc, hv, h⟩

theorem trusted_sub (y77 : Int) (name : String) (raw : Series) : (trusted y77 name raw).Sublist raw := by
  unfold trusted
  split
  · exact List.filter_sublist
  · exact List.Sublist.refl _

theorem smooth_sorted {raw : Series} (hs : raw.Pairwise (fun a b => a.1 < b.1)) (half : Option Int) :
    (smooth half raw).Pairwise (fun a b => a.1 < b.1) := by
  cases half with
  | none => exact hs
  | some h =>
    unfold smooth
    rw [List.pairwise_map]
    exact hs.imp (fun h => by simp only; omega)

/-- C205: every date in the table is half a window before a measurement, and never before the first one's: so none lies in the last half
window of the series. -/
theorem C205_dates (y77 sep h : Int) (name : String) (raw : Series) (thr : Option Thr) (rows : List Row) (hh : 0 ≤ h)
    (hs : raw.Pairwise (fun a b => a.1 < b.1)) (hok : extremaTable y77 sep name raw thr (some h) = .ok rows) :
    ∀ row ∈ rows, ∀ d, (row.min = some d ∨ row.max = some d) →
      ∃ t x t0 x0, (t, x) ∈ raw ∧ d = t - h ∧ (t0, x0) ∈ raw ∧ t0 < t := by
  obtain ⟨th, es, mx, mn, v, -, hes, hc, hv, hf⟩ := extremaTable_ok hok
  have hsub := trusted_sub y77 name raw
  have hs' := hs.sublist hsub
  obtain ⟨T, hT⟩ : ∃ T, T = trusted y77 name raw := ⟨_, rfl⟩
  rw [← hT] at hes hc hsub hs'
  obtain ⟨c1, c2⟩ := C205_extremum th _ es mx mn (smooth_sorted hs' (some h)) hc
  obtain ⟨v1, v2⟩ := validateBoth_sub hv
  have hedge : ∀ e ∈ es, ∃ t x, (t, x) ∈ T ∧ t - h ≤ e := by
    intro e he
    rcases edges_sub hes e he with he | ⟨x, hx⟩
    · obtain ⟨x, hx⟩ := crossings_sub th _ e he
      simp only [smooth, List.mem_map, Prod.mk.injEq] at hx
      obtain ⟨p, hp, rfl, -⟩ := hx
      exact ⟨p.1, p.2, hp, le_refl _⟩
    · exact ⟨e, x, hx, by omega⟩
  have hdate : ∀ d, (∃ (l r : Int) (v : ℝ), [l, r] <:+: es ∧ l < d ∧ (d, Fl.fin v) ∈ smooth (some h) T) →
      ∃ t x t0 x0, (t, x) ∈ raw ∧ d = t - h ∧ (t0, x0) ∈ raw ∧ t0 < t := by
    rintro d ⟨l, r, w, hlr, hl, hd⟩
    have hle : l ∈ es := hlr.subset (by simp)
    obtain ⟨t0, x0, h0, hle⟩ := hedge l hle
    simp only [smooth, List.mem_map, Prod.mk.injEq] at hd
    obtain ⟨p, hp, rfl, -⟩ := hd
    exact ⟨p.1, p.2, t0, x0, hsub.subset hp, rfl, hsub.subset h0, by omega⟩
  intro row hrow d hd
  obtain ⟨f1, f2⟩ := formatExtrema_sub hf row hrow d
  rcases hd with hd | hd
  · obtain ⟨l, r, w, a, b, -, c, -⟩ := c2 d (v2 d (f1 hd))
    exact hdate d ⟨l, r, w, a, b, c⟩
  · obtain ⟨l, r, w, a, b, -, c, -⟩ := c1 d (v1 d (f2 hd))
    exact hdate d ⟨l, r, w, a, b, c⟩

/-! ### units of the index -/

/-- the value in another unit: `x ↦ k x + b` -/
noncomputable def aff (k b : ℝ) : Fl → Fl
  | .fin x => .fin (k * x + b)
  | y => y

noncomputable def affS (k b : ℝ) (raw : Series) : Series := raw.map (fun p => (p.1, aff k b p.2))

theorem numbers_aff (k b : ℝ) (l : List Fl) : numbers (l.map (aff k b)) = (numbers l).map (fun x => k * x + b) := by
  induction l with
  | nil => rfl
  | cons x l ih =>
    unfold numbers at ih ⊢
    rw [List.map_cons, List.filterMap_cons, List.filterMap_cons, ih]
    cases x <;> simp [aff]

theorem sum_aff (k b : ℝ) (l : List ℝ) : (l.map (fun x => k * x + b)).sum = k * l.sum + b * l.length := by
  induction l with
  | nil => simp
  | cons a l ih => simp only [List.map_cons, List.sum_cons, ih, List.length_cons, Nat.cast_add, Nat.cast_one]; ring

theorem rollMean_aff (k b : ℝ) (w : Int) (raw : Series) (t : Int) : rollMean w (affS k b raw) t = aff k b (rollMean w raw t) := by
  unfold rollMean affS
  rw [List.filter_map, List.map_map]
  have e : (Prod.snd ∘ fun p : Int × Fl => (p.1, aff k b p.2)) = aff k b ∘ Prod.snd := rfl
  rw [e, ← List.map_map, numbers_aff]
  have e2 : ((fun p : Int × Fl => decide (t - w < p.1 ∧ p.1 ≤ t)) ∘ fun p : Int × Fl => (p.1, aff k b p.2)) =
      fun p => decide (t - w < p.1 ∧ p.1 ≤ t) := rfl
  rw [e2]
  generalize numbers ((raw.filter (fun p => decide (t - w < p.1 ∧ p.1 ≤ t))).map Prod.snd) = l
  cases l with
  | nil => rfl
  | cons a l =>
    rw [List.map_cons]
    simp only [aff]
    rw [← List.map_cons (f := fun x => k * x + b), sum_aff, List.length_map]
    have hpos : (0 : ℝ) < ((a :: l).length : ℝ) := by simp only [List.length_cons]; positivity
    congr 1
    field_simp

theorem smooth_aff (k b : ℝ) (half : Option Int) (raw : Series) : smooth half (affS k b raw) = affS k b (smooth half raw) := by
  cases half with
  | none => rfl
  | some h =>
    simp only [smooth]
    rw [show affS k b raw = raw.map (fun p => (p.1, aff k b p.2)) from rfl, List.map_map]
    simp only [affS, List.map_map]
    apply List.map_congr_left
    intro p _
    simp only [Function.comp_def, Prod.mk.injEq, true_and]
    exact rollMean_aff k b (2 * h) raw p.1

theorem trusted_aff (k b : ℝ) (y77 : Int) (name : String) (raw : Series) :
    trusted y77 name (affS k b raw) = affS k b (trusted y77 name raw) := by
  unfold trusted affS
  split
  · rw [List.filter_map]; rfl
  · rfl

theorem side_aff {k b : ℝ} (hk : 0 < k) (thr : ℝ) (x : Fl) : side (k * thr + b) (aff k b x) = side thr x := by
  unfold side
  cases x with
  | fin a =>
    simp only [aff, Fl.lt, Prod.mk.injEq, eq_iff_iff]
    constructor <;> constructor <;> intro h <;> nlinarith
  | nan => simp [aff, Fl.lt]
  | pinf => simp [aff, Fl.lt]
  | ninf => simp [aff, Fl.lt]

theorem aff_nan (k b : ℝ) (x : Fl) : aff k b x = .nan ↔ x = .nan := by cases x <;> simp [aff]

theorem crossingsFrom_aff {k b : ℝ} (hk : 0 < k) (thr : ℝ) : ∀ (l : Series) (prev : Fl),
    crossingsFrom (k * thr + b) (aff k b prev) (affS k b l) = crossingsFrom thr prev l
  | [], _ => rfl
  | (t, x) :: l, prev => by
    rw [show affS k b ((t, x) :: l) = (t, aff k b x) :: affS k b l from rfl, crossingsFrom, crossingsFrom, side_aff hk, side_aff hk,
      crossingsFrom_aff hk thr l x]
    simp only [ne_eq, aff_nan]

theorem crossings_aff {k b : ℝ} (hk : 0 < k) (thr : ℝ) (l : Series) : crossings (k * thr + b) (affS k b l) = crossings thr l := by
  cases l with
  | nil => rfl
  | cons p l =>
    obtain ⟨t, x⟩ := p
    rw [show affS k b ((t, x) :: l) = (t, aff k b x) :: affS k b l from rfl, crossings, crossings, crossingsFrom_aff hk]
    simp only [ne_eq, aff_nan]

theorem edges_aff (k b : ℝ) (raw : Series) (cr : List Int) : edges (affS k b raw) cr = edges raw cr := by
  unfold edges affS
  rw [List.head?_map, List.getLast?_map]
  cases cr.head? <;> cases cr.getLast? <;> cases raw.head? <;> cases raw.getLast? <;> rfl

theorem between_aff (k b : ℝ) (data : Series) (l r : Int) :
    between (affS k b data) l r = (between data l r).map (fun p => (p.1, k * p.2 + b)) := by
  unfold between affS
  induction data with
  | nil => rfl
  | cons p data ih =>
    obtain ⟨t, x⟩ := p
    rw [List.map_cons, List.filter_cons, List.filter_cons]
    by_cases h : l < t ∧ t ≤ r
    · rw [if_pos (by simpa using h), if_pos (by simpa using h), List.filterMap_cons, List.filterMap_cons, ih]
      cases x <;> simp [aff]
    · rw [if_neg (by simpa using h), if_neg (by simpa using h), ih]

theorem foldl_max_aff {k : ℝ} (hk : 0 < k) (b : ℝ) : ∀ (l : List ℝ) (a : ℝ),
    (l.map (fun x => k * x + b)).foldl max (k * a + b) = k * l.foldl max a + b
  | [], _ => rfl
  | x :: l, a => by
    rw [List.map_cons, List.foldl_cons, List.foldl_cons, ← foldl_max_aff hk b l]
    congr 1
    rcases le_total a x with h | h
    · rw [max_eq_right h, max_eq_right (by nlinarith)]
    · rw [max_eq_left h, max_eq_left (by nlinarith)]

theorem foldl_min_aff {k : ℝ} (hk : 0 < k) (b : ℝ) : ∀ (l : List ℝ) (a : ℝ),
    (l.map (fun x => k * x + b)).foldl min (k * a + b) = k * l.foldl min a + b
  | [], _ => rfl
  | x :: l, a => by
    rw [List.map_cons, List.foldl_cons, List.foldl_cons, ← foldl_min_aff hk b l]
    congr 1
    rcases le_total a x with h | h
    · rw [min_eq_left h, min_eq_left (by nlinarith)]
    · rw [min_eq_right h, min_eq_right (by nlinarith)]

noncomputable def affE (k b : ℝ) : Ext → Ext
  | .skip => .skip
  | .max v => .max (k * v + b)
  | .min v => .min (k * v + b)

theorem filter_len_aff {k : ℝ} (b thr : ℝ) (P Q : ℝ → Prop) [DecidablePred P] [DecidablePred Q] (h : ∀ x, P (k * x + b) ↔ Q x) (v : List ℝ) :
    ((v.map (fun x => k * x + b)).filter (fun x => decide (P x))).length = (v.filter (fun x => decide (Q x))).length := by
  rw [List.filter_map, List.length_map]
  congr 2
  funext x
  simp [h x]

theorem groupExtremum_aff {k : ℝ} (hk : 0 < k) (b thr : ℝ) (v : List ℝ) :
    groupExtremum (k * thr + b) (v.map (fun x => k * x + b)) = (groupExtremum thr v).map (affE k b) := by
  cases v with
  | nil => rfl
  | cons a l =>
    have e1 := filter_len_aff (k := k) b thr (fun x => k * thr + b < x) (fun x => thr < x)
      (fun x => ⟨fun h => by nlinarith, fun h => by nlinarith⟩) (a :: l)
    have e2 := filter_len_aff (k := k) b thr (fun x => ¬ k * thr + b < x) (fun x => ¬ thr < x)
      (fun x => ⟨fun h h' => h (by nlinarith), fun h h' => h (by nlinarith)⟩) (a :: l)
    rw [List.map_cons] at e1 e2 ⊢
    simp only [groupExtremum]
    rw [e1, e2, foldl_max_aff hk, foldl_min_aff hk]
    split <;> rfl

theorem find_aff {k : ℝ} (hk : 0 < k) (b v : ℝ) (g : List (Int × ℝ)) :
    (g.map (fun p => (p.1, k * p.2 + b))).find? (fun p => decide (p.2 = k * v + b)) =
      (g.find? (fun p => decide (p.2 = v))).map (fun p => (p.1, k * p.2 + b)) := by
  rw [List.find?_map]
  congr 2
  funext p
  have hi : (k * p.2 + b = k * v + b) ↔ p.2 = v :=
    ⟨fun h => mul_left_cancel₀ hk.ne' (by linarith), fun h => by rw [h]⟩
  simp only [Function.comp_def, hi]

theorem dated_aff {k : ℝ} (hk : 0 < k) (b thr : ℝ) (g : List (Int × ℝ)) :
    dated (k * thr + b) (g.map (fun p => (p.1, k * p.2 + b))) = dated thr g := by
  unfold dated
  have e : (g.map (fun p => (p.1, k * p.2 + b))).map Prod.snd = (g.map Prod.snd).map (fun x => k * x + b) := by simp [Function.comp_def]
  rw [e, groupExtremum_aff hk]
  cases h : groupExtremum thr (g.map Prod.snd) with
  | error e => rfl
  | ok x =>
    cases x with
    | skip => rfl
    | max v => simp only [Except.map, affE]; rw [find_aff hk, Option.map_map]; rfl
    | min v => simp only [Except.map, affE]; rw [find_aff hk, Option.map_map]; rfl

theorem cells_aff (k b : ℝ) (data : Series) : ∀ es : List Int,
    cells (affS k b data) es = (cells data es).map (fun g => g.map (fun p => (p.1, k * p.2 + b)))
  | [] => rfl
  | [_] => rfl
  | l :: r :: rest => by rw [cells, cells, List.map_cons, between_aff, cells_aff k b data (r :: rest)]

theorem mapM_congr_map {α β γ : Type} (f : α → Except PyErr γ) (g : β → Except PyErr γ) (m : α → β) (h : ∀ a, g (m a) = f a) :
    ∀ l : List α, (l.map m).mapM g = l.mapM f
  | [] => rfl
  | a :: l => by rw [List.map_cons, List.mapM_cons, List.mapM_cons, h a, mapM_congr_map f g m h l]

theorem candidates_aff {k : ℝ} (hk : 0 < k) (b thr : ℝ) (data : Series) (es : List Int) :
    candidates (k * thr + b) (affS k b data) es = candidates thr data es := by
  unfold candidates
  rw [cells_aff, mapM_congr_map (dated thr) (dated (k * thr + b)) _ (dated_aff hk b thr)]

/-- C205: the dates do not depend on the unit (or zero point) in which the index and the threshold are given. -/
theorem C205_units (y77 sep : Int) (name : String) (raw : Series) (thr k b : ℝ) (half : Option Int) (hk : 0 < k) :
    extremaTable y77 sep name (raw.map (fun p => (p.1, aff k b p.2))) (some (.number (k * thr + b))) half =
      extremaTable y77 sep name raw (some (.number thr)) half := by
  have e := trusted_aff k b y77 name raw
  unfold affS at e
  unfold extremaTable
  rw [e]
  have e2 := smooth_aff k b half (trusted y77 name raw)
  unfold affS at e2
  simp only [e2, threshold, Option.getD_some]
  have e3 := crossings_aff (b := b) hk thr (smooth half (trusted y77 name raw))
  have e4 := edges_aff k b (trusted y77 name raw) (crossings thr (smooth half (trusted y77 name raw)))
  have e5 := candidates_aff hk b thr (smooth half (trusted y77 name raw))
  unfold affS at e3 e4 e5
  simp only [e3, e4, e5]

/-- C205: five of the Ca K quantities are refused, whatever the data and the threshold. -/
theorem C205_names (y77 sep : Int) (name : String) (raw : Series) (thr : Option Thr) (half : Option Int) :
    name ∈ ["delk1", "delk2", "delwb", "k2vk3", "viored"] → extremaTable y77 sep name raw thr half = .error .valueError := by
  intro h
  unfold extremaTable nameOk
  rw [if_pos (by revert h; simp only [List.mem_cons, List.not_mem_nil, or_false]; tauto)]

/-! ### the intervals -/

/-- specification: a measured sample (not missing) that is the first one or lies on another side of the threshold than the one before it -/
def Crosses (thr : ℝ) (data : Series) (t : Int) : Prop :=
  ∃ pre x post, data = pre ++ (t, x) :: post ∧ x ≠ .nan ∧
    ∀ s y, pre.getLast? = some (s, y) → ¬ ((Fl.lt (.fin thr) y ↔ Fl.lt (.fin thr) x) ∧ (Fl.lt y (.fin thr) ↔ Fl.lt x (.fin thr)))

theorem side_ne {thr : ℝ} {x y : Fl} :
    side thr x ≠ side thr y ↔ ¬ ((Fl.lt (.fin thr) y ↔ Fl.lt (.fin thr) x) ∧ (Fl.lt y (.fin thr) ↔ Fl.lt x (.fin thr))) := by
  unfold side
  simp only [ne_eq, Prod.mk.injEq, eq_iff_iff]
  tauto

theorem mem_crossingsFrom (thr : ℝ) (t : Int) : ∀ (l : Series) (s0 : Int) (prev : Fl), t ∈ crossingsFrom thr prev l ↔
    ∃ pre x post, l = pre ++ (t, x) :: post ∧ x ≠ .nan ∧
      ∀ s y, ((s0, prev) :: pre).getLast? = some (s, y) →
        ¬ ((Fl.lt (.fin thr) y ↔ Fl.lt (.fin thr) x) ∧ (Fl.lt y (.fin thr) ↔ Fl.lt x (.fin thr)))
  | [], s0, prev => by simp [crossingsFrom]
  | (u, w) :: l, s0, prev => by
    have ih := mem_crossingsFrom thr t l u w
    have hsplit : t ∈ crossingsFrom thr prev ((u, w) :: l) ↔ (t = u ∧ side thr w ≠ side thr prev ∧ w ≠ .nan) ∨ t ∈ crossingsFrom thr w l := by
      rw [crossingsFrom]
      by_cases hc : side thr w ≠ side thr prev ∧ w ≠ .nan
      · rw [if_pos hc, List.mem_cons]; tauto
      · rw [if_neg hc]; tauto
    rw [hsplit, ih]
    constructor
    · rintro (⟨rfl, h1, h2⟩ | ⟨pre, x, post, rfl, h1, h2⟩)
      · refine ⟨[], w, l, rfl, h2, ?_⟩
        intro s y e
        simp only [List.getLast?_singleton, Option.some.injEq, Prod.mk.injEq] at e
        rw [← e.2]; exact side_ne.mp h1
      · refine ⟨(u, w) :: pre, x, post, rfl, h1, ?_⟩
        intro s y e
        rw [List.getLast?_cons_cons] at e
        exact h2 s y e
    · rintro ⟨pre, x, post, e, h1, h2⟩
      cases pre with
      | nil =>
        left
        simp only [List.nil_append, List.cons.injEq, Prod.mk.injEq] at e
        obtain ⟨⟨rfl, rfl⟩, -⟩ := e
        exact ⟨rfl, side_ne.mpr (h2 s0 prev rfl), h1⟩
      | cons p pre =>
        right
        simp only [List.cons_append, List.cons.injEq] at e
        obtain ⟨rfl, rfl⟩ := e
        refine ⟨pre, x, post, rfl, h1, ?_⟩
        intro s y e
        exact h2 s y (by rw [List.getLast?_cons_cons]; exact e)

theorem crossingsFrom_sublist (thr : ℝ) : ∀ (l : Series) (prev : Fl), (crossingsFrom thr prev l).Sublist (l.map Prod.fst)
  | [], _ => by simp [crossingsFrom]
  | (u, w) :: l, prev => by
    rw [crossingsFrom, List.map_cons]
    split
    · exact (crossingsFrom_sublist thr l w).cons₂ u
    · exact (crossingsFrom_sublist thr l w).cons u

/-- C205: the threshold is crossed at exactly the measured samples that are first or change sides, in the order of the samples. -/
theorem C205_crossings (thr : ℝ) (data : Series) :
    (∀ t, t ∈ crossings thr data ↔ Crosses thr data t) ∧ (crossings thr data).Sublist (data.map Prod.fst) := by
  cases data with
  | nil =>
    refine ⟨fun t => ?_, by simp [crossings]⟩
    simp only [crossings, List.not_mem_nil, false_iff]
    rintro ⟨pre, x, post, e, -⟩
    cases pre <;> cases e
  | cons p l =>
    obtain ⟨u, w⟩ := p
    constructor
    · intro t
      rw [crossings, List.mem_append, mem_crossingsFrom thr t l u w]
      constructor
      · rintro (h | ⟨pre, x, post, rfl, h1, h2⟩)
        · split at h
          · rename_i hw
            rw [List.mem_singleton] at h; subst h
            exact ⟨[], w, l, rfl, hw, fun s y e => by cases e⟩
          · simp at h
        · exact ⟨(u, w) :: pre, x, post, rfl, h1, h2⟩
      · rintro ⟨pre, x, post, e, h1, h2⟩
        cases pre with
        | nil =>
          left
          simp only [List.nil_append, List.cons.injEq, Prod.mk.injEq] at e
          obtain ⟨⟨rfl, rfl⟩, -⟩ := e
          rw [if_pos h1]; simp
        | cons p pre =>
          right
          simp only [List.cons_append, List.cons.injEq] at e
          obtain ⟨rfl, rfl⟩ := e
          exact ⟨pre, x, post, rfl, h1, h2⟩
    · rw [crossings, List.map_cons]
      split
      · exact (crossingsFrom_sublist thr l w).cons₂ u
      · exact (crossingsFrom_sublist thr l w).cons u

theorem pairwise_head_last {l : List Int} (h : l.Pairwise (· < ·)) {a b : Int} (ha : l.head? = some a) (hb : l.getLast? = some b) :
    ∀ c ∈ l, a ≤ c ∧ c ≤ b := by
  intro c hc
  constructor
  · cases l with
    | nil => simp at hc
    | cons x l =>
      simp only [List.head?_cons, Option.some.injEq] at ha
      subst ha
      rcases List.mem_cons.mp hc with rfl | hc
      · exact le_refl _
      · exact ((List.pairwise_cons.mp h).1 c hc).le
  · obtain ⟨l', rfl⟩ := List.getLast?_eq_some_iff.mp hb
    rcases List.mem_append.mp hc with hc | hc
    · exact ((List.pairwise_append.mp h).2.2 c hc b (by simp)).le
    · rw [List.mem_singleton] at hc; exact hc.le

/-- C205: the intervals begin and end at the crossings, and at the first (last) measurement if that lies before (after) all crossings; without
crossing the search is an IndexError. -/
theorem C205_edges (raw : Series) (cr : List Int) (f z : Int) (x y : Fl) (hf : raw.head? = some (f, x)) (hz : raw.getLast? = some (z, y))
    (hfz : f ≤ z) (hcr : cr.Pairwise (· < ·)) :
    (cr = [] → edges raw cr = .error .indexError) ∧
    (cr ≠ [] → ∃ es, edges raw cr = .ok es ∧ es.Pairwise (· < ·) ∧
      ∀ e, e ∈ es ↔ e ∈ cr ∨ (e = f ∧ ∀ c ∈ cr, f < c) ∨ (e = z ∧ ∀ c ∈ cr, c < z)) := by
  constructor
  · rintro rfl; rfl
  · intro hne
    obtain ⟨c0, h0⟩ : ∃ c0, cr.head? = some c0 := by cases cr with
      | nil => exact absurd rfl hne
      | cons a l => exact ⟨a, rfl⟩
    obtain ⟨c1, h1⟩ : ∃ c1, cr.getLast? = some c1 := ⟨_, List.getLast?_eq_some_getLast hne⟩
    have hb := pairwise_head_last hcr h0 h1
    have m0 : c0 ∈ cr := List.mem_of_head? h0
    have m1 : c1 ∈ cr := List.mem_of_getLast? h1
    have hall : (∀ c ∈ cr, f < c) ↔ f < c0 := ⟨fun h => h c0 m0, fun h c hc => lt_of_lt_of_le h (hb c hc).1⟩
    have hall' : (∀ c ∈ cr, c < z) ↔ c1 < z := ⟨fun h => h c1 m1, fun h c hc => lt_of_le_of_lt (hb c hc).2 h⟩
    have hB : (if c1 < z then cr ++ [z] else cr).Pairwise (· < ·) ∧ ∀ e, e ∈ (if c1 < z then cr ++ [z] else cr) ↔ e ∈ cr ∨ (e = z ∧ c1 < z) := by
      split
      · rename_i h
        refine ⟨List.pairwise_append.mpr ⟨hcr, by simp, ?_⟩, by simp [h]⟩
        intro a ha b hb'
        rw [List.mem_singleton] at hb'; subst hb'
        exact lt_of_le_of_lt (hb a ha).2 h
      · rename_i h
        exact ⟨hcr, by simp [h]⟩
    refine ⟨_, by unfold edges; rw [h0, h1, hf, hz], ?_, ?_⟩
    · simp only []
      split
      · rename_i h
        refine List.pairwise_cons.mpr ⟨?_, hB.1⟩
        intro e he
        rcases (hB.2 e).mp he with he | ⟨rfl, he⟩
        · exact hall.mpr h e he
        · have := (hb c0 m0).2; omega
      · exact hB.1
    · intro e
      rw [hall, hall']
      simp only []
      split
      · rename_i h
        rw [List.mem_cons, hB.2 e]; tauto
      · rename_i h
        rw [hB.2 e]; tauto

theorem mapM_ok_of_mem {α β : Type} (f : α → Except PyErr β) : ∀ (l : List α) (r : List β), l.mapM f = .ok r → ∀ x ∈ l, ∃ y ∈ r, f x = .ok y
  | [], r, h, x, hx => by simp at hx
  | a :: l, r, h, x, hx => by
    rw [List.mapM_cons] at h
    cases ha : f a with
    | error e => rw [ha] at h; cases h
    | ok b =>
      cases hl : l.mapM f with
      | error e => rw [ha, hl] at h; cases h
      | ok bs =>
        rw [ha, hl] at h
        cases h
        rcases List.mem_cons.mp hx with rfl | hx
        · exact ⟨b, by simp, ha⟩
        · obtain ⟨z, hz, e⟩ := mapM_ok_of_mem f l bs hl x hx
          exact ⟨z, List.mem_cons_of_mem _ hz, e⟩

theorem mem_cells {data : Series} {l r : Int} : ∀ {es : List Int}, [l, r] <:+: es → between data l r ∈ cells data es
  | [], h => by have := h.length_le; simp at this
  | [_], h => by have := h.length_le; simp at this
  | a :: b :: rest, h => by
    rw [cells]
    obtain ⟨p, q, e⟩ := h
    cases p with
    | nil =>
      simp only [List.nil_append, List.cons_append, List.cons.injEq] at e
      obtain ⟨rfl, rfl, -⟩ := e
      simp
    | cons c p =>
      simp only [List.cons_append, List.cons.injEq] at e
      exact List.mem_cons_of_mem _ (mem_cells ⟨p, q, e.2⟩)

theorem dated_of {thr : ℝ} {g : List (Int × ℝ)} {v : ℝ} (k : Bool)
    (h : groupExtremum thr (g.map Prod.snd) = .ok (if k then .max v else .min v)) (hv : v ∈ g.map Prod.snd) :
    ∃ d, dated thr g = .ok (some (k, d)) ∧ (d, v) ∈ g := by
  cases hf : g.find? (fun p => decide (p.2 = v)) with
  | none =>
    rw [List.find?_eq_none] at hf
    rw [List.mem_map] at hv
    obtain ⟨p, hp, e⟩ := hv
    exact absurd (by simpa using e) (hf p hp)
  | some p =>
    have hp := List.find?_some hf
    simp only [decide_eq_true_eq] at hp
    refine ⟨p.1, ?_, by rw [← hp]; exact List.mem_of_find?_eq_some hf⟩
    unfold dated
    rw [h]
    cases k <;> simp [hf]

/-- the extremum of one interval is reported -/
theorem candidates_mem {thr : ℝ} {data : Series} {es mx mn : List Int} (h : candidates thr data es = .ok (mx, mn)) {l r : Int}
    (hlr : [l, r] <:+: es) {k : Bool} {d : Int} (hd : dated thr (between data l r) = .ok (some (k, d))) : d ∈ (if k then mx else mn) := by
  unfold candidates at h
  cases hm : (cells data es).mapM (dated thr) with
  | error e => rw [hm] at h; cases h
  | ok ds =>
    rw [hm] at h
    injection h with h
    injection h with h1 h2
    obtain ⟨y, hy, e⟩ := mapM_ok_of_mem _ _ _ hm _ (mem_cells (data := data) hlr)
    rw [hd] at e
    injection e with e
    subst e
    cases k
    · simp only [Bool.false_eq_true, if_false, ← h2, List.mem_filterMap]
      exact ⟨_, hy, by simp⟩
    · simp only [if_true, ← h1, List.mem_filterMap]
      exact ⟨_, hy, by simp⟩

theorem between_values (data : Series) (l r : Int) : (between data l r).map Prod.snd = measuredIn data l r := by
  unfold between measuredIn
  induction data with
  | nil => rfl
  | cons p d ih =>
    obtain ⟨t, x⟩ := p
    rw [List.filter_cons, List.filterMap_cons]
    by_cases h : l < t ∧ t ≤ r
    · rw [if_pos (by simpa using h), List.filterMap_cons]
      cases x <;> simp [h] <;> simpa using ih
    · rw [if_neg (by simpa using h), ih]
      cases x <;> simp only [if_neg h]

/-- C205: no interval is forgotten: if all measured samples of an interval (there are some) lie above the threshold, or all but one of at least
three, a maximum of that interval is reported; otherwise, if they all (or all but one of at least three) do not, a minimum. -/
theorem C205_complete (thr : ℝ) (data : Series) (es mx mn : List Int) (h : candidates thr data es = .ok (mx, mn))
    (l r : Int) (hlr : [l, r] <:+: es) (hne : measuredIn data l r ≠ []) :
    let v := measuredIn data l r
    ((below thr v = 0 ∨ (2 ≤ above thr v ∧ below thr v = 1)) → ∃ d ∈ mx, l < d ∧ d ≤ r) ∧
    ((above thr v = 0 ∨ (2 ≤ below thr v ∧ above thr v = 1)) → ∃ d ∈ mn, l < d ∧ d ≤ r) := by
  rw [← between_values] at hne ⊢
  intro v
  obtain ⟨a, t, hv⟩ : ∃ a t, v = a :: t := by
    cases hb : between data l r with
    | nil => rw [hb] at hne; exact absurd rfl hne
    | cons p q => exact ⟨p.2, q.map Prod.snd, by simp [v, hb]⟩
  obtain ⟨c1, c2, -⟩ := C116_group thr a t
  simp only [← hv] at c1 c2
  constructor
  · intro hc
    obtain ⟨M, e, hM, -⟩ := c1 hc
    obtain ⟨d, e', hd⟩ := dated_of true (by simpa [v] using e) hM
    have := candidates_mem h hlr e'
    exact ⟨d, by simpa using this, (mem_between.mp hd).2⟩
  · intro hc
    obtain ⟨M, e, hM, -⟩ := c2 hc
    obtain ⟨d, e', hd⟩ := dated_of false (by simpa [v] using e) hM
    have := candidates_mem h hlr e'
    exact ⟨d, by simpa using this, (mem_between.mp hd).2⟩

/-- C205: measurements of Ca K quantities before 1977 have no influence; of the other quantities all count. -/
theorem C205_trusted (y77 sep : Int) (name : String) (raw raw' : Series) (thr : Option Thr) (half : Option Int)
    (hk : name ∈ ["delk1", "delk2", "delwb", "emdx", "k2vk3", "k3", "viored"])
    (h : raw.filter (fun p => decide (y77 ≤ p.1)) = raw'.filter (fun p => decide (y77 ≤ p.1))) :
    extremaTable y77 sep name raw thr half = extremaTable y77 sep name raw' thr half := by
  have : trusted y77 name raw = trusted y77 name raw' := by
    unfold trusted; rw [if_pos hk, if_pos hk]; exact h
  unfold extremaTable
  rw [this]

/-! ### extrema before the first measurement -/

/-- eight measurements: four days above zero, a gap, four days below -/
noncomputable def exRaw : Series := [(0, .fin 5), (1, .fin 7), (2, .fin 5), (3, .fin 5), (3000, .fin (-5)), (3001, .fin (-7)), (3002, .fin (-5)),
  (3003, .fin (-5))]

theorem exSmooth : smooth (some 300) exRaw = [(-300, .fin 5), (-299, .fin 6), (-298, .fin (17 / 3)), (-297, .fin (11 / 2)), (2700, .fin (-5)),
    (2701, .fin (-6)), (2702, .fin (-(17 / 3))), (2703, .fin (-(11 / 2)))] := by
  simp [smooth, exRaw, rollMean, numbers]
  norm_num

theorem exCrossings : crossings 0 [(-300, .fin 5), (-299, .fin 6), (-298, .fin (17 / 3)), (-297, .fin (11 / 2)), (2700, .fin (-5)),
    (2701, .fin (-6)), (2702, .fin (-(17 / 3))), (2703, .fin (-(11 / 2)))] = [-300, 2700] := by
  have p1 : ∀ x : ℝ, 0 < x → side 0 (.fin x) = (True, False) := by
    intro x hx
    simp only [side, Fl.lt, Prod.mk.injEq, eq_iff_iff, iff_true, iff_false]
    exact ⟨hx, not_lt.mpr hx.le⟩
  have p2 : ∀ x : ℝ, x < 0 → side 0 (.fin x) = (False, True) := by
    intro x hx
    simp only [side, Fl.lt, Prod.mk.injEq, eq_iff_iff, iff_true, iff_false]
    exact ⟨not_lt.mpr hx.le, hx⟩
  simp only [crossings, crossingsFrom]
  rw [p1 5 (by norm_num), p1 6 (by norm_num), p1 (17 / 3) (by norm_num), p1 (11 / 2) (by norm_num), p2 (-5) (by norm_num),
    p2 (-6) (by norm_num), p2 (-(17 / 3)) (by norm_num), p2 (-(11 / 2)) (by norm_num)]
  simp

/-- C205 (violated: an extremum belongs to the measured time span): with the default window of 600 days the only maximum of this series is
dated 299 days before its first measurement. -/
theorem C205_early (y77 : Int) :
    extremaTable y77 1000 "index" exRaw (some (.number 0)) (some 300) = .ok [⟨-1, none, some (-299)⟩, ⟨0, some 2701, none⟩] ∧
    ∀ p ∈ exRaw, 0 ≤ p.1 := by
  constructor
  · have h1 : nameOk "index" = .ok () := by unfold nameOk; rw [if_neg (by decide)]
    have h2 : trusted y77 "index" exRaw = exRaw := by unfold trusted; rw [if_neg (by decide)]
    unfold extremaTable
    rw [h1]
    simp only [h2, exSmooth, threshold, Option.getD_some, exCrossings]
    have h3 : edges exRaw [-300, 2700] = .ok [-300, 2700, 3003] := by
      simp [edges, exRaw]
    simp only [h3]
    have h4 : candidates 0 [(-300, .fin 5), (-299, .fin 6), (-298, .fin (17 / 3)), (-297, .fin (11 / 2)), (2700, .fin (-5)),
        (2701, .fin (-6)), (2702, .fin (-(17 / 3))), (2703, .fin (-(11 / 2)))] [-300, 2700, 3003] = .ok ([-299], [2701]) := by
      have g1 : dated 0 [(-299, (6 : ℝ)), (-298, 17 / 3), (-297, 11 / 2), (2700, -5)] = .ok (some (true, -299)) := by
        simp [dated, groupExtremum, List.filter_cons, List.find?_cons]
        norm_num
      have g2 : dated 0 [(2701, (-6 : ℝ)), (2702, -(17 / 3)), (2703, -(11 / 2))] = .ok (some (false, 2701)) := by
        simp [dated, groupExtremum, List.filter_cons, List.find?_cons]
        norm_num
      simp only [candidates, cells, between]
      simp only [List.filter_cons, List.filterMap_cons]
      simp
      rw [g1, g2]
      simp [bind, Except.bind, pure, Except.pure]
    simp only [h4]
    have h5 : validateBoth 1000 "index" [-299] [2701] = .ok ([-299], [2701]) := by
      simp [validateBoth, trim, validate, keepAfter, bind, Except.bind, pure, Except.pure]
    simp only [h5]
    simp [formatExtrema]
  · intro p hp
    simp only [exRaw, List.mem_cons, List.not_mem_nil, or_false] at hp
    rcases hp with rfl | rfl | rfl | rfl | rfl | rfl | rfl | rfl <;> decide

end Act
end SW
