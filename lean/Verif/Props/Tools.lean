import Verif.Tools

/-!
# C59: proton populations are swapped exactly where the beam is denser
-/

namespace SW
namespace Swap

open _root_.SW.Frame
open Classical

/-- what the user must supply: unique labels, the same measurements for both populations in the same order, one density each -/
structure Ready {ι : Type} (f : Frame ι) (v1 v2 : ι → Fl) : Prop where
  nodup : f.cols.Nodup
  same : ((f.filter (fun p => p.1.s = "p1")).map (fun p => (p.1.m, p.1.c))) =
         ((f.filter (fun p => p.1.s = "p2")).map (fun p => (p.1.m, p.1.c)))
  only : ∀ c ∈ f.cols, (c.s = "p1" ∨ c.s = "p2") → c.m = "n" → c.c = ""
  n1 : f.get ⟨"n", "", "p1"⟩ = some v1
  n2 : f.get ⟨"n", "", "p2"⟩ = some v2

variable {ι : Type}

theorem mem_of_get {f : Frame ι} {c : Col} {v} (h : f.get c = some v) : (c, v) ∈ f := by
  unfold Frame.get at h
  cases hf : f.find? (fun p => p.1 = c) with
  | none => rw [hf] at h; cases h
  | some p =>
    rw [hf] at h
    have h1 := List.mem_of_find?_eq_some hf
    have h2 := List.find?_some hf
    simp only [decide_eq_true_eq] at h2
    simp only [Option.map_some, Option.some.injEq] at h
    rw [← h, ← h2]
    exact h1

theorem get_of_mem {f : Frame ι} (hn : f.cols.Nodup) {c : Col} {v} (h : (c, v) ∈ f) : f.get c = some v := by
  induction f with
  | nil => simp at h
  | cons p f ih =>
    simp only [Frame.cols, List.map_cons, List.nodup_cons] at hn
    rw [Frame.get_cons]
    rcases List.mem_cons.mp h with h | h
    · rw [← h]; simp
    · have : p.1 ≠ c := fun he => hn.1 (List.mem_map.mpr ⟨_, h, he.symm⟩)
      rw [if_neg this]
      exact ih hn.2 h

/-- the columns of one species with `(M, C)` labels -/
noncomputable def part (f : Frame ι) (s : String) : List ((String × String) × (ι → Fl)) :=
  (f.filter (fun p => p.1.s = s)).map (fun p => ((p.1.m, p.1.c), p.2))

theorem mem_part {f : Frame ι} {s m c : String} {v : ι → Fl} : ((m, c), v) ∈ part f s ↔ (⟨m, c, s⟩, v) ∈ f := by
  unfold part
  constructor
  · intro h
    obtain ⟨⟨⟨m', c', s'⟩, v'⟩, hp, he⟩ := List.mem_map.mp h
    obtain ⟨h1, h2⟩ := List.mem_filter.mp hp
    simp only [decide_eq_true_eq] at h2
    simp only [Prod.mk.injEq] at he
    obtain ⟨⟨rfl, rfl⟩, rfl⟩ := he
    subst h2
    exact h1
  · intro h
    exact List.mem_map.mpr ⟨_, List.mem_filter.mpr ⟨h, by simp⟩, rfl⟩

theorem part_nodup {f : Frame ι} (hn : f.cols.Nodup) (s : String) : ((part f s).map Prod.fst).Nodup := by
  unfold part
  rw [List.map_map]
  have h1 : ((f.filter (fun p => p.1.s = s)).map Prod.fst).Nodup := hn.sublist ((List.filter_sublist).map _)
  have h2 : (f.filter (fun p => p.1.s = s)).map (Prod.fst ∘ fun p => ((p.1.m, p.1.c), p.2)) =
      ((f.filter (fun p => p.1.s = s)).map Prod.fst).map (fun c => (c.m, c.c)) := by rw [List.map_map]; rfl
  rw [h2]
  refine List.Nodup.map_on ?_ h1
  rintro ⟨m, c, s1⟩ hx ⟨m', c', s2⟩ hy he
  obtain ⟨x, hx1, hx2⟩ := List.mem_map.mp hx
  obtain ⟨y, hy1, hy2⟩ := List.mem_map.mp hy
  have e1 := (List.mem_filter.mp hx1).2
  have e2 := (List.mem_filter.mp hy1).2
  simp only [decide_eq_true_eq] at e1 e2
  rw [hx2] at e1
  rw [hy2] at e2
  simp only [Prod.mk.injEq] at he e1 e2
  simp only [Col.mk.injEq]
  exact ⟨he.1, he.2, e1.trans e2.symm⟩

theorem xs_ok {f : Frame ι} {s : String} (h : ∃ m c, ⟨m, c, s⟩ ∈ f.cols) : xs f s = .ok (part f s) := by
  unfold xs
  obtain ⟨m, c, h⟩ := h
  rw [if_pos (List.mem_map.mpr ⟨_, h, rfl⟩)]
  rfl

theorem density_ok {p : List ((String × String) × (ι → Fl))} {v : ι → Fl} (hn : (p.map Prod.fst).Nodup)
    (h : (("n", ""), v) ∈ p) (ho : ∀ q ∈ p, q.1.1 = "n" → q.1.2 = "") : density p = .ok v := by
  unfold density
  cases hf : p.find? (fun q => q.1.1 = "n") with
  | none =>
    have := List.find?_eq_none.mp hf _ h
    simp at this
  | some q =>
    have h1 := List.mem_of_find?_eq_some hf
    have h2 := List.find?_some hf
    simp only [decide_eq_true_eq] at h2
    have h3 := ho q h1 h2
    simp only [h3, if_true]
    obtain ⟨⟨a, b⟩, w⟩ := q
    simp only at h2 h3
    subst h2 h3
    have : w = v := by
      have := List.inj_on_of_nodup_map hn h1 h rfl
      exact (Prod.mk.injEq _ _ _ _ ▸ this).2
    rw [this]

theorem mem_exchange {p q : List ((String × String) × (ι → Fl))} (hl : p.map Prod.fst = q.map Prod.fst)
    (hn : (p.map Prod.fst).Nodup) (swap : ι → Prop) {k : String × String} {a b : ι → Fl}
    (ha : (k, a) ∈ p) (hb : (k, b) ∈ q) : (k, fun i => if swap i then b i else a i) ∈ exchange swap p q := by
  induction p generalizing q with
  | nil => simp at ha
  | cons x p ih =>
    cases q with
    | nil => simp at hl
    | cons y q =>
      simp only [List.map_cons, List.cons.injEq] at hl
      simp only [List.map_cons, List.nodup_cons] at hn
      rw [exchange, List.zipWith_cons_cons]
      rcases List.mem_cons.mp ha with ha | ha
      · rcases List.mem_cons.mp hb with hb | hb
        · rw [← ha, ← hb]; simp
        · exfalso
          apply hn.1
          rw [hl.2, ← ha]
          exact List.mem_map.mpr ⟨_, hb, rfl⟩
      · rcases List.mem_cons.mp hb with hb | hb
        · exfalso
          apply hn.1
          rw [hl.1, ← hb]
          exact List.mem_map.mpr ⟨_, ha, rfl⟩
        · exact List.mem_cons_of_mem _ (ih hl.2 hn.2 ha hb)

theorem exchange_keys {p q : List ((String × String) × (ι → Fl))} (hl : p.map Prod.fst = q.map Prod.fst) (swap : ι → Prop) :
    (exchange swap p q).map Prod.fst = p.map Prod.fst := by
  induction p generalizing q with
  | nil => rfl
  | cons x p ih =>
    cases q with
    | nil => simp at hl
    | cons y q =>
      simp only [List.map_cons, List.cons.injEq] at hl
      rw [exchange, List.zipWith_cons_cons, List.map_cons, List.map_cons]
      have := ih hl.2
      rw [exchange] at this
      rw [this]

theorem relabel_cols (s : String) (p : List ((String × String) × (ι → Fl))) :
    (relabel s p).cols = (p.map Prod.fst).map (fun k => ⟨k.1, k.2, s⟩) := by
  unfold relabel Frame.cols
  rw [List.map_map, List.map_map]
  rfl

theorem twin {g : Frame ι} (hsame : ((g.filter (fun p => p.1.s = "p1")).map (fun p => (p.1.m, p.1.c))) =
    ((g.filter (fun p => p.1.s = "p2")).map (fun p => (p.1.m, p.1.c)))) {m c s t : String}
    (hst : (s = "p1" ∧ t = "p2") ∨ (s = "p2" ∧ t = "p1")) (h : (⟨m, c, s⟩ : Col) ∈ g.cols) : (⟨m, c, t⟩ : Col) ∈ g.cols := by
  have hiff : ∀ s, (⟨m, c, s⟩ : Col) ∈ g.cols ↔ (m, c) ∈ (g.filter (fun p => p.1.s = s)).map (fun p => (p.1.m, p.1.c)) := by
    intro s
    rw [Frame.mem_cols]
    constructor
    · rintro ⟨v, hv⟩
      exact List.mem_map.mpr ⟨_, List.mem_filter.mpr ⟨hv, by simp⟩, rfl⟩
    · intro h
      obtain ⟨⟨⟨m', c', s'⟩, v⟩, hp, he⟩ := List.mem_map.mp h
      have e := (List.mem_filter.mp hp).2
      simp only [decide_eq_true_eq] at e
      simp only [Prod.mk.injEq] at he
      obtain ⟨rfl, rfl⟩ := he
      subst e
      exact ⟨v, (List.mem_filter.mp hp).1⟩
  rw [hiff] at h ⊢
  rcases hst with ⟨rfl, rfl⟩ | ⟨rfl, rfl⟩
  · rw [← hsame]; exact h
  · rw [hsame]; exact h

/-- the result of a swap, column by column -/
structure Swapped (f g : Frame ι) (swap : ι → Prop) : Prop where
  p1 : ∀ m c a b, f.get ⟨m, c, "p1"⟩ = some a → f.get ⟨m, c, "p2"⟩ = some b →
    g.get ⟨m, c, "p1"⟩ = some (fun i => if swap i then b i else a i)
  p2 : ∀ m c a b, f.get ⟨m, c, "p1"⟩ = some a → f.get ⟨m, c, "p2"⟩ = some b →
    g.get ⟨m, c, "p2"⟩ = some (fun i => if swap i then a i else b i)
  rest : ∀ k, k.s ≠ "p1" → k.s ≠ "p2" → k ≠ swappedCol → g.get k = f.get k
  cols : ∀ k, k ∈ g.cols ↔ (k ∈ f.cols ∨ k = swappedCol)
  count : g.length = f.length + 1
  flag : swappedCol ∉ f.cols → g.get swappedCol = some (fun i => if swap i then Fl.fin 1 else Fl.fin 0)

theorem check_always (x : Fl) : checkRow (x / x) := by
  cases x with
  | nan => exact Or.inl trivial
  | pinf => exact Or.inl trivial
  | ninf => exact Or.inl trivial
  | fin a =>
    by_cases h : a = 0
    · subst h; left; show Fl.isNaN (Fl.div _ _); simp [Fl.div, Fl.isNaN]
    · right; rw [Fl.fin_div a a h, div_self h]; exact le_refl (1 : ℝ)

theorem swap_main {f : Frame ι} {v1 v2 : ι → Fl} (h : Ready f v1 v2) :
    ∃ g swap, swapProtons f = .ok (g, swap) ∧ (∀ i, swap i ↔ Fl.lt 1 (v2 i / v1 i)) ∧ Swapped f g swap ∧
      (swappedCol ∉ f.cols → g.cols.Nodup) ∧
      ((g.filter (fun p => p.1.s = "p1")).map (fun p => (p.1.m, p.1.c))) =
         ((g.filter (fun p => p.1.s = "p2")).map (fun p => (p.1.m, p.1.c))) := by
  have m1 := mem_of_get h.n1
  have m2 := mem_of_get h.n2
  have x1 : xs f "p1" = .ok (part f "p1") := xs_ok ⟨_, _, List.mem_map.mpr ⟨_, m1, rfl⟩⟩
  have x2 : xs f "p2" = .ok (part f "p2") := xs_ok ⟨_, _, List.mem_map.mpr ⟨_, m2, rfl⟩⟩
  have o : ∀ s, (s = "p1" ∨ s = "p2") → ∀ q ∈ part f s, q.1.1 = "n" → q.1.2 = "" := by
    rintro s hs ⟨⟨m, c⟩, v⟩ hq hm
    exact h.only ⟨m, c, s⟩ (List.mem_map.mpr ⟨_, mem_part.mp hq, rfl⟩) hs hm
  have d1 := density_ok (part_nodup h.nodup "p1") (mem_part.mpr m1) (o _ (Or.inl rfl))
  have d2 := density_ok (part_nodup h.nodup "p2") (mem_part.mpr m2) (o _ (Or.inr rfl))
  have hl : (part f "p1").map Prod.fst = (part f "p2").map Prod.fst := by
    have := h.same
    unfold part
    rw [List.map_map, List.map_map]
    exact this
  obtain ⟨swap, hsw⟩ : ∃ s, s = swapMask v1 v2 := ⟨_, rfl⟩
  obtain ⟨g, hg⟩ : ∃ g : Frame ι, g = f.filter (fun p => p.1.s ≠ "p1" ∧ p.1.s ≠ "p2") ++
      relabel "p1" (exchange swap (part f "p1") (part f "p2")) ++
      relabel "p2" (exchange swap (part f "p2") (part f "p1")) ++ [(swappedCol, asFl swap)] := ⟨_, rfl⟩
  have c1 : (relabel "p1" (exchange swap (part f "p1") (part f "p2"))).cols =
      ((part f "p1").map Prod.fst).map (fun k => ⟨k.1, k.2, "p1"⟩) := by rw [relabel_cols, exchange_keys hl]
  have c2 : (relabel "p2" (exchange swap (part f "p2") (part f "p1"))).cols =
      ((part f "p2").map Prod.fst).map (fun k => ⟨k.1, k.2, "p2"⟩) := by rw [relabel_cols, exchange_keys hl.symm]
  have n1 : (relabel "p1" (exchange swap (part f "p1") (part f "p2"))).cols.Nodup := by
    rw [c1]
    refine List.Nodup.map ?_ (part_nodup h.nodup "p1")
    rintro ⟨a, b⟩ ⟨a', b'⟩ he
    simpa using he
  have n2 : (relabel "p2" (exchange swap (part f "p2") (part f "p1"))).cols.Nodup := by
    rw [c2]
    refine List.Nodup.map ?_ (part_nodup h.nodup "p2")
    rintro ⟨a, b⟩ ⟨a', b'⟩ he
    simpa using he
  have s1 : ∀ k ∈ (relabel "p1" (exchange swap (part f "p1") (part f "p2"))).cols, k.s = "p1" := by
    intro k hk; rw [c1] at hk; obtain ⟨x, _, rfl⟩ := List.mem_map.mp hk; rfl
  have s2 : ∀ k ∈ (relabel "p2" (exchange swap (part f "p2") (part f "p1"))).cols, k.s = "p2" := by
    intro k hk; rw [c2] at hk; obtain ⟨x, _, rfl⟩ := List.mem_map.mp hk; rfl
  have r0 : ∀ k, Frame.get (f.filter (fun p => p.1.s ≠ "p1" ∧ p.1.s ≠ "p2")) k =
      if k.s ≠ "p1" ∧ k.s ≠ "p2" then f.get k else none := by
    intro k
    have := Frame.get_sel f (fun c => decide (c.s ≠ "p1" ∧ c.s ≠ "p2")) k
    unfold Frame.sel at this
    rw [this]
    by_cases hk : k.s ≠ "p1" ∧ k.s ≠ "p2"
    · simp [hk]
    · simp only [hk, decide_false, if_false]; simp
  have gget : ∀ k, g.get k = (((Frame.get (f.filter (fun p => p.1.s ≠ "p1" ∧ p.1.s ≠ "p2")) k).or
      (Frame.get (relabel "p1" (exchange swap (part f "p1") (part f "p2"))) k)).or
      (Frame.get (relabel "p2" (exchange swap (part f "p2") (part f "p1"))) k)).or
      (Frame.get [(swappedCol, asFl swap)] k) := by
    intro k; rw [hg, Frame.get_append, Frame.get_append, Frame.get_append]
  have none1 : ∀ k, k.s ≠ "p1" → Frame.get (relabel "p1" (exchange swap (part f "p1") (part f "p2"))) k = none := by
    intro k hk
    exact Frame.get_eq_none.mpr (fun hm => hk (s1 k hm))
  have none2 : ∀ k, k.s ≠ "p2" → Frame.get (relabel "p2" (exchange swap (part f "p2") (part f "p1"))) k = none := by
    intro k hk
    exact Frame.get_eq_none.mpr (fun hm => hk (s2 k hm))
  have gp1 : ∀ m c a b, f.get ⟨m, c, "p1"⟩ = some a → f.get ⟨m, c, "p2"⟩ = some b →
      g.get ⟨m, c, "p1"⟩ = some (fun i => if swap i then b i else a i) := by
    intro m c a b ha hb
    have hm := mem_exchange hl (part_nodup h.nodup "p1") swap (mem_part.mpr (mem_of_get ha)) (mem_part.mpr (mem_of_get hb))
    have := get_of_mem n1 (List.mem_map.mpr ⟨_, hm, rfl⟩)
    rw [gget, r0, this]
    simp
  have gp2 : ∀ m c a b, f.get ⟨m, c, "p1"⟩ = some a → f.get ⟨m, c, "p2"⟩ = some b →
      g.get ⟨m, c, "p2"⟩ = some (fun i => if swap i then a i else b i) := by
    intro m c a b ha hb
    have hm := mem_exchange hl.symm (part_nodup h.nodup "p2") swap (mem_part.mpr (mem_of_get hb)) (mem_part.mpr (mem_of_get ha))
    have := get_of_mem n2 (List.mem_map.mpr ⟨_, hm, rfl⟩)
    rw [gget, r0, this, none1 _ (show ("p2" : String) ≠ "p1" by decide)]
    simp
  have hcols : g.cols = (f.cols.filter (fun c => decide (c.s ≠ "p1" ∧ c.s ≠ "p2"))) ++
      ((part f "p1").map Prod.fst).map (fun k => ⟨k.1, k.2, "p1"⟩) ++
      ((part f "p2").map Prod.fst).map (fun k => ⟨k.1, k.2, "p2"⟩) ++ [swappedCol] := by
    have := Frame.cols_sel f (fun c => decide (c.s ≠ "p1" ∧ c.s ≠ "p2"))
    rw [← this, ← c1, ← c2, hg]
    simp [Frame.cols, Frame.sel]
  have pcols : ∀ s k, k ∈ ((part f s).map Prod.fst).map (fun k => (⟨k.1, k.2, s⟩ : Col)) ↔ k ∈ f.cols ∧ k.s = s := by
    rintro s ⟨m, c, s'⟩
    simp only [List.mem_map, Prod.exists, Col.mk.injEq]
    constructor
    · rintro ⟨a, b, ⟨x, y, v, hv, hxy⟩, rfl, rfl, rfl⟩
      simp only [Prod.mk.injEq] at hxy
      obtain ⟨rfl, rfl⟩ := hxy
      exact ⟨Frame.mem_cols.mpr ⟨v, mem_part.mp hv⟩, rfl⟩
    · rintro ⟨hm, hs⟩
      subst hs
      obtain ⟨v, hv⟩ := Frame.mem_cols.mp hm
      exact ⟨m, c, ⟨m, c, v, mem_part.mpr hv, rfl⟩, rfl, rfl, rfl⟩
  refine ⟨g, swap, ?_, ?_, ⟨gp1, gp2, ?_, ?_, ?_, ?_⟩, ?_, ?_⟩
  · unfold swapProtons
    simp only [x1, x2, d1, d2, bind, Except.bind]
    simp only [hl, if_true]
    rw [← hsw, ← hg, gp2 "n" "" v1 v2 h.n1 h.n2]
    simp only [check_always, implies_true, if_true]
  · intro i; rw [hsw]; rfl
  · intro k hk1 hk2 hk3
    rw [gget, r0, none1 k hk1, none2 k hk2]
    simp only [hk1, hk2, ne_eq, not_false_eq_true, and_self, if_true, Option.or_none]
    rw [show Frame.get [(swappedCol, asFl swap)] k = none from
      Frame.get_eq_none.mpr (by simpa [Frame.cols] using hk3)]
    simp
  · intro k
    rw [hcols]
    simp only [List.mem_append, List.mem_filter, decide_eq_true_eq, pcols, List.mem_singleton]
    constructor
    · rintro (((⟨h1, _⟩ | ⟨h1, _⟩) | ⟨h1, _⟩) | h1)
      · exact Or.inl h1
      · exact Or.inl h1
      · exact Or.inl h1
      · exact Or.inr h1
    · rintro (h1 | h1)
      · left
        by_cases e1 : k.s = "p1"
        · exact Or.inl (Or.inr ⟨h1, e1⟩)
        · by_cases e2 : k.s = "p2"
          · exact Or.inr ⟨h1, e2⟩
          · exact Or.inl (Or.inl ⟨h1, e1, e2⟩)
      · exact Or.inr h1
  · have hlen : g.length = g.cols.length := by simp [Frame.cols]
    rw [hlen, hcols]
    simp only [List.length_append, List.length_map, List.length_singleton, part]
    have hsplit : ∀ f : Frame ι, (f.cols.filter (fun c => decide (c.s ≠ "p1" ∧ c.s ≠ "p2"))).length +
        (f.filter (fun p => p.1.s = "p1")).length + (f.filter (fun p => p.1.s = "p2")).length = f.length := by
      intro f
      induction f with
      | nil => rfl
      | cons p f ih =>
        by_cases e1 : p.1.s = "p1"
        · simp only [Frame.cols, List.map_cons, List.filter_cons, e1, ne_eq, not_true_eq_false, false_and, decide_false,
            decide_true, if_true, List.length_cons] at ih ⊢
          simp only [Bool.false_eq_true, if_false, show ("p1" = "p2") = False by decide, decide_false]
          omega
        · by_cases e2 : p.1.s = "p2"
          · simp only [Frame.cols, List.map_cons, List.filter_cons, e2, ne_eq, not_true_eq_false, and_false, decide_false,
              decide_true, if_true, List.length_cons] at ih ⊢
            simp only [Bool.false_eq_true, if_false, show ("p2" = "p1") = False by decide, decide_false]
            omega
          · simp only [Frame.cols, List.map_cons, List.filter_cons, e1, e2, ne_eq, not_false_eq_true, and_self, decide_false,
              decide_true, if_true, List.length_cons, Bool.false_eq_true, if_false] at ih ⊢
            omega
    have := hsplit f
    omega
  · intro hns
    rw [gget, r0, none1 swappedCol (by decide), none2 swappedCol (by decide), Frame.get_eq_none.mpr hns]
    simp only [Option.or_none, ite_self, Option.none_or]
    rw [Frame.get_cons, if_pos rfl]
    rfl
  · intro hns
    rw [hcols, List.nodup_append, List.nodup_append, List.nodup_append]
    refine ⟨⟨⟨h.nodup.filter _, c1 ▸ n1, ?_⟩, c2 ▸ n2, ?_⟩, by simp, ?_⟩
    · intro a ha b hb he
      have e1 := (List.mem_filter.mp ha).2
      have e2 := ((pcols _ _).mp hb).2
      rw [he] at e1
      simp [e2] at e1
    · intro a ha b hb he
      have e2 := ((pcols _ _).mp hb).2
      rcases List.mem_append.mp ha with ha | ha
      · have e1 := (List.mem_filter.mp ha).2
        rw [he] at e1
        simp [e2] at e1
      · have e1 := ((pcols _ _).mp ha).2
        rw [he, e2] at e1
        exact absurd e1 (by decide)
    · intro a ha b hb he
      simp only [List.mem_singleton] at hb
      rw [he, hb] at ha
      rcases List.mem_append.mp ha with ha | ha
      · rcases List.mem_append.mp ha with ha | ha
        · exact hns (List.mem_filter.mp ha).1
        · exact hns ((pcols _ _).mp ha).1
      · exact hns ((pcols _ _).mp ha).1

  · have key : ∀ s, (g.filter (fun p => p.1.s = s)).map (fun p => (p.1.m, p.1.c)) =
        (g.cols.filter (fun c => c.s = s)).map (fun c => (c.m, c.c)) := by
      intro s
      unfold Frame.cols
      rw [List.filter_map, List.map_map]
      rfl
    have none_rest : ∀ s, (s = "p1" ∨ s = "p2") → (f.cols.filter (fun c => decide (c.s ≠ "p1" ∧ c.s ≠ "p2"))).filter
        (fun c => c.s = s) = [] := by
      intro s hs
      rw [List.filter_eq_nil_iff]
      intro a ha he
      have e1 := (List.mem_filter.mp ha).2
      simp only [decide_eq_true_eq] at e1 he
      rcases hs with rfl | rfl
      · exact e1.1 he
      · exact e1.2 he
    have self : ∀ s (l : List (String × String)), (l.map (fun k => (⟨k.1, k.2, s⟩ : Col))).filter (fun c => c.s = s) =
        l.map (fun k => (⟨k.1, k.2, s⟩ : Col)) := by
      intro s l
      rw [List.filter_eq_self]
      intro a ha
      obtain ⟨x, _, rfl⟩ := List.mem_map.mp ha
      simp
    have oth : ∀ s s' (l : List (String × String)), s ≠ s' →
        (l.map (fun k => (⟨k.1, k.2, s⟩ : Col))).filter (fun c => c.s = s') = [] := by
      intro s s' l hne
      rw [List.filter_eq_nil_iff]
      intro a ha
      obtain ⟨x, _, rfl⟩ := List.mem_map.mp ha
      simpa using hne
    rw [key, key, hcols]
    simp only [List.filter_append, List.map_append]
    rw [none_rest _ (Or.inl rfl), none_rest _ (Or.inr rfl), self, self, oth "p1" "p2" _ (by decide),
      oth "p2" "p1" _ (by decide), hl]
    simp [swappedCol]

/-- C59: on every row the populations are exchanged iff n2/n1 > 1; all measurements of the two populations move together,
every other column is untouched and one column recording the swaps is added. (The final consistency check divides p2 by
itself and never fails.) -/
theorem C59_exact_swap {f : Frame ι} {v1 v2 : ι → Fl} (h : Ready f v1 v2) :
    ∃ g swap, swapProtons f = .ok (g, swap) ∧ (∀ i, swap i ↔ Fl.lt 1 (v2 i / v1 i)) ∧ Swapped f g swap := by
  obtain ⟨g, swap, h1, h2, h3, _⟩ := swap_main h
  exact ⟨g, swap, h1, h2, h3⟩

/-- C59: when a row is swapped -- for positive core density iff the beam is denser, for zero core density iff the beam density
is positive, never if a density is missing; for a negative core density the comparison is reversed. -/
theorem C59_when (a b : ℝ) :
    (0 < a → (Fl.lt 1 (Fl.fin b / Fl.fin a) ↔ a < b)) ∧
    (Fl.lt 1 (Fl.fin b / Fl.fin 0) ↔ 0 < b) ∧
    (a < 0 → (Fl.lt 1 (Fl.fin b / Fl.fin a) ↔ b < a)) ∧
    (∀ x, ¬ Fl.lt 1 (x / Fl.nan)) ∧ (∀ x, ¬ Fl.lt 1 (Fl.nan / x)) := by
  refine ⟨?_, ?_, ?_, ?_, ?_⟩
  · intro h
    rw [Fl.fin_div b a h.ne']
    show (1 : ℝ) < b / a ↔ _
    rw [lt_div_iff₀ h, one_mul]
  · show Fl.lt 1 (Fl.div _ _) ↔ _
    unfold Fl.div
    by_cases hb : b = 0
    · subst hb; simp [Fl.lt, Fl.one_def]
    · rcases lt_or_gt_of_ne hb with h | h
      · simp [h, Fl.lt, Fl.one_def, not_lt.mpr h.le]
      · simp [hb, h, Fl.lt, Fl.one_def]
  · intro h
    rw [Fl.fin_div b a h.ne]
    show (1 : ℝ) < b / a ↔ _
    rw [lt_div_iff_of_neg h, one_mul]
  · intro x; cases x <;> exact id
  · intro x; cases x <;> exact id

/-- C59: afterwards the core is at least as dense as the beam on every row with non-negative measured densities. -/
theorem C59_ordered {f : Frame ι} {v1 v2 : ι → Fl} (h : Ready f v1 v2) {g swap} (hg : swapProtons f = .ok (g, swap)) :
    ∃ w1 w2, g.get ⟨"n", "", "p1"⟩ = some w1 ∧ g.get ⟨"n", "", "p2"⟩ = some w2 ∧
      ∀ i, Fl.le 0 (v1 i) → Fl.le 0 (v2 i) → Fl.le (w2 i) (w1 i) := by
  obtain ⟨g', swap', hg', hs, hS⟩ := C59_exact_swap h
  rw [hg'] at hg
  obtain ⟨rfl, rfl⟩ := Prod.mk.injEq _ _ _ _ ▸ Except.ok.inj hg
  refine ⟨_, _, hS.p1 _ _ _ _ h.n1 h.n2, hS.p2 _ _ _ _ h.n1 h.n2, ?_⟩
  intro i h1 h2
  have hsi := hs i
  generalize v1 i = x at *
  generalize v2 i = y at *
  by_cases hw : swap' i
  · simp only [hw, if_true]
    have hlt := hsi.mp hw
    cases x with
    | nan => exact absurd h1 (by simp [Fl.le])
    | ninf => exact absurd h1 (by simp [Fl.le])
    | pinf =>
      exfalso
      cases y with
      | fin b => exact absurd hlt (by simp [Fl.lt, Fl.one_def, show Fl.fin b / Fl.pinf = Fl.fin 0 from rfl])
      | _ => exact absurd hlt id
    | fin a =>
      cases y with
      | nan => exact absurd h2 (by simp [Fl.le])
      | ninf => exact absurd h2 (by simp [Fl.le])
      | pinf => trivial
      | fin b =>
        have ha : (0 : ℝ) ≤ a := h1
        rcases ha.lt_or_eq with ha | ha
        · exact le_of_lt (((C59_when a b).1 ha).mp hlt)
        · subst ha; exact le_of_lt ((C59_when 0 b).2.1.mp hlt)
  · simp only [hw, if_false]
    have hlt := fun hh => hw (hsi.mpr hh)
    cases x with
    | nan => exact absurd h1 (by simp [Fl.le])
    | ninf => exact absurd h1 (by simp [Fl.le])
    | pinf => cases y <;> first | trivial | exact absurd h2 (by simp [Fl.le])
    | fin a =>
      have ha : (0 : ℝ) ≤ a := h1
      cases y with
      | nan => exact absurd h2 (by simp [Fl.le])
      | ninf => exact absurd h2 (by simp [Fl.le])
      | pinf =>
        exfalso
        apply hlt
        show Fl.lt 1 (Fl.div _ _)
        unfold Fl.div
        simp [not_lt.mpr ha, Fl.lt, Fl.one_def]
      | fin b =>
        show b ≤ a
        by_contra hba
        push Not at hba
        apply hlt
        rcases ha.lt_or_eq with ha | ha
        · exact ((C59_when a b).1 ha).mpr hba
        · subst ha; exact (C59_when 0 b).2.1.mpr hba

/-- a measured non-negative density, or a missing one -/
def NonnegOrMissing (x : Fl) : Prop := x = Fl.nan ∨ Fl.le 0 x

/-- C59: a second call swaps no row and keeps every value of the first result -- but it adds the record of swaps once more,
so the result has two columns with the same label (the part of the English property that is violated). -/
theorem C59_again {f : Frame ι} {v1 v2 : ι → Fl} (h : Ready f v1 v2) (hns : swappedCol ∉ f.cols)
    (h1 : ∀ i, NonnegOrMissing (v1 i)) (h2 : ∀ i, NonnegOrMissing (v2 i)) {g swap} (hg : swapProtons f = .ok (g, swap)) :
    ∃ g' swap', swapProtons g = .ok (g', swap') ∧ (∀ i, ¬ swap' i) ∧ (∀ k ≠ swappedCol, g'.get k = g.get k) ∧
      g'.length = g.length + 1 ∧ (∀ k, k ∈ g'.cols ↔ k ∈ g.cols) ∧ ¬ g'.cols.Nodup := by
  obtain ⟨g0, swap0, hg0, hs, hS, hnd, hsame⟩ := swap_main h
  rw [hg0] at hg
  obtain ⟨rfl, rfl⟩ := Prod.mk.injEq _ _ _ _ ▸ Except.ok.inj hg
  obtain ⟨w1, w2, hw1, hw2, hle⟩ := C59_ordered h hg0
  have hw1' := hS.p1 _ _ _ _ h.n1 h.n2
  have hw2' := hS.p2 _ _ _ _ h.n1 h.n2
  rw [hw1] at hw1'
  rw [hw2] at hw2'
  have hr : Ready g0 w1 w2 := by
    refine ⟨hnd hns, hsame, ?_, hw1, hw2⟩
    intro c hc hcs hm
    rcases (hS.cols c).mp hc with hc | rfl
    · exact h.only c hc hcs hm
    · exact absurd hm (by decide)
  obtain ⟨g', swap', hg', hs', hS'⟩ := C59_exact_swap hr
  have hno : ∀ i, ¬ swap' i := by
    intro i hi
    have hlt := (hs' i).mp hi
    have hwi1 : w1 i = if swap0 i then v2 i else v1 i := congrFun (Option.some.inj hw1') i
    have hwi2 : w2 i = if swap0 i then v1 i else v2 i := congrFun (Option.some.inj hw2') i
    rcases h1 i with e | e
    · by_cases hsw : swap0 i
      · rw [hwi2, hwi1, e] at hlt; simp only [hsw, if_true] at hlt; exact (C59_when 0 0).2.2.2.2 _ hlt
      · rw [hwi2, hwi1, e] at hlt; simp only [hsw, if_false] at hlt; exact (C59_when 0 0).2.2.2.1 _ hlt
    rcases h2 i with e' | e'
    · by_cases hsw : swap0 i
      · rw [hwi2, hwi1, e'] at hlt; simp only [hsw, if_true] at hlt; exact (C59_when 0 0).2.2.2.1 _ hlt
      · rw [hwi2, hwi1, e'] at hlt; simp only [hsw, if_false] at hlt; exact (C59_when 0 0).2.2.2.2 _ hlt
    have hl := hle i e e'
    have n1 : Fl.le 0 (w1 i) := by rw [hwi1]; split <;> assumption
    have n2 : Fl.le 0 (w2 i) := by rw [hwi2]; split <;> assumption
    generalize w1 i = x at *
    generalize w2 i = y at *
    cases x with
    | nan => exact absurd n1 (by simp [Fl.le])
    | ninf => exact absurd n1 (by simp [Fl.le])
    | pinf =>
      cases y with
      | fin b => exact absurd hlt (by simp [Fl.lt, Fl.one_def, show Fl.fin b / Fl.pinf = Fl.fin 0 from rfl])
      | _ => exact absurd hlt id
    | fin a =>
      cases y with
      | nan => exact absurd n2 (by simp [Fl.le])
      | ninf => exact absurd n2 (by simp [Fl.le])
      | pinf => exact absurd hl (by simp [Fl.le])
      | fin b =>
        have ha : (0 : ℝ) ≤ a := n1
        have hba : b ≤ a := hl
        rcases ha.lt_or_eq with ha | ha
        · exact absurd (((C59_when a b).1 ha).mp hlt) (not_lt.mpr hba)
        · subst ha; exact absurd ((C59_when 0 b).2.1.mp hlt) (not_lt.mpr hba)
  have hsc : swappedCol ∈ g0.cols := (hS.cols _).mpr (Or.inr rfl)
  have hcols : ∀ k, k ∈ g'.cols ↔ k ∈ g0.cols := by
    intro k
    rw [hS'.cols]
    constructor
    · rintro (h | rfl)
      · exact h
      · exact hsc
    · exact Or.inl
  refine ⟨g', swap', hg', hno, ?_, hS'.count, hcols, ?_⟩
  · intro k hk
    by_cases e : k ∈ g0.cols
    · by_cases e1 : k.s = "p1"
      · obtain ⟨m, c, s⟩ := k
        simp only at e1; subst e1
        obtain ⟨a, ha⟩ := Option.isSome_iff_exists.mp (Frame.get_isSome.mpr e)
        have hb : (⟨m, c, "p2"⟩ : Col) ∈ g0.cols := twin hsame (Or.inl ⟨rfl, rfl⟩) e
        obtain ⟨b, hb⟩ := Option.isSome_iff_exists.mp (Frame.get_isSome.mpr hb)
        rw [hS'.p1 m c a b ha hb, ha]
        simp [hno]
      · by_cases e2 : k.s = "p2"
        · obtain ⟨m, c, s⟩ := k
          simp only at e2; subst e2
          obtain ⟨b, hb⟩ := Option.isSome_iff_exists.mp (Frame.get_isSome.mpr e)
          have ha : (⟨m, c, "p1"⟩ : Col) ∈ g0.cols := twin hsame (Or.inr ⟨rfl, rfl⟩) e
          obtain ⟨a, ha⟩ := Option.isSome_iff_exists.mp (Frame.get_isSome.mpr ha)
          rw [hS'.p2 m c a b ha hb, hb]
          simp [hno]
        · exact hS'.rest k e1 e2 hk
    · rw [Frame.get_eq_none.mpr e, Frame.get_eq_none.mpr (fun hh => e ((hcols k).mp hh))]
  · intro hnodup
    have l1 : g'.cols.length = g0.cols.length + 1 := by
      have := hS'.count
      simpa [Frame.cols] using this
    have : g'.cols.length ≤ g0.cols.length := (hnodup.subperm (fun k hk => (hcols k).mp hk)).length_le
    omega

/-- a frame meeting the hypotheses: two rows, the second one with a denser beam -/
noncomputable def sample : Frame (Fin 2) :=
  [(⟨"n", "", "p1"⟩, fun i => Fl.fin (if i = 0 then 2 else 1)), (⟨"w", "par", "p1"⟩, fun _ => Fl.fin 10),
   (⟨"n", "", "p2"⟩, fun i => Fl.fin (if i = 0 then 1 else 3)), (⟨"w", "par", "p2"⟩, fun _ => Fl.fin 20),
   (⟨"b", "x", ""⟩, fun _ => Fl.nan)]

theorem sample_ready : Ready sample (fun i => Fl.fin (if i = 0 then 2 else 1)) (fun i => Fl.fin (if i = 0 then 1 else 3)) := by
  refine ⟨by simp [sample, Frame.cols], by simp [sample], ?_, by simp [sample, Frame.get], by simp [sample, Frame.get]⟩
  intro c hc hs hm
  simp only [sample, Frame.cols, List.map_cons, List.map_nil, List.mem_cons, List.not_mem_nil, or_false] at hc
  rcases hc with rfl | rfl | rfl | rfl | rfl <;> simp_all

/-- non-vacuity: row 0 is kept, row 1 is swapped, thermal speeds move along -/
example : ∃ g swap, swapProtons sample = .ok (g, swap) ∧ ¬ swap 0 ∧ swap 1 ∧
    ∃ v, g.get ⟨"w", "par", "p1"⟩ = some v ∧ v 0 = Fl.fin 10 ∧ v 1 = Fl.fin 20 := by
  obtain ⟨g, swap, hg, hs, hS⟩ := C59_exact_swap sample_ready
  have e0 : ¬ swap 0 := by rw [hs]; simp only [if_true]; rw [(C59_when 2 1).1 (by norm_num)]; norm_num
  have e1 : swap 1 := by
    rw [hs]; simp only [show (1 : Fin 2) ≠ 0 by decide, if_false]; rw [(C59_when 1 3).1 (by norm_num)]; norm_num
  refine ⟨g, swap, hg, e0, e1, _, hS.p1 "w" "par" (fun _ => Fl.fin 10) (fun _ => Fl.fin 20) (by simp [sample, Frame.get])
    (by simp [sample, Frame.get]), ?_, ?_⟩
  · simp [e0]
  · simp [e1]


/-- C59: a frame without a proton beam or without a proton core is refused with KeyError, one without the density of the
core with AttributeError. -/
theorem C59_missing (f : Frame ι) :
    ((∀ c ∈ f.cols, c.s ≠ "p1") → swapProtons f = .error .keyError) ∧
    ((∃ m c, ⟨m, c, "p1"⟩ ∈ f.cols) → (∀ c ∈ f.cols, c.s ≠ "p2") → swapProtons f = .error .keyError) ∧
    ((∃ m c, ⟨m, c, "p1"⟩ ∈ f.cols) → (∃ m c, ⟨m, c, "p2"⟩ ∈ f.cols) → (∀ c ∈ f.cols, c.s = "p1" → c.m ≠ "n") →
      swapProtons f = .error .attributeError) := by
  have hno : ∀ s, (∀ c ∈ f.cols, c.s ≠ s) → xs f s = .error .keyError := by
    intro s h
    unfold xs
    rw [if_neg]
    intro hm
    obtain ⟨c, hc, e⟩ := List.mem_map.mp hm
    exact h c hc e
  refine ⟨?_, ?_, ?_⟩
  · intro h
    unfold swapProtons
    rw [hno _ h]; rfl
  · intro h1 h
    unfold swapProtons
    rw [xs_ok h1, hno _ h]; rfl
  · intro h1 h2 h
    unfold swapProtons
    have : density (part f "p1") = .error .attributeError := by
      unfold density
      have : (part f "p1").find? (fun q => q.1.1 = "n") = none := by
        rw [List.find?_eq_none]
        rintro ⟨⟨m, c⟩, v⟩ hq hm
        exact h ⟨m, c, "p1"⟩ (List.mem_map.mpr ⟨_, mem_part.mp hq, rfl⟩) rfl (by simpa using hm)
      rw [this]
    rw [xs_ok h1, xs_ok h2]
    simp only [bind, Except.bind, this]

end Swap
end SW
