import Verif.Indices
import Mathlib.Data.List.Perm.Lattice

/-!
# Property C235 (the table of all activity indices)
-/

namespace SW
namespace Act

/-! ### Helper lemmas -/

theorem mem_bagUnion (a b : List Int) (t : Int) : t ∈ bagUnion a b ↔ t ∈ a ∨ t ∈ b := by
  unfold bagUnion
  rw [List.mem_append]
  constructor
  · rintro (h | h)
    · exact Or.inl h
    · exact Or.inr ((List.diff_sublist b a).subset h)
  · rintro (h | h)
    · exact Or.inl h
    · by_cases ha : t ∈ a
      · exact Or.inl ha
      · exact Or.inr (List.mem_diff_of_mem h ha)

theorem nodup_bagUnion (a b : List Int) (ha : a.Nodup) (hb : b.Nodup) : (bagUnion a b).Nodup := by
  unfold bagUnion
  rw [List.nodup_append]
  refine ⟨ha, hb.sublist (List.diff_sublist b a), ?_⟩
  intro x hx y hy e
  subst e
  rw [hb.mem_diff_iff] at hy
  exact hy.2 hx

theorem mem_foldUnion (l : List (List Int)) (acc : List Int) (t : Int) :
    t ∈ l.foldl bagUnion acc ↔ t ∈ acc ∨ ∃ x ∈ l, t ∈ x := by
  induction l generalizing acc with
  | nil => simp
  | cons a l ih => rw [List.foldl_cons, ih, mem_bagUnion]; simp [or_assoc]

theorem nodup_foldUnion (l : List (List Int)) (acc : List Int) (ha : acc.Nodup) (hl : ∀ x ∈ l, x.Nodup) :
    (l.foldl bagUnion acc).Nodup := by
  induction l generalizing acc with
  | nil => exact ha
  | cons a l ih =>
    rw [List.foldl_cons]
    exact ih _ (nodup_bagUnion _ _ ha (hl a (by simp))) (fun x hx => hl x (by simp [hx]))

theorem mem_unionTimes (l : List (List Int)) (hne : l ≠ []) (t : Int) : t ∈ unionTimes l ↔ ∃ x ∈ l, t ∈ x := by
  unfold unionTimes
  split
  · rename_i h
    cases l with
    | nil => exact absurd rfl hne
    | cons a l =>
      constructor
      · intro ht; exact ⟨a, by simp, ht⟩
      · rintro ⟨x, hx, ht⟩; rw [← h x hx]; exact ht
  · rw [(List.perm_insertionSort _ _).mem_iff, mem_foldUnion]; simp

theorem nodup_unionTimes (l : List (List Int)) (hl : ∀ x ∈ l, x.Nodup) : (unionTimes l).Nodup := by
  unfold unionTimes
  split
  · cases l with
    | nil => simp
    | cons a l => exact hl a (by simp)
  · rw [(List.perm_insertionSort _ _).nodup_iff]
    exact nodup_foldUnion l [] List.nodup_nil hl

theorem lookup_own (s : Timed) (h : s.times.Nodup) : s.times.map (fun t => s.lookup t) = s.map fun p => some p.2 := by
  induction s with
  | nil => rfl
  | cons p s ih =>
    have h' : (p.1 :: Timed.times s).Nodup := h
    rw [List.nodup_cons] at h'
    obtain ⟨pt, pv⟩ := p
    simp only [Timed.times, List.map_cons, List.lookup_cons_self]
    congr 1
    rw [← ih h'.2]
    unfold Timed.times
    apply List.map_congr_left
    intro t ht
    have : t ≠ pt := by rintro rfl; exact h'.1 ht
    rw [List.lookup_cons]
    have hb : (t == pt) = false := by simpa using this
    rw [hb]

theorem fitTo_nodup (tgt : List Int) (s : Timed) (h : s.times.Nodup) : fitTo tgt s = .ok (tgt.map fun t => s.lookup t) := by
  unfold fitTo
  split
  · rename_i e; rw [← e, lookup_own s h]
  · first | rfl | rw [if_pos h]

/-- C235: with distinct times (and one magnesium value per day) the table has exactly one row for every time of every series - of the
magnesium index the midnight of every day -, and every column holds, in the row of time `t`, the value of its series at `t`, or nothing if
that series has none; in particular no value is lost, moved or invented. -/
theorem C235_table (lalpha caK mgII ssn : Timed) (h1 : lalpha.times.Nodup) (h2 : caK.times.Nodup) (h3 : (mgII.times.map midnight).Nodup)
    (h4 : ssn.times.Nodup) :
    ∃ T, allIndices lalpha caK mgII ssn = .ok T ∧ T.times.Nodup ∧
      (∀ t, t ∈ T.times ↔ t ∈ lalpha.times ∨ t ∈ ssn.times ∨ (∃ u ∈ mgII.times, midnight u = t) ∨ t ∈ caK.times) ∧
      T.lalpha = T.times.map (fun t => lalpha.lookup t) ∧ T.ssn = T.times.map (fun t => ssn.lookup t) ∧
      T.caK = T.times.map (fun t => caK.lookup t) ∧
      (∀ u v, (u, v) ∈ mgII → ∃ i : Nat, T.times[i]? = some (midnight u) ∧ T.mgII[i]? = some (some v)) ∧
      (∀ (i : Nat) (v : Fl), T.mgII[i]? = some (some v) → ∃ u, (u, v) ∈ mgII ∧ T.times[i]? = some (midnight u)) := by
  have hm : (toDates mgII).times.Nodup := by
    unfold toDates Timed.times at *
    rw [List.map_map] at h3 ⊢
    exact h3
  obtain ⟨tgt, htgt⟩ : ∃ tgt, tgt = unionTimes [lalpha.times, ssn.times, (toDates mgII).times, caK.times] := ⟨_, rfl⟩
  have hnd : tgt.Nodup := by rw [htgt]; apply nodup_unionTimes; simp [h1, h2, hm, h4]
  have hmg : (toDates mgII).times = mgII.times.map midnight := by unfold toDates Timed.times; rw [List.map_map, List.map_map]; rfl
  have hmem : ∀ t, t ∈ tgt ↔ t ∈ lalpha.times ∨ t ∈ ssn.times ∨ (∃ u ∈ mgII.times, midnight u = t) ∨ t ∈ caK.times := by
    intro t
    rw [htgt, mem_unionTimes _ (by simp), hmg]
    simp [List.mem_map]
  have hlk : ∀ t v, (toDates mgII).lookup t = some v ↔ (t, v) ∈ toDates mgII := by
    have gen : ∀ (s : Timed), s.times.Nodup → ∀ t v, s.lookup t = some v ↔ (t, v) ∈ s := by
      intro s
      induction s with
      | nil => simp
      | cons p s ih =>
        intro hs t v
        have h' : (p.1 :: Timed.times s).Nodup := hs
        rw [List.nodup_cons] at h'
        obtain ⟨pt, pv⟩ := p
        by_cases e : t = pt
        · subst e
          rw [List.lookup_cons_self, List.mem_cons]
          constructor
          · intro hh; injection hh with hh; subst hh; exact Or.inl rfl
          · rintro (hh | hh)
            · injection hh with _ hh; rw [hh]
            · exact absurd (List.mem_map.mpr ⟨(t, v), hh, rfl⟩) h'.1
        · rw [List.lookup_cons, List.mem_cons]
          have : (t == pt) = false := by simpa using e
          rw [this]
          rw [ih h'.2]
          constructor
          · exact Or.inr
          · rintro (hh | hh)
            · injection hh with hh _; exact absurd hh e
            · exact hh
    exact gen _ hm
  refine ⟨⟨tgt, tgt.map (fun t => lalpha.lookup t), tgt.map (fun t => ssn.lookup t), tgt.map (fun t => (toDates mgII).lookup t),
    tgt.map (fun t => caK.lookup t)⟩, ?_, hnd, hmem, rfl, rfl, rfl, ?_, ?_⟩
  · unfold allIndices
    simp only [bind, Except.bind, ← htgt, fitTo_nodup _ _ h1, fitTo_nodup _ _ h2, fitTo_nodup _ _ hm, fitTo_nodup _ _ h4]
  · intro u v huv
    have ht : midnight u ∈ tgt := (hmem _).mpr (Or.inr (Or.inr (Or.inl ⟨u, List.mem_map.mpr ⟨(u, v), huv, rfl⟩, rfl⟩)))
    obtain ⟨i, hi⟩ := List.mem_iff_getElem?.mp ht
    refine ⟨i, hi, ?_⟩
    simp only [List.getElem?_map, hi, Option.map_some]
    rw [(hlk (midnight u) v).mpr]
    exact List.mem_map.mpr ⟨(u, v), huv, rfl⟩
  · intro i v hv
    simp only [List.getElem?_map] at hv
    cases ht : tgt[i]? with
    | none => rw [ht] at hv; simp at hv
    | some t =>
      rw [ht] at hv
      simp only [Option.map_some] at hv
      injection hv with hv
      obtain ⟨⟨u, w⟩, hu, e⟩ := List.mem_map.mp ((hlk t v).mp hv)
      injection e with e1 e2
      simp only at e2
      subst e2
      exact ⟨u, hu, by rw [← e1]⟩

/-- C235: the rows are in ascending order of time, unless all four series have the very same times in the same order. -/
theorem C235_order (lalpha caK mgII ssn : Timed) (T : IndexTable) (h : allIndices lalpha caK mgII ssn = .ok T) :
    T.times.Pairwise (· ≤ ·) ∨ (T.times = lalpha.times ∧ T.times = ssn.times ∧ T.times = mgII.times.map midnight ∧ T.times = caK.times) := by
  have ht : T.times = unionTimes [lalpha.times, ssn.times, (toDates mgII).times, caK.times] := by
    unfold allIndices at h
    simp only [bind, Except.bind] at h
    split at h
    · exact absurd h (by simp)
    split at h
    · exact absurd h (by simp)
    split at h
    · exact absurd h (by simp)
    split at h
    · exact absurd h (by simp)
    injection h with h
    rw [← h]
  have hmg : (toDates mgII).times = mgII.times.map midnight := by unfold toDates Timed.times; rw [List.map_map, List.map_map]; rfl
  rw [ht]
  unfold unionTimes
  split
  · rename_i hall
    right
    simp only [List.headD_cons] at hall ⊢
    refine ⟨trivial, (hall _ (by simp)).symm, ?_, (hall _ (by simp)).symm⟩
    rw [← hmg]; exact (hall _ (by simp)).symm
  · left; exact List.pairwise_insertionSort _ _

/-- C235 (violated): two magnesium values on the same day and no table can be made, as soon as another series has a time which is not the
midnight of a day with a magnesium value. -/
theorem C235_twice (lalpha caK mgII ssn : Timed) (t : Int) (ht : t ∈ lalpha.times ∨ t ∈ ssn.times ∨ t ∈ caK.times)
    (hno : ∀ u ∈ mgII.times, midnight u ≠ t) (h3 : ¬ (mgII.times.map midnight).Nodup) :
    ∃ e, allIndices lalpha caK mgII ssn = .error e := by
  have hmg : (toDates mgII).times = mgII.times.map midnight := by unfold toDates Timed.times; rw [List.map_map, List.map_map]; rfl
  obtain ⟨tgt, htgt⟩ : ∃ tgt, tgt = unionTimes [lalpha.times, ssn.times, (toDates mgII).times, caK.times] := ⟨_, rfl⟩
  have hmem : t ∈ tgt := by
    rw [htgt, mem_unionTimes _ (by simp)]
    rcases ht with h | h | h
    · exact ⟨_, by simp, h⟩
    · exact ⟨ssn.times, by simp, h⟩
    · exact ⟨caK.times, by simp, h⟩
  have hne : (toDates mgII).times ≠ tgt := by
    intro e
    rw [← e, hmg, List.mem_map] at hmem
    obtain ⟨u, hu, e⟩ := hmem
    exact hno u hu e
  have hbad : fitTo tgt (toDates mgII) = .error .other := by
    unfold fitTo
    rw [if_neg hne, if_neg (by rw [hmg]; exact h3)]
  unfold allIndices
  simp only [bind, Except.bind, ← htgt, hbad]
  split
  · exact ⟨_, rfl⟩
  · split
    · exact ⟨_, rfl⟩
    · exact ⟨_, rfl⟩

/-- C235 (violated): a value stamped at another time of day than midnight never shares a row with a magnesium value - not even with the one
of its own day. -/
theorem C235_noon (lalpha caK mgII ssn : Timed) (h1 : lalpha.times.Nodup) (h2 : caK.times.Nodup) (h3 : (mgII.times.map midnight).Nodup)
    (h4 : ssn.times.Nodup) (t : Int) (hno : t % 86400000 ≠ 0) (ht : t ∈ lalpha.times ∨ t ∈ ssn.times ∨ t ∈ caK.times) :
    ∃ (T : IndexTable) (i : Nat), allIndices lalpha caK mgII ssn = .ok T ∧ T.times[i]? = some t ∧ T.mgII[i]? = some none := by
  obtain ⟨T, hT, hnd, hmem, -, -, -, -, hback⟩ := C235_table lalpha caK mgII ssn h1 h2 h3 h4
  have htm : t ∈ T.times := (hmem t).mpr (by rcases ht with h | h | h <;> simp [h])
  obtain ⟨i, hi⟩ := List.mem_iff_getElem?.mp htm
  have hlen : T.mgII.length = T.times.length := by
    unfold allIndices at hT
    have hm : (toDates mgII).times.Nodup := by
      unfold toDates Timed.times at *
      rw [List.map_map] at h3 ⊢
      exact h3
    simp only [bind, Except.bind, fitTo_nodup _ _ h1, fitTo_nodup _ _ h2, fitTo_nodup _ _ hm, fitTo_nodup _ _ h4] at hT
    injection hT with hT
    rw [← hT]; simp
  refine ⟨T, i, hT, hi, ?_⟩
  have hil : i < T.mgII.length := by rw [hlen]; exact (List.getElem?_eq_some_iff.mp hi).1
  cases hv : T.mgII[i]? with
  | none => rw [List.getElem?_eq_none_iff] at hv; omega
  | some x =>
    cases x with
    | none => rfl
    | some v =>
      obtain ⟨u, -, hu⟩ := hback i v hv
      rw [hi] at hu
      injection hu with hu
      exfalso
      apply hno
      rw [hu]
      unfold midnight dayMs
      omega

/-! ### Non-vacuity -/

example : ∃ T, allIndices [(0, .fin 1)] [(43200000, .fin 2)] [(86400000 + 5, .fin 3)] [(0, .fin 4)] = .ok T ∧ T.times.Nodup ∧
    (0 : Int) ∈ T.times ∧ (86400000 : Int) ∈ T.times := by
  obtain ⟨T, h, hn, hm, -⟩ := C235_table [(0, .fin 1)] [(43200000, .fin 2)] [(86400000 + 5, .fin 3)] [(0, .fin 4)]
    (by simp [Timed.times]) (by simp [Timed.times]) (by simp [Timed.times]) (by simp [Timed.times])
  refine ⟨T, h, hn, (hm _).mpr (Or.inl (by simp [Timed.times])), (hm _).mpr (Or.inr (Or.inr (Or.inl ⟨86400005, by simp [Timed.times], ?_⟩)))⟩
  decide

example : ∃ e, allIndices [(5, .fin 1)] [] [(0, .fin 3), (7, .fin 4)] [] = .error e :=
  C235_twice _ _ _ _ 5 (Or.inl (by simp [Timed.times])) (by decide) (by decide)

end Act
end SW
