import Verif.LabelList
import Mathlib.Data.List.Dedup

/-!
# Property C236 (the listing of labels)

The specification reads the printed text back: `readBack` cuts it at line ends and commas.
-/

namespace SW
namespace Labels

/-! ### Specification -/

/-- the names printed on each line -/
def readBack (text : List Char) : List (List String) :=
  (Chars.split '\n' text).map fun line =>
    ((Chars.split ',' line).mapIdx fun i p => if i = 0 then p else p.drop 1).map String.ofList

/-- where the line of a name stands: capitalised names stand where a "U" would, other names by their initial -/
def lineKey (x : String) : Nat := if isUp x then 'U'.toNat else (x.toList.headD ' ').toNat

/-! ### Helper lemmas -/

theorem mapIdx_drop (x : List Char) (r : List (List Char)) :
    ((x :: r.map fun y => ' ' :: y).mapIdx fun i p => if i = 0 then p else p.drop 1) = x :: r := by
  rw [List.mapIdx_cons, if_pos rfl]
  congr 1
  induction r with
  | nil => rfl
  | cons a r ih =>
    rw [List.map_cons, List.mapIdx_cons]
    simp only [Nat.zero_add, Nat.add_eq_zero_iff, one_ne_zero, and_false, if_false, List.drop_succ_cons, List.drop_zero]
    congr 1

theorem read_line (l : List String) (hc : ∀ x ∈ l, ',' ∉ x.toList) :
    ((Chars.split ',' (commaJoin l)).mapIdx fun i p => if i = 0 then p else p.drop 1).map String.ofList = if l = [] then [""] else l := by
  cases l with
  | nil => rfl
  | cons x r =>
    unfold commaJoin
    rw [Chars.split_join ',' _ (by simp)]
    · rw [show (r.map fun y : String => ' ' :: y.toList) = (r.map String.toList).map fun y => ' ' :: y by rw [List.map_map]; rfl,
        mapIdx_drop]
      simp [List.map_map, Function.comp_def]
    · intro p hp
      rcases List.mem_cons.mp hp with rfl | hp
      · exact hc x (by simp)
      · obtain ⟨y, hy, rfl⟩ := List.mem_map.mp hp
        simp [hc y (by simp [hy])]

theorem toNat_inj' {a b : Char} (h : a.toNat = b.toNat) : a = b := Char.toNat_inj.mp h

theorem mem_initials (data : List String) (c : Char) : c ∈ initials data ↔ ∃ x ∈ data, initial x = c := by
  unfold initials
  rw [(List.perm_insertionSort _ _).mem_iff, List.mem_dedup, List.mem_map]

theorem initials_nodup (data : List String) : (initials data).Nodup :=
  (List.perm_insertionSort _ _).nodup_iff.mpr (List.nodup_dedup _)

/-- grouping by a complete list of distinct keys loses and repeats nothing -/
theorem flat_groups {α : Type} [DecidableEq α] (f : String → α) (cs : List α) (hn : cs.Nodup) (data : List String)
    (h : ∀ x ∈ data, f x ∈ cs) : (cs.flatMap fun c => data.filter fun x => f x == c).Perm data := by
  induction cs generalizing data with
  | nil =>
    cases data with
    | nil => exact List.Perm.refl _
    | cons x r => exact absurd (h x (by simp)) (by simp)
  | cons c cs ih =>
    rw [List.flatMap_cons]
    have hc : c ∉ cs := (List.nodup_cons.mp hn).1
    have ih' := ih (List.nodup_cons.mp hn).2 (data.filter fun x => !(f x == c)) (by
      intro x hx
      rw [List.mem_filter] at hx
      rcases List.mem_cons.mp (h x hx.1) with e | e
      · simp [e] at hx
      · exact e)
    have e2 : (cs.flatMap fun c' => data.filter fun x => f x == c') =
        cs.flatMap fun c' => (data.filter fun x => !(f x == c)).filter fun x => f x == c' := by
      apply List.flatMap_congr
      intro c' hc'
      rw [List.filter_filter]
      apply List.filter_congr
      intro x _
      by_cases e : f x = c'
      · have : f x ≠ c := by rw [e]; rintro rfl; exact hc hc'
        simp [e]; rw [← e]; exact this
      · simp [e]
    rw [e2]
    exact (List.Perm.append_left _ ih').trans (List.filter_append_perm _ _)

theorem perm_flatMap_sorted (data : List String) (cs : List Char) :
    (cs.flatMap (group data)).Perm (cs.flatMap fun c => data.filter fun x => initial x == c) := by
  induction cs with
  | nil => exact List.Perm.refl _
  | cons c cs ih => rw [List.flatMap_cons, List.flatMap_cons]; exact (pySorted_perm _).append ih

theorem rows_perm (data : List String) : ((listRows data).flatMap id).Perm data := by
  unfold listRows
  simp only []
  obtain ⟨low, hlow⟩ : ∃ low, low = data.filter (fun x => !isUp x) := ⟨_, rfl⟩
  rw [← hlow]
  rw [List.flatMap_append, List.flatMap_append]
  simp only [List.flatMap_map, id, List.flatMap_cons, List.flatMap_nil, List.append_nil]
  have h1 := perm_flatMap_sorted low ((initials low).filter (fun c => c.toNat < 'U'.toNat))
  have h2 := perm_flatMap_sorted low ((initials low).filter (fun c => ¬ c.toNat < 'U'.toNat))
  have h3 : (((initials low).filter (fun c => c.toNat < 'U'.toNat)) ++ ((initials low).filter (fun c => ¬ c.toNat < 'U'.toNat))).Perm
      (initials low) := by
    have := List.filter_append_perm (fun c : Char => decide (c.toNat < 'U'.toNat)) (initials low)
    refine List.Perm.trans ?_ this
    apply List.Perm.append_left
    apply List.Perm.of_eq
    apply List.filter_congr
    intro c _
    exact decide_not
  have h4 := flat_groups initial (initials low) (initials_nodup low) low (fun x hx => (mem_initials low _).mpr ⟨x, hx, rfl⟩)
  have h5 := (h3.flatMap_right fun c => low.filter fun x => initial x == c).trans h4
  rw [List.flatMap_append] at h5
  have h6 : (low ++ data.filter isUp).Perm data := by
    rw [hlow]
    exact List.perm_append_comm.trans (List.filter_append_perm isUp data)
  refine List.Perm.trans ?_ h6
  refine List.Perm.trans ?_ (h5.append (pySorted_perm (data.filter isUp)))
  refine List.Perm.trans ((h1.append_right _).append h2) ?_
  rw [List.append_assoc, List.append_assoc]
  exact List.Perm.append_left _ List.perm_append_comm

theorem rows_ordered (data : List String) :
    (listRows data).Pairwise (fun r s => ∀ x ∈ r, ∀ y ∈ s, lineKey x < lineKey y) := by
  obtain ⟨low, hlow⟩ : ∃ low, low = data.filter (fun x => !isUp x) := ⟨_, rfl⟩
  have hkey : ∀ c, ∀ x ∈ group low c, lineKey x = c.toNat ∧ isUp x = false := by
    intro c x hx
    unfold group at hx
    rw [(pySorted_perm _).mem_iff, List.mem_filter, hlow, List.mem_filter] at hx
    obtain ⟨⟨_, hu⟩, hc⟩ := hx
    have hu' : isUp x = false := by simpa using hu
    refine ⟨?_, hu'⟩
    unfold lineKey
    rw [hu']
    simp only [Bool.false_eq_true, if_false]
    have : initial x = c := by simpa using hc
    rw [← this]; rfl
  have hup : ∀ x ∈ pySorted (data.filter isUp), lineKey x = 'U'.toNat := by
    intro x hx
    rw [(pySorted_perm _).mem_iff, List.mem_filter] at hx
    unfold lineKey; rw [hx.2]; rfl
  have hsort : (initials low).Pairwise (fun a b => a.toNat < b.toNat) := by
    have h1 : (initials low).Pairwise (fun a b => a.toNat ≤ b.toNat) := by
      unfold initials
      haveI : IsTotal Char (fun a b => a.toNat ≤ b.toNat) := ⟨fun a b => Nat.le_total _ _⟩
      haveI : IsTrans Char (fun a b => a.toNat ≤ b.toNat) := ⟨fun a b c => Nat.le_trans⟩
      exact List.pairwise_insertionSort _ _
    have h2 := initials_nodup low
    exact (h1.and h2).imp (fun h => lt_of_le_of_ne h.1 (fun e => h.2 (toNat_inj' e)))
  have hgr : ∀ q : Char → Bool, (((initials low).filter q).map (group low)).Pairwise
      (fun r s => ∀ x ∈ r, ∀ y ∈ s, lineKey x < lineKey y) := by
    intro q
    rw [List.pairwise_map]
    refine (hsort.filter q).imp ?_
    intro a b hab x hx y hy
    rw [(hkey a x hx).1, (hkey b y hy).1]; exact hab
  unfold listRows
  simp only []
  rw [← hlow, List.pairwise_append, List.pairwise_append]
  refine ⟨⟨hgr _, List.pairwise_singleton _ _, ?_⟩, hgr _, ?_⟩
  · intro r hr s hs x hx y hy
    obtain ⟨c, hc, rfl⟩ := List.mem_map.mp hr
    rw [List.mem_singleton.mp hs] at hy
    rw [(hkey c x hx).1, hup y hy]
    simpa using (List.mem_filter.mp hc).2
  · intro r hr s hs x hx y hy
    obtain ⟨d, hd, rfl⟩ := List.mem_map.mp hs
    rw [(hkey d y hy).1]
    have hd' : ¬ d.toNat < 'U'.toNat := by simpa using (List.mem_filter.mp hd).2
    rcases List.mem_append.mp hr with hr | hr
    · obtain ⟨c, hc, rfl⟩ := List.mem_map.mp hr
      rw [(hkey c x hx).1]
      have : c.toNat < 'U'.toNat := by simpa using (List.mem_filter.mp hc).2
      omega
    · rw [List.mem_singleton.mp hr] at hx
      rw [hup x hx]
      have hne : d ≠ 'U' := by
        rintro rfl
        have hy' := hkey 'U' y hy
        have hin : initial y = 'U' := by
          have h := hy
          unfold group at h
          rw [(pySorted_perm _).mem_iff, List.mem_filter] at h
          simpa using h.2
        have hu := hy'.2
        unfold isUp at hu
        unfold initial at hin
        cases hl : y.toList with
        | nil => rw [hl] at hin; exact absurd hin (by decide)
        | cons z zs =>
          rw [hl] at hin hu
          have : z = 'U' := by simpa using hin
          rw [this] at hu
          exact absurd (show 'U'.isUpper = false from hu) (by decide)
      have : d.toNat ≠ 'U'.toNat := fun e => hne (toNat_inj' e)
      omega

/-- C236: the printed listing names every label of the table exactly once, whatever the table: reading the lines back gives the rows, in
which the names are sorted and share the initial (or begin with a capital); the rows together are the table and stand in ascending order of the initials, the capitals
at "U". -/
theorem C236_listing (data : List String) (h0 : "" ∉ data) (hlow : ∃ x ∈ data, isUp x = false)
    (hup : ∃ x ∈ data, isUp x = true)
    (hc : ∀ x ∈ data, ',' ∉ x.toList ∧ '\n' ∉ x.toList) :
    ∃ text left rows, cleanList data = .ok (text, left) ∧ readBack text = rows ∧ (rows.flatMap id).Perm data ∧
      rows.Pairwise (fun r s => ∀ x ∈ r, ∀ y ∈ s, lineKey x < lineKey y) ∧
      ∀ r ∈ rows, r.Pairwise (· ≤ ·) ∧ ((∀ x ∈ r, isUp x = true) ∨ ∃ c, ∀ x ∈ r, isUp x = false ∧ x.toList.head? = some c) := by
  have hrows : ∀ r ∈ listRows data, r ≠ [] ∧ r.Pairwise (· ≤ ·) ∧
      ((∀ x ∈ r, isUp x = true) ∨ ∃ c, ∀ x ∈ r, isUp x = false ∧ x.toList.head? = some c) := by
    have hg : ∀ c ∈ initials (data.filter fun x => !isUp x), group (data.filter fun x => !isUp x) c ≠ [] ∧
        (group (data.filter fun x => !isUp x) c).Pairwise (· ≤ ·) ∧
        ∃ c', ∀ x ∈ group (data.filter fun x => !isUp x) c, isUp x = false ∧ x.toList.head? = some c' := by
      intro c hcm
      refine ⟨?_, pySorted_pairwise _, c, ?_⟩
      · obtain ⟨x, hx, hxc⟩ := (mem_initials _ _).mp hcm
        intro e
        have hm : x ∈ group (data.filter fun x => !isUp x) c := by
          unfold group
          rw [(pySorted_perm _).mem_iff, List.mem_filter]
          exact ⟨hx, by simp [hxc]⟩
        rw [e] at hm; simp at hm
      · intro x hx
        unfold group at hx
        rw [(pySorted_perm _).mem_iff, List.mem_filter, List.mem_filter] at hx
        obtain ⟨⟨hxd, hxu⟩, hxc⟩ := hx
        refine ⟨by simpa using hxu, ?_⟩
        unfold initial at hxc
        cases hl : x.toList with
        | nil => exact absurd (by rw [← String.toList_inj, hl]; rfl : x = "") (fun e => h0 (e ▸ hxd))
        | cons y ys => rw [hl] at hxc; simpa using hxc
    intro r hr
    unfold listRows at hr
    simp only [List.mem_append, List.mem_map, List.mem_filter, List.mem_singleton] at hr
    rcases hr with (⟨c, ⟨hcm, -⟩, rfl⟩ | rfl) | ⟨c, ⟨hcm, -⟩, rfl⟩
    · exact ⟨(hg c hcm).1, (hg c hcm).2.1, Or.inr (hg c hcm).2.2⟩
    · refine ⟨?_, pySorted_pairwise _, Or.inl ?_⟩
      · obtain ⟨x, hx, hxu⟩ := hup
        intro e
        have hm : x ∈ pySorted (data.filter isUp) := by rw [(pySorted_perm _).mem_iff, List.mem_filter]; exact ⟨hx, hxu⟩
        rw [e] at hm; simp at hm
      · intro x hx
        rw [(pySorted_perm _).mem_iff, List.mem_filter] at hx
        exact hx.2
    · exact ⟨(hg c hcm).1, (hg c hcm).2.1, Or.inr (hg c hcm).2.2⟩
  have hmem : ∀ r ∈ listRows data, ∀ x ∈ r, x ∈ data := by
    intro r hr x hx
    exact (rows_perm data).mem_iff.mp (List.mem_flatMap.mpr ⟨r, hr, hx⟩)
  refine ⟨Chars.join '\n' ((listRows data).map commaJoin), data.filter (fun x => !isUp x), listRows data, ?_, ?_, rows_perm data,
    rows_ordered data, fun r hr => (hrows r hr).2⟩
  · unfold cleanList
    rw [if_neg h0, if_neg]
    obtain ⟨x, hx, hxu⟩ := hlow
    intro hall
    rw [hall x hx] at hxu
    exact Bool.noConfusion hxu
  · unfold readBack
    rw [Chars.split_join '\n' _ (by simp [listRows])]
    · rw [List.map_map]
      conv_rhs => rw [← List.map_id (listRows data)]
      apply List.map_congr_left
      intro r hr
      simp only [Function.comp]
      rw [read_line r (fun x hx => (hc x (hmem r hr x hx)).1), if_neg (hrows r hr).1]
      rfl
    · intro p hp
      obtain ⟨r, hr, rfl⟩ := List.mem_map.mp hp
      unfold commaJoin
      cases r with
      | nil => simp
      | cons x r' =>
        simp only []
        rw [Chars.mem_join_of ',' '\n' (by decide)]
        rintro ⟨q, hq, hqn⟩
        rcases List.mem_cons.mp hq with rfl | hq
        · exact (hc x (hmem _ hr x (by simp))).2 hqn
        · obtain ⟨y, hy, rfl⟩ := List.mem_map.mp hq
          rcases List.mem_cons.mp hqn with e | e
          · exact absurd e (by decide)
          · exact (hc y (hmem _ hr y (by simp [hy]))).2 e

/-- C236 (violated): the names beginning with a capital are removed from the list of the caller, so listing the same list again no longer
prints them. -/
theorem C236_removed (data : List String) (text : List Char) (left : List String) (h : cleanList data = .ok (text, left)) :
    left = data.filter (fun x => !isUp x) ∧ ∀ text' left', cleanList left = .ok (text', left') → left' = left ∧
      ∀ r ∈ listRows left, ∀ x ∈ r, isUp x = false := by
  unfold cleanList at h
  split at h
  · exact absurd h (by simp)
  · split at h
    · exact absurd h (by simp)
    · injection h with h; injection h with h1 h2
      refine ⟨h2.symm, ?_⟩
      have hall : ∀ x ∈ left, isUp x = false := by
        rw [← h2]; intro x hx; rw [List.mem_filter] at hx; simpa using hx.2
      intro text' left' h'
      unfold cleanList at h'
      split at h'
      · exact absurd h' (by simp)
      · split at h'
        · exact absurd h' (by simp)
        · injection h' with h'; injection h' with _ h''
          refine ⟨?_, ?_⟩
          · rw [← h'', List.filter_eq_self]
            intro x hx; rw [hall x hx]; rfl
          · intro r hr x hx
            exact hall x ((rows_perm left).mem_iff.mp (List.mem_flatMap.mpr ⟨r, hr, hx⟩))

/-- C236: a table with an empty name is refused. -/
theorem C236_empty (data : List String) (h : "" ∈ data) : cleanList data = .error .indexError := by
  unfold cleanList; rw [if_pos h]

/-- C236: what `available_labels()` lists. Of the label classes it lists exactly those derived from `ArbitraryLabel`, each once;
violated: the solar wind speed, ions, charge-state ratios and elemental abundances, which the modules searched define, are not listed. -/
theorem C236_classes :
    (∀ c ∈ labelClasses, c.module_ ≠ "base" → (c.name ∈ listedSpecial ↔ c.arbitrary = true)) ∧ listedSpecial.Nodup ∧
    (∀ n ∈ ["Vsw", "Ion", "ChargeStateRatio", "ElementalAbundance"], n ∉ listedSpecial ∧ ∃ c ∈ labelClasses, c.name = n ∧ c.module_ ≠ "base") := by
  have hm : ∀ n, n ∈ listedSpecial ↔ n ∈ (labelClasses.filter fun c =>
      ["special", "composition", "elemental_abundance", "datetime"].contains c.module_ && c.arbitrary).map LabelClass.name := by
    intro n; unfold listedSpecial; exact (pySorted_perm _).mem_iff
  refine ⟨?_, ?_, ?_⟩
  · intro c hc hb
    rw [hm]
    revert hb
    revert c
    decide +kernel
  · unfold listedSpecial
    rw [(pySorted_perm _).nodup_iff]
    decide +kernel
  · intro n hn
    rw [hm]
    revert n
    decide +kernel

/-- C236 (violated): of the measurements a label can show, velocity, thermal speed and temperature are not listed, and the three
measurements that have both a translation and a template are listed twice. -/
theorem C236_measurements :
    (∀ n ∈ ["v", "w", "T"], n ∉ listedMeasurements ∧ n ∈ transUnits.map Prod.fst) ∧
    (∀ n, n ∈ listedMeasurements ↔ n ∈ transMeasurement.map Prod.fst ∨ n ∈ templates.map Prod.fst) ∧
    (∀ n, listedMeasurements.count n = if n ∈ ["ab", "cos_theta", "carr"] then 2 else if n ∈ listedMeasurements then 1 else 0) := by
  have hm : ∀ n, n ∈ listedMeasurements ↔ n ∈ transMeasurement.map Prod.fst ∨ n ∈ templates.map Prod.fst := by
    intro n; unfold listedMeasurements; rw [(pySorted_perm _).mem_iff, List.mem_append]
  refine ⟨?_, hm, ?_⟩
  · intro n hn; rw [hm]; revert n; decide +kernel
  · intro n
    have hc : listedMeasurements.count n = (transMeasurement.map Prod.fst ++ templates.map Prod.fst).count n :=
      (pySorted_perm _).count_eq n
    rw [hc]
    by_cases h1 : n ∈ ["ab", "cos_theta", "carr"]
    · rw [if_pos h1]; clear hc; revert n; decide +kernel
    · rw [if_neg h1]
      by_cases h2 : n ∈ listedMeasurements
      · rw [if_pos h2]
        have h3 : n ∈ transMeasurement.map Prod.fst ++ templates.map Prod.fst := by rw [List.mem_append]; exact (hm n).mp h2
        clear hc h2
        revert h1
        revert n
        decide +kernel
      · rw [if_neg h2]
        apply List.count_eq_zero_of_not_mem
        rw [List.mem_append]; exact fun e => h2 ((hm n).mpr e)

/-- C236 (violated): `from solarwindpy.plotting.labels import *` always fails: the package announces a name it does not have. -/
theorem C236_star : starImport exported bound = .error .attributeError ∧
    ∀ n ∈ exported, n ∉ bound ↔ n = "available_TeXlabel_measurements" := by
  refine ⟨rfl, ?_⟩
  decide +kernel

/-! ### Non-vacuity -/

example : ∃ text left rows, cleanList ["pth", "beta", "Qhat", "b"] = .ok (text, left) ∧ readBack text = rows ∧
    (rows.flatMap id).Perm ["pth", "beta", "Qhat", "b"] ∧
    rows.Pairwise (fun r s => ∀ x ∈ r, ∀ y ∈ s, lineKey x < lineKey y) ∧
    ∀ r ∈ rows, r.Pairwise (· ≤ ·) ∧ ((∀ x ∈ r, isUp x = true) ∨ ∃ c, ∀ x ∈ r, isUp x = false ∧ x.toList.head? = some c) :=
  C236_listing _ (by decide) ⟨"b", by simp, by decide +kernel⟩ ⟨"Qhat", by simp, by decide +kernel⟩ (by decide +kernel)

end Labels
end SW
