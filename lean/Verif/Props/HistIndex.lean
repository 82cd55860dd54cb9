import Verif.HistIndex
import Verif.Props.HistPlot
import Verif.Props.Orbit

/-!
# Histograms of labelled rows: properties (C228, C229)
-/

namespace SW
namespace Hist

open Classical

/-! ### Lookups -/

/-- the Series has the value `v` at label `k` -/
def HasAt (s : LSer) (k : Int) (v : Fl) : Prop := (k, v) ∈ s

theorem at_of_mem {s : LSer} (hn : (s.map Prod.fst).Nodup) {k : Int} {v : Fl} (h : (k, v) ∈ s) : s.at k = v := by
  induction s with
  | nil => simp at h
  | cons p s ih =>
    unfold LSer.at
    simp only [List.map_cons, List.nodup_cons] at hn
    rcases List.mem_cons.mp h with rfl | h
    · simp [List.find?_cons]
    · have hne : p.1 ≠ k := fun e => hn.1 (by rw [e]; exact List.mem_map.mpr ⟨_, h, rfl⟩)
      have := ih hn.2 h
      unfold LSer.at at this
      simpa [List.find?_cons, hne] using this

theorem at_of_not_mem {s : LSer} {k : Int} (h : k ∉ s.map Prod.fst) : s.at k = .nan := by
  unfold LSer.at
  have : s.find? (fun p => decide (p.1 = k)) = none := by
    rw [List.find?_eq_none]
    intro p hp hk
    simp only [decide_eq_true_eq] at hk
    exact h (List.mem_map.mpr ⟨p, hp, hk⟩)
  rw [this]

theorem at_perm {s t : LSer} (hp : s.Perm t) (hn : (s.map Prod.fst).Nodup) (k : Int) : s.at k = t.at k := by
  by_cases h : k ∈ s.map Prod.fst
  · obtain ⟨⟨k', v⟩, hv, rfl⟩ := List.mem_map.mp h
    rw [at_of_mem hn hv, at_of_mem ((hp.map Prod.fst).nodup_iff.mp hn) (hp.mem_iff.mp hv)]
  · rw [at_of_not_mem h, at_of_not_mem (fun h' => h ((hp.map Prod.fst).mem_iff.mpr h'))]

/-- by position and by label is the same when the labels are distinct and equal -/
theorem map_at_self {s : LSer} (hn : (s.map Prod.fst).Nodup) : (s.map Prod.fst).map s.at = s.map Prod.snd := by
  rw [List.map_map]
  apply List.map_congr_left
  intro p hp
  exact at_of_mem hn hp

/-- the y column by label -/
theorem setCol_distinct (idx : List Int) (s : LSer) (hn : (s.map Prod.fst).Nodup) : setCol idx s = .ok (idx.map s.at) := by
  unfold setCol
  by_cases h : s.map Prod.fst = idx
  · rw [if_pos h, ← h, map_at_self hn]
  · rw [if_neg h, if_pos hn]

/-! ### The lookup before grouping -/

theorem locAll_length {α : Type} (rows : List (LRow α)) : rows.length ≤ (locAll rows).length := by
  unfold locAll
  rw [List.length_flatMap]
  have : ∀ l : List (LRow α), (∀ r ∈ l, r ∈ rows) →
      l.length ≤ (l.map (fun r => ((rows.filter (fun r' => decide (r'.k = r.k))).map LRow.v).length)).sum := by
    intro l
    induction l with
    | nil => simp
    | cons r l ih =>
      intro h
      have h1 : 1 ≤ ((rows.filter (fun r' => decide (r'.k = r.k))).map LRow.v).length := by
        rw [List.length_map]
        exact List.length_pos_of_mem (List.mem_filter.mpr ⟨h r (by simp), by simp⟩)
      have h2 := ih (fun q hq => h q (by simp [hq]))
      simp only [List.map_cons, List.sum_cons, List.length_cons]
      omega
  exact this rows (fun _ h => h)

theorem filter_key_single {α : Type} (rows : List (LRow α)) (hn : (rows.map LRow.k).Nodup) (r : LRow α) (hr : r ∈ rows) :
    rows.filter (fun r' => decide (r'.k = r.k)) = [r] := by
  induction rows with
  | nil => simp at hr
  | cons q rows ih =>
    simp only [List.map_cons, List.nodup_cons] at hn
    rcases List.mem_cons.mp hr with rfl | hr
    · rw [List.filter_cons_of_pos (by simp)]
      have : rows.filter (fun r' => decide (r'.k = r.k)) = [] := by
        rw [List.filter_eq_nil_iff]
        intro r' h' hk
        simp only [decide_eq_true_eq] at hk
        exact hn.1 (by rw [← hk]; exact List.mem_map.mpr ⟨_, h', rfl⟩)
      rw [this]
    · have hne : q.k ≠ r.k := fun e => hn.1 (by rw [e]; exact List.mem_map.mpr ⟨_, hr, rfl⟩)
      rw [List.filter_cons_of_neg (by simpa using hne)]
      exact ih hn.2 hr

theorem locAll_distinct {α : Type} (rows : List (LRow α)) (hn : (rows.map LRow.k).Nodup) : locAll rows = rows.map LRow.v := by
  unfold locAll
  have : ∀ l : List (LRow α), (∀ r ∈ l, r ∈ rows) →
      l.flatMap (fun r => (rows.filter (fun r' => decide (r'.k = r.k))).map LRow.v) = l.map LRow.v := by
    intro l
    induction l with
    | nil => simp
    | cons r l ih =>
      intro h
      rw [List.flatMap_cons, ih (fun q hq => h q (by simp [hq])), filter_key_single rows hn r (h r (by simp))]
      rfl
  exact this rows (fun _ h => h)

theorem locAll_repeat {α : Type} (rows : List (LRow α)) (hn : ¬ (rows.map LRow.k).Nodup) :
    rows.length < (locAll rows).length := by
  -- a row whose label occurs at least twice contributes two values
  have hex : ∃ r ∈ rows, 2 ≤ (rows.filter (fun r' => decide (r'.k = r.k))).length := by
    by_contra hc
    push Not at hc
    apply hn
    rw [List.nodup_iff_count_le_one]
    intro k
    by_cases hk : k ∈ rows.map LRow.k
    · obtain ⟨r, hr, rfl⟩ := List.mem_map.mp hk
      have := hc r hr
      have hcount : List.count r.k (rows.map LRow.k) = (rows.filter (fun r' => decide (r'.k = r.k))).length := by
        rw [List.count, List.countP_map, List.countP_eq_length_filter]
        congr 1
      omega
    · rw [List.count_eq_zero_of_not_mem hk]; omega
  obtain ⟨r, hr, h2⟩ := hex
  obtain ⟨s, t, rfl⟩ := List.append_of_mem hr
  obtain ⟨rows, hrows⟩ : ∃ A, A = s ++ r :: t := ⟨_, rfl⟩
  rw [← hrows] at h2 ⊢
  unfold locAll
  have hb : ∀ l : List (LRow α), (∀ q ∈ l, q ∈ rows) →
      l.length ≤ (l.flatMap (fun q => (rows.filter (fun r' => decide (r'.k = q.k))).map LRow.v)).length := by
    intro l
    induction l with
    | nil => simp
    | cons q l ih =>
      intro h
      have h1 : 1 ≤ ((rows.filter (fun r' => decide (r'.k = q.k))).map LRow.v).length := by
        rw [List.length_map]
        exact List.length_pos_of_mem (List.mem_filter.mpr ⟨h q (by simp), by simp⟩)
      have h2 := ih (fun q hq => h q (by simp [hq]))
      rw [List.flatMap_cons, List.length_append, List.length_cons]
      omega
  have hs := hb s (fun q hq => by rw [hrows]; simp [hq])
  have ht := hb t (fun q hq => by rw [hrows]; simp [hq])
  have hl : rows.length = s.length + (t.length + 1) := by rw [hrows]; simp
  have hf : (rows.flatMap (fun q => (rows.filter (fun r' => decide (r'.k = q.k))).map LRow.v)).length =
      (s.flatMap (fun q => (rows.filter (fun r' => decide (r'.k = q.k))).map LRow.v)).length +
      (((rows.filter (fun r' => decide (r'.k = r.k))).map LRow.v).length +
      (t.flatMap (fun q => (rows.filter (fun r' => decide (r'.k = q.k))).map LRow.v)).length) := by
    have : rows.flatMap (fun q => (rows.filter (fun r' => decide (r'.k = q.k))).map LRow.v) =
        (s ++ r :: t).flatMap (fun q => (rows.filter (fun r' => decide (r'.k = q.k))).map LRow.v) := by
      conv_lhs => rw [show rows.flatMap (fun q => (rows.filter (fun r' => decide (r'.k = q.k))).map LRow.v) =
        List.flatMap (fun q => (rows.filter (fun r' => decide (r'.k = q.k))).map LRow.v) rows from rfl]
      generalize (fun q : LRow α => (rows.filter (fun r' => decide (r'.k = q.k))).map LRow.v) = F
      rw [hrows]
    rw [this, List.flatMap_append, List.flatMap_cons, List.length_append, List.length_append]
  rw [hf, List.length_map, hl]
  omega

theorem joint_distinct {α κ : Type} (rows : List (LRow α)) (cuts : List κ) (hn : (rows.map LRow.k).Nodup)
    (hl : cuts.length = rows.length) : joint rows cuts = .ok (rows.map LRow.v) := by
  unfold joint
  rw [locAll_distinct rows hn, if_pos (by rw [List.length_map, hl])]

theorem joint_repeat {α κ : Type} (rows : List (LRow α)) (cuts : List κ) (hn : ¬ (rows.map LRow.k).Nodup)
    (hl : cuts.length = rows.length) : joint rows cuts = .error .valueError := by
  unfold joint
  have := locAll_repeat rows hn
  rw [if_neg (by omega)]

/-! ### C228: repeated labels -/

/-- C228 (violated): a histogram of measurements two of which carry the same label cannot be evaluated, whatever the bins, the
normalisation and the aggregation: ValueError, in 1-D and in 2-D. -/
theorem C228_repeated (rows : List (LRow Fl)) (rows2 : List (LRow (Fl × Fl))) (hn : ¬ (rows.map LRow.k).Nodup)
    (hn2 : ¬ (rows2.map LRow.k).Nodup) (e ex ey : List ℝ) (log logx logy : Bool) (axnorm : Option String) (fcn : Option Fcn)
    (c0 c1 a0 a1 : Option ℝ) :
    aggL1 e log axnorm rows fcn c0 c1 = .error .valueError ∧
    aggL2 ex ey logx logy axnorm rows2 fcn c0 c1 a0 a1 = .error .valueError := by
  constructor
  · unfold aggL1
    by_cases h : axnorm = some "d" ∧ fcn = some Fcn.mean
    · rw [if_pos h]
    · rw [if_neg h, joint_repeat rows _ hn (by simp)]
  · unfold aggL2
    rw [joint_repeat rows2 _ hn2 (by simp)]

/-- C228: with distinct labels the aggregate is that of the rows in their order. -/
theorem C228_distinct (rows : List (LRow Fl)) (rows2 : List (LRow (Fl × Fl))) (hn : (rows.map LRow.k).Nodup)
    (hn2 : (rows2.map LRow.k).Nodup) (e ex ey : List ℝ) (log logx logy : Bool) (axnorm : Option String) (fcn : Option Fcn)
    (c0 c1 a0 a1 : Option ℝ) :
    aggL1 e log axnorm rows fcn c0 c1 =
      agg1 e log axnorm (rows.map LRow.v) (rows.map (fun r => cutIdx e r.c)) fcn c0 c1 ∧
    aggL2 ex ey logx logy axnorm rows2 fcn c0 c1 a0 a1 =
      agg2 ex ey logx logy axnorm (rows2.map LRow.v) (rows2.map (fun r => (cutIdx ex r.c.1, cutIdx ey r.c.2))) fcn c0 c1 a0 a1 := by
  constructor
  · unfold aggL1
    by_cases h : axnorm = some "d" ∧ fcn = some Fcn.mean
    · rw [if_pos h]
      obtain ⟨rfl, rfl⟩ := h
      simp [agg1]
    · rw [if_neg h, joint_distinct rows _ hn (by simp)]
  · unfold aggL2
    rw [joint_distinct rows2 _ hn2 (by simp)]

/-! ### C228: values by label -/

theorem setData1_some (log : Bool) (x y : LSer) (hx : x ≠ []) :
    setData1 log x (some y) = match setCol (x.map Prod.fst) y with
      | .error e => .error e
      | .ok vs => .ok ((x.zip vs).map (fun p => ⟨p.1.1, stored log p.1.2, p.2⟩)) := by
  unfold setData1
  simp only []
  rw [if_neg hx]
  cases setCol (x.map Prod.fst) y <;> rfl

/-- the stored rows, by label -/
theorem setData1_distinct (log : Bool) (x y : LSer) (hx : x ≠ []) (hy : (y.map Prod.fst).Nodup) :
    setData1 log x (some y) = .ok (x.map (fun p => ⟨p.1, stored log p.2, y.at p.1⟩)) := by
  rw [setData1_some log x y hx, setCol_distinct _ _ hy]
  simp only [Except.ok.injEq]
  rw [List.map_map]
  clear hx
  induction x with
  | nil => rfl
  | cons p x ih => simpa using ih

/-- C228: the stored rows: the abscissae in the order given, each with the value `y` has at its label, missing if it has none;
labels of `y` alone are left out. -/
theorem C228_rows (log : Bool) (x y : LSer) (hx : x ≠ []) (hy : (y.map Prod.fst).Nodup) :
    ∃ rows, setData1 log x (some y) = .ok rows ∧ rows.length = x.length ∧
      ∀ (i : Nat) (k : Int) (a : Fl), x[i]? = some (k, a) → ∃ w, rows[i]? = some ⟨k, stored log a, w⟩ ∧
        (∀ v, HasAt y k v → w = v) ∧ ((∀ v, ¬ HasAt y k v) → w = .nan) := by
  rw [setData1_distinct log x y hx hy]
  refine ⟨_, rfl, by simp, ?_⟩
  intro i k a hi
  refine ⟨y.at k, ?_, fun v hv => at_of_mem hy hv, fun h => at_of_not_mem ?_⟩
  · rw [List.getElem?_map, hi]
    rfl
  · intro hk
    obtain ⟨⟨k', v⟩, hv, rfl⟩ := List.mem_map.mp hk
    exact h v hv

/-- C228: `y` may be given in any order. -/
theorem C228_order (log : Bool) (x y y' : LSer) (hx : x ≠ []) (hy : (y.map Prod.fst).Nodup) (hp : y.Perm y') :
    setData1 log x (some y) = setData1 log x (some y') := by
  rw [setData1_distinct log x y hx hy, setData1_distinct log x y' hx ((hp.map Prod.fst).nodup_iff.mp hy)]
  have : y.at = y'.at := funext (at_perm hp hy)
  rw [this]

/-- C228: a `y` with a repeated label is refused, unless its labels are exactly those of `x` in the same order; then the values
go by position. -/
theorem C228_repeated_y (log : Bool) (x y : LSer) (hx : x ≠ []) (hy : ¬ (y.map Prod.fst).Nodup) :
    (x.map Prod.fst ≠ y.map Prod.fst → setData1 log x (some y) = .error .valueError) ∧
    (x.map Prod.fst = y.map Prod.fst →
      setData1 log x (some y) = .ok ((x.zip y).map (fun p => ⟨p.1.1, stored log p.1.2, p.2.2⟩))) := by
  rw [setData1_some log x y hx]
  unfold setCol
  constructor
  · intro h
    rw [if_neg (fun e => h e.symm), if_neg hy]
  · intro h
    rw [if_pos h.symm]
    simp only [Except.ok.injEq]
    rw [List.zip_map_right, List.map_map]
    rfl

theorem grp_count_eq (e : List ℝ) (i : Nat) : ∀ rows : List (LRow Fl),
    count (grp (rows.map LRow.v) (rows.map (fun r => cutIdx e r.c)) (some i)) =
      (rows.filter (fun r => decide (cutIdx e r.c = some i ∧ ¬ r.v.isNaN))).length ∧
    (grp (rows.map LRow.v) (rows.map (fun r => cutIdx e r.c)) (some i) = [] ↔ ∀ r ∈ rows, cutIdx e r.c ≠ some i)
  | [] => by simp [grp, count]
  | r :: rows => by
    obtain ⟨h1, h2⟩ := grp_count_eq e i rows
    unfold grp count at *
    by_cases hc : cutIdx e r.c = some i <;> by_cases hv : r.v.isNaN <;> simp_all

/-- C228: the bins of counts, end to end: for distinct labels (in `x` and in `y`), bin `i` holds the number of abscissae in it whose
label has a value in `y`; it is missing when no abscissa lies in it. -/
theorem C228_counts (e : List ℝ) (log : Bool) (x y : LSer) (hx : x ≠ []) (hnx : (x.map Prod.fst).Nodup)
    (hy : (y.map Prod.fst).Nodup) (he : e.Pairwise (· ≤ ·)) :
    ∃ rows out, setData1 log x (some y) = .ok rows ∧ aggL1 e log none rows (some .count) none none = .ok out ∧
      out.length = e.length - 1 ∧ ∀ i < e.length - 1,
        out[i]? = some (if ∀ p ∈ x, ∀ t, stored log p.2 = .fin t → ¬ InBin e i t then .nan
          else .fin ((x.filter (fun p => decide ((∃ t, stored log p.2 = .fin t ∧ InBin e i t) ∧
            ∃ v, HasAt y p.1 v ∧ ¬ v.isNaN))).length : ℕ)) := by
  have hset := setData1_distinct log x y hx hy
  have hk : ((x.map (fun p => (⟨p.1, stored log p.2, y.at p.1⟩ : LRow Fl))).map LRow.k) = x.map Prod.fst := by
    rw [List.map_map]; rfl
  refine ⟨_, (List.range (e.length - 1)).map (fun i => binVal (((x.map (fun p => (⟨p.1, stored log p.2, y.at p.1⟩ : LRow Fl)))).map LRow.v)
      ((x.map (fun p => (⟨p.1, stored log p.2, y.at p.1⟩ : LRow Fl))).map (fun r => cutIdx e r.c)) (some .count) none none (some i)), hset, ?_, ?_⟩
  · rw [(C228_distinct _ [] (by rw [hk]; exact hnx) (by simp) e [] [] log false false none (some .count) none none none none).1]
    rfl
  · refine ⟨by simp, ?_⟩
    intro i hi
    rw [List.getElem?_map, List.getElem?_range hi]
    simp only [Option.map_some, Option.some.injEq]
    have hcut : ∀ v : Fl, cutIdx e v = some i ↔ ∃ t, v = .fin t ∧ InBin e i t := by
      intro v
      cases v with
      | fin t => rw [cutIdx_iff e he]; simp
      | nan => rw [cutIdx_nonfinite e _ (by simp [Fl.isFinite])]; simp
      | pinf => rw [cutIdx_nonfinite e _ (by simp [Fl.isFinite])]; simp
      | ninf => rw [cutIdx_nonfinite e _ (by simp [Fl.isFinite])]; simp
    obtain ⟨h1, h2⟩ := grp_count_eq e i (x.map (fun p => (⟨p.1, stored log p.2, y.at p.1⟩ : LRow Fl)))
    have hnone : (∀ r ∈ x.map (fun p => (⟨p.1, stored log p.2, y.at p.1⟩ : LRow Fl)), cutIdx e r.c ≠ some i) ↔
        ∀ p ∈ x, ∀ t, stored log p.2 = .fin t → ¬ InBin e i t := by
      constructor
      · intro h p hp t ht hb
        exact h _ (List.mem_map.mpr ⟨p, hp, rfl⟩) ((hcut _).mpr ⟨t, ht, hb⟩)
      · intro h r hr
        obtain ⟨p, hp, rfl⟩ := List.mem_map.mp hr
        intro hc
        obtain ⟨t, ht, hb⟩ := (hcut _).mp hc
        exact h p hp t ht hb
    unfold binVal
    by_cases hg : ∀ p ∈ x, ∀ t, stored log p.2 = .fin t → ¬ InBin e i t
    · rw [if_pos hg, if_pos (h2.mpr (hnone.mpr hg))]
    · rw [if_neg hg, if_neg (fun h => hg (hnone.mp (h2.mp h))), if_pos (by simp [climKeep])]
      simp only [chooseFcn, aggVal, h1]
      congr 2
      rw [List.filter_map, List.length_map]
      congr 1
      apply List.filter_congr
      intro p _
      simp only [Function.comp, decide_eq_decide]
      rw [hcut]
      apply and_congr_right
      intro _
      constructor
      · intro hv
        by_cases hm : p.1 ∈ y.map Prod.fst
        · obtain ⟨⟨k', v⟩, hv', hk'⟩ := List.mem_map.mp hm
          have hk'' : k' = p.1 := hk'
          subst hk''
          rw [at_of_mem hy hv'] at hv
          exact ⟨v, hv', hv⟩
        · rw [at_of_not_mem hm] at hv
          exact absurd trivial hv
      · rintro ⟨v, hv, hn⟩
        rw [at_of_mem hy hv]
        exact hn

/-! ### C228: two axes -/

theorem frame2_distinct (x y : LSer) (hx : (x.map Prod.fst).Nodup) (hy : (y.map Prod.fst).Nodup) :
    ∃ idx : List Int, idx.Nodup ∧ (∀ k, k ∈ idx ↔ k ∈ x.map Prod.fst ∨ k ∈ y.map Prod.fst) ∧
      frame2 x y = .ok (idx.map (fun k => (k, x.at k, y.at k))) := by
  unfold frame2
  by_cases h : x.map Prod.fst = y.map Prod.fst
  · refine ⟨x.map Prod.fst, hx, fun k => by rw [← h]; simp, ?_⟩
    rw [if_pos h]
    simp only [Except.ok.injEq]
    have h1 : (x.map Prod.fst).map (fun k => (k, x.at k, y.at k)) =
        (x.map Prod.fst).zip (((x.map Prod.fst).map x.at).zip ((y.map Prod.fst).map y.at)) := by
      rw [← h]
      induction x.map Prod.fst with
      | nil => rfl
      | cons a l ih => simpa using ih
    rw [h1, map_at_self hx, map_at_self hy]
    clear h1 hx hy
    induction x generalizing y with
    | nil => simp
    | cons p x ih =>
      cases y with
      | nil => simp at h
      | cons q y => simpa using ih y (by simpa using (List.cons.inj h).2)
  · refine ⟨((x.map Prod.fst ++ y.map Prod.fst).dedup).insertionSort (· ≤ ·), ?_, ?_, ?_⟩
    · exact (List.perm_insertionSort _ _).nodup_iff.mpr (List.nodup_dedup _)
    · intro k
      rw [(List.perm_insertionSort _ _).mem_iff, List.mem_dedup, List.mem_append]
    · rw [if_neg h, if_pos ⟨hx, hy⟩]

/-- the value of the third Series at a label: 1 without one -/
def ZAt (z : Option LSer) (k : Int) (w : Fl) : Prop :=
  match z with
  | none => w = .fin 1
  | some z => HasAt z k w

/-- the label has a number in `x`, in `y` and in `z` -/
def Complete (x y : LSer) (z : Option LSer) (k : Int) (a b w : Fl) : Prop :=
  HasAt x k a ∧ HasAt y k b ∧ ZAt z k w ∧ ¬ a.isNaN ∧ ¬ b.isNaN ∧ ¬ w.isNaN

theorem at_iff {s : LSer} (hn : (s.map Prod.fst).Nodup) (k : Int) (v : Fl) (hv : ¬ v.isNaN) : s.at k = v ↔ HasAt s k v := by
  constructor
  · intro h
    by_cases hm : k ∈ s.map Prod.fst
    · obtain ⟨⟨k', u⟩, hu, hk⟩ := List.mem_map.mp hm
      have hk' : k' = k := hk
      subst hk'
      rw [at_of_mem hn hu] at h
      rw [← h]; exact hu
    · rw [at_of_not_mem hm] at h
      exact absurd (h ▸ trivial) hv
  · intro h
    exact at_of_mem hn h

/-- C228: the rows of a 2-D histogram (and of a scatter plot): with distinct labels in each Series, in whatever order, one row for
every label with a number in all of them, and no other; without such a label ValueError. -/
theorem C228_rows2 (logx logy : Bool) (x y : LSer) (z : Option LSer) (hx : (x.map Prod.fst).Nodup)
    (hy : (y.map Prod.fst).Nodup) (hz : ∀ s ∈ z, (s.map Prod.fst).Nodup) :
    (∀ rows, setDataZ logx logy x y z = .ok rows → (rows.map LRow.k).Nodup ∧
      ∀ k c w, (⟨k, c, w⟩ : LRow (Fl × Fl)) ∈ rows ↔
        ∃ a b, Complete x y z k a b w ∧ c = (stored logx a, stored logy b)) ∧
    (setDataZ logx logy x y z = .error .valueError ↔ ∀ k a b w, ¬ Complete x y z k a b w) ∧
    (∀ er, setDataZ logx logy x y z = .error er → er = .valueError) := by
  obtain ⟨idx, hnd, hmem, hf⟩ := frame2_distinct x y hx hy
  obtain ⟨g, hg⟩ : ∃ g : Int → Fl, ∀ k, g k = match z with
      | none => Fl.fin 1
      | some z => z.at k := ⟨_, fun _ => rfl⟩
  have hgz : ∀ k w, ¬ w.isNaN → (g k = w ↔ ZAt z k w) := by
    intro k w hw
    rw [hg k]
    cases z with
    | none => exact ⟨fun h => h.symm, fun h => (show w = Fl.fin 1 from h).symm⟩
    | some z => exact at_iff (hz z rfl) k w hw
  have hset : setDataZ logx logy x y z =
      if (idx.filter (fun k => decide (¬ (x.at k).isNaN ∧ ¬ (y.at k).isNaN ∧ ¬ (g k).isNaN))) = [] then .error .valueError
      else .ok ((idx.filter (fun k => decide (¬ (x.at k).isNaN ∧ ¬ (y.at k).isNaN ∧ ¬ (g k).isNaN))).map
        (fun k => ⟨k, (stored logx (x.at k), stored logy (y.at k)), g k⟩)) := by
    unfold setDataZ
    rw [hf]
    have hzs : (match z with
        | none => .ok ((idx.map (fun k => (k, x.at k, y.at k))).map (fun _ => Fl.fin 1))
        | some z => setCol ((idx.map (fun k => (k, x.at k, y.at k))).map (fun r => r.1)) z : Except PyErr (List Fl)) =
        .ok (idx.map g) := by
      cases z with
      | none =>
        simp only [Except.ok.injEq, List.map_map]
        exact List.map_congr_left (fun k _ => (hg k).symm)
      | some z =>
        simp only []
        rw [setCol_distinct _ _ (hz z rfl)]
        simp only [Except.ok.injEq, List.map_map]
        exact List.map_congr_left (fun k _ => (hg k).symm)
    simp only [bind, Except.bind]
    have hzip : (idx.map (fun k => (k, x.at k, y.at k))).zip (idx.map g) = idx.map (fun k => ((k, x.at k, y.at k), g k)) := by
      clear hnd hmem hf hzs
      induction idx with
      | nil => rfl
      | cons a l ih => simpa using ih
    cases z with
    | none =>
      simp only [Except.ok.injEq] at hzs
      simp only [hzs, hzip, List.filter_map, List.map_map, List.map_eq_nil_iff]
      rfl
    | some z =>
      simp only [] at hzs ⊢
      rw [hzs]
      simp only [hzip, List.filter_map, List.map_map, List.map_eq_nil_iff]
      rfl
  have hchar : ∀ k a b w, Complete x y z k a b w ↔
      k ∈ idx ∧ (¬ (x.at k).isNaN ∧ ¬ (y.at k).isNaN ∧ ¬ (g k).isNaN) ∧ x.at k = a ∧ y.at k = b ∧ g k = w := by
    intro k a b w
    constructor
    · rintro ⟨h1, h2, h3, na, nb, nw⟩
      have e1 := (at_iff hx k a na).mpr h1
      have e2 := (at_iff hy k b nb).mpr h2
      have e3 := (hgz k w nw).mpr h3
      refine ⟨(hmem k).mpr (.inl (List.mem_map.mpr ⟨_, h1, rfl⟩)), ?_, e1, e2, e3⟩
      rw [e1, e2, e3]
      exact ⟨na, nb, nw⟩
    · rintro ⟨_, ⟨na, nb, nw⟩, rfl, rfl, rfl⟩
      exact ⟨(at_iff hx k _ na).mp rfl, (at_iff hy k _ nb).mp rfl, (hgz k _ nw).mp rfl, na, nb, nw⟩
  refine ⟨?_, ?_, ?_⟩
  · intro rows hr
    rw [hset] at hr
    split at hr
    · simp at hr
    · simp only [Except.ok.injEq] at hr
      subst hr
      refine ⟨?_, ?_⟩
      · rw [List.map_map]
        have : (LRow.k ∘ fun k => (⟨k, (stored logx (x.at k), stored logy (y.at k)), g k⟩ : LRow (Fl × Fl))) = id := rfl
        rw [this, List.map_id]
        exact hnd.filter _
      · intro k c w
        rw [List.mem_map]
        constructor
        · rintro ⟨k', hk', he⟩
          simp only [LRow.mk.injEq] at he
          obtain ⟨rfl, rfl, rfl⟩ := he
          have hk := List.mem_filter.mp hk'
          simp only [decide_eq_true_eq] at hk
          exact ⟨x.at k', y.at k', (hchar _ _ _ _).mpr ⟨hk.1, hk.2, rfl, rfl, rfl⟩, rfl⟩
        · rintro ⟨a, b, hc, rfl⟩
          obtain ⟨hk, hn, rfl, rfl, rfl⟩ := (hchar _ _ _ _).mp hc
          exact ⟨k, List.mem_filter.mpr ⟨hk, by simpa using hn⟩, rfl⟩
  · rw [hset]
    constructor
    · intro h k a b w hc
      split at h
      · rename_i hnil
        obtain ⟨hk, hn, -⟩ := (hchar _ _ _ _).mp hc
        rw [List.filter_eq_nil_iff] at hnil
        exact hnil k hk (by simpa using hn)
      · simp at h
    · intro h
      rw [if_pos]
      rw [List.filter_eq_nil_iff]
      intro k hk hn
      simp only [decide_eq_true_eq] at hn
      exact h k _ _ _ ((hchar k _ _ _).mpr ⟨hk, hn, rfl, rfl, rfl⟩)
  · intro er h
    rw [hset] at h
    split at h
    · simpa using h.symm
    · simp at h

/-- C228: in 2-D two Series with different labels are refused as soon as one repeats a label. -/
theorem C228_repeated2 (logx logy : Bool) (x y : LSer) (z : Option LSer) (h : x.map Prod.fst ≠ y.map Prod.fst)
    (hr : ¬ (x.map Prod.fst).Nodup ∨ ¬ (y.map Prod.fst).Nodup) : setDataZ logx logy x y z = .error .valueError := by
  unfold setDataZ frame2
  rw [if_neg h, if_neg (by tauto)]
  rfl

/-! ### Cases -/

/-- two measurements at the same time: no histogram -/
example : ∃ rows, setData1 false [(7, .fin 1), (7, .fin 2)] none = .ok rows ∧
    aggL1 [0, 1, 2] false none rows none none none = .error .valueError :=
  ⟨_, rfl, (C228_repeated _ [⟨0, (.nan, .nan), .nan⟩, ⟨0, (.nan, .nan), .nan⟩] (by simp) (by simp) _ [] [] _ false false _ _ _ _
    none none).1⟩

/-- `y` in another order, without a value at 8 and with one at 9, where `x` has none -/
example : setData1 false [(7, .fin 1), (8, .fin 2), (6, .fin 3)] (some [(9, .fin 50), (6, .fin 60), (7, .fin 70)]) =
    .ok [⟨7, .fin 1, .fin 70⟩, ⟨8, .fin 2, .nan⟩, ⟨6, .fin 3, .fin 60⟩] := by
  rw [setData1_distinct _ _ _ (by simp) (by simp)]
  simp [LSer.at, List.find?, stored]

/-- three Series over different times: one complete row -/
example : Complete [(1, .fin 5), (2, .fin 6)] [(2, .fin 7), (3, .fin 8)] none 2 (.fin 6) (.fin 7) (.fin 1) :=
  ⟨by simp [HasAt], by simp [HasAt], rfl, by simp [Fl.isNaN], by simp [Fl.isNaN], by simp [Fl.isNaN]⟩

/-! ### C229: the 1-D histogram of an orbit -/

/-- the time lies in the leg: the first or the second interval -/
def InLeg (a b : Int × Int) (l : Orb.Leg) (t : Int) : Prop :=
  match l with
  | .inbound => Orb.During a t
  | .outbound => Orb.During b t

theorem leg_iff (a b : Int × Int) (hd : a.2 ≤ b.1) (l : Orb.Leg) (t : Int) : Orb.leg a b t = some l ↔ InLeg a b l t := by
  unfold Orb.leg InLeg Orb.During
  cases l <;> simp only [] <;> split <;> (try split) <;> simp <;> omega

theorem grp_leg_count (e : List ℝ) (f : Int → Option Orb.Leg) (i : Nat) (l : Orb.Leg) : ∀ rows : List (LRow Fl),
    count (grp (rows.map LRow.v) ((rows.map (fun r => cutIdx e r.c)).zip ((rows.map LRow.k).map f)) (some i, some l)) =
      (rows.filter (fun r => decide (cutIdx e r.c = some i ∧ f r.k = some l ∧ ¬ r.v.isNaN))).length
  | [] => by simp [grp, count]
  | r :: rows => by
    have h := grp_leg_count e f i l rows
    unfold grp count at *
    by_cases hc : cutIdx e r.c = some i <;> by_cases hl : f r.k = some l <;> by_cases hv : r.v.isNaN <;> simp_all

theorem cutIdx_in (e : List ℝ) (he : e.Pairwise (· ≤ ·)) (v : Fl) (i : Nat) :
    cutIdx e v = some i ↔ ∃ t, v = .fin t ∧ InBin e i t := by
  cases v with
  | fin t => rw [cutIdx_iff e he]; simp
  | nan => rw [cutIdx_nonfinite e _ (by simp [Fl.isFinite])]; simp
  | pinf => rw [cutIdx_nonfinite e _ (by simp [Fl.isFinite])]; simp
  | ninf => rw [cutIdx_nonfinite e _ (by simp [Fl.isFinite])]; simp

/-- C229: the count curve of a leg holds in bin `i` the number of measurements in the bin at times of that leg that have a value;
0, not missing, where there is none. -/
theorem C229_counts (e : List ℝ) (he : e.Pairwise (· ≤ ·)) (a b : Int × Int) (rest : List (Int × Int)) (hab : a.2 ≤ b.1)
    (hd : Orb.Disjoint (a :: b :: rest)) (rows : List (LRow Fl)) (hn : (rows.map LRow.k).Nodup) :
    ∃ out, orbitAgg1 e none (a :: b :: rest) rows (some .count) none none = .ok out ∧ ∀ l, (out l).length = e.length - 1 ∧
      ∀ i < e.length - 1, (out l)[i]? = some (.fin ((rows.filter (fun r => decide ((∃ t, r.c = .fin t ∧ InBin e i t) ∧
        InLeg a b l r.k ∧ ¬ r.v.isNaN))).length : ℕ)) := by
  have hov : ¬ Orb.overlapping (a :: b :: rest) := fun h => h hd
  unfold orbitAgg1 Orb.legs
  rw [if_neg hov]
  simp only []
  rw [if_neg (by simp), joint_distinct rows _ hn (by simp)]
  refine ⟨_, rfl, fun l => ⟨by simp, ?_⟩⟩
  intro i hi
  rw [List.getElem?_map, List.getElem?_range hi]
  simp only [Option.map_some, Option.some.injEq]
  unfold legVal1
  rw [if_pos (by simp [climKeep])]
  simp only [chooseFcn, aggVal]
  rw [grp_leg_count e (Orb.leg a b) i l rows]
  congr 3
  apply List.filter_congr
  intro r _
  rw [decide_eq_decide, cutIdx_in e he, leg_iff a b hab]

/-- C229: a measurement is in at most one curve: the curves of the legs add up to the measurements in the bin during the legs. -/
theorem C229_total (e : List ℝ) (he : e.Pairwise (· ≤ ·)) (a b : Int × Int) (rest : List (Int × Int)) (hab : a.2 ≤ b.1)
    (hd : Orb.Disjoint (a :: b :: rest)) (rows : List (LRow Fl)) (hn : (rows.map LRow.k).Nodup) (i : Nat) (hi : i < e.length - 1) :
    ∃ out m n, orbitAgg1 e none (a :: b :: rest) rows (some .count) none none = .ok out ∧
      (out .inbound)[i]? = some (.fin (m : ℕ)) ∧ (out .outbound)[i]? = some (.fin (n : ℕ)) ∧
      m + n = (rows.filter (fun r => decide ((∃ t, r.c = .fin t ∧ InBin e i t) ∧
        (Orb.During a r.k ∨ Orb.During b r.k) ∧ ¬ r.v.isNaN))).length := by
  obtain ⟨out, ho, h⟩ := C229_counts e he a b rest hab hd rows hn
  refine ⟨out, _, _, ho, (h .inbound).2 i hi, (h .outbound).2 i hi, ?_⟩
  clear h ho hn
  induction rows with
  | nil => simp
  | cons r rows ih =>
    have hex : ¬ (Orb.During a r.k ∧ Orb.During b r.k) := by unfold Orb.During; omega
    simp only [InLeg] at ih ⊢
    by_cases h1 : ∃ t, r.c = .fin t ∧ InBin e i t <;> by_cases h2 : Orb.During a r.k <;> by_cases h3 : Orb.During b r.k <;>
      by_cases h4 : r.v.isNaN <;> simp_all <;> omega

/-- C229 (violated): the density of an orbit's 1-D histogram cannot be made: TypeError for counts, ValueError for means. -/
theorem C229_density (e : List ℝ) (a b : Int × Int) (rest : List (Int × Int)) (hd : Orb.Disjoint (a :: b :: rest))
    (rows : List (LRow Fl)) (hn : (rows.map LRow.k).Nodup) (fcn : Option Fcn) (c0 c1 : Option ℝ) :
    orbitAgg1 e (some "d") (a :: b :: rest) rows fcn c0 c1 =
      .error (if fcn = some .mean then .valueError else .typeError) := by
  have hov : ¬ Orb.overlapping (a :: b :: rest) := fun h => h hd
  unfold orbitAgg1 Orb.legs
  rw [if_neg hov]
  simp only []
  by_cases hf : fcn = some .mean
  · rw [if_pos (by simp [hf]), if_pos hf]
  · rw [if_neg (fun h => hf h.2), if_neg hf, joint_distinct rows _ hn (by simp)]

/-- one measurement inbound, two outbound in the same bin, one after the orbit -/
example : Orb.Disjoint [(0, 10), (10, 20)] ∧ (10 : Int) ≤ 10 ∧
    ((([⟨5, .fin 1, .fin 1⟩, ⟨12, .fin 1, .fin 1⟩, ⟨20, .fin 1, .fin 1⟩, ⟨21, .fin 1, .fin 1⟩] : List (LRow Fl)).map LRow.k).Nodup) ∧
    InLeg (0, 10) (10, 20) .inbound 5 ∧ InLeg (0, 10) (10, 20) .outbound 20 ∧ ¬ InLeg (0, 10) (10, 20) .outbound 21 := by
  refine ⟨by simp [Orb.Disjoint], by omega, by simp, ?_, ?_, ?_⟩ <;> simp [InLeg, Orb.During]

/-! ### C230: the beta-anisotropy plot -/

theorem grp2_count_eq (ex ey : List ℝ) (i j : Nat) : ∀ rows : List (LRow (Fl × Fl)),
    (∀ r ∈ rows, ¬ r.v.isNaN) →
    count (grp (rows.map LRow.v) (rows.map (fun r => (cutIdx ex r.c.1, cutIdx ey r.c.2))) (some i, some j)) =
      (rows.filter (fun r => decide (cutIdx ex r.c.1 = some i ∧ cutIdx ey r.c.2 = some j))).length ∧
    (grp (rows.map LRow.v) (rows.map (fun r => (cutIdx ex r.c.1, cutIdx ey r.c.2))) (some i, some j) = [] ↔
      rows.filter (fun r => decide (cutIdx ex r.c.1 = some i ∧ cutIdx ey r.c.2 = some j)) = [])
  | [], _ => by simp [grp, count]
  | r :: rows, h => by
    obtain ⟨h1, h2⟩ := grp2_count_eq ex ey i j rows (fun q hq => h q (by simp [hq]))
    have hv := h r (by simp)
    unfold grp count at *
    by_cases hc : cutIdx ex r.c.1 = some i <;> by_cases hd : cutIdx ey r.c.2 = some j <;> simp_all

theorem dedup_ones (l : List Fl) (hl : l ≠ []) (h : ∀ v ∈ l, v = .fin 1) : l.dedup = [.fin 1] := by
  have h1 : ∀ v, v ∈ l.dedup ↔ v = .fin 1 := by
    intro v
    rw [List.mem_dedup]
    constructor
    · exact h v
    · rintro rfl
      obtain ⟨w, hw⟩ := List.exists_mem_of_ne_nil l hl
      exact (h w hw) ▸ hw
  have h2 := List.nodup_dedup l
  generalize l.dedup = d at h1 h2
  match d, h1, h2 with
  | [], h1, _ => exact absurd ((h1 (.fin 1)).mpr rfl) (by simp)
  | [v], h1, _ => rw [(h1 v).mp (by simp)]
  | v :: w :: d, h1, h2 =>
    have e1 := (h1 v).mp (by simp)
    have e2 := (h1 w).mp (by simp)
    simp [e1, e2] at h2

/-- measurement `k` falls in cell `(i, j)`: it has a beta and an anisotropy, and their logarithms lie in the bins -/
def InCell (ex ey : List ℝ) (beta ani : LSer) (i j : Nat) (k : Int) : Prop :=
  ∃ a b t u, HasAt beta k a ∧ HasAt ani k b ∧ log10abs a = .fin t ∧ log10abs b = .fin u ∧ InBin ex i t ∧ InBin ey j u

theorem nan_of_log10 (a : Fl) (t : ℝ) (h : log10abs a = .fin t) : ¬ a.isNaN := by
  intro hn
  cases a with
  | nan => exact absurd h (by simp [log10abs, Fl.abs, Fl.log])
  | _ => exact hn

/-- C230: the plot by default shows in each cell the number of times at which beta and anisotropy both fall into it, provided there
are at least five, and nothing otherwise; it can be made whenever at least one time has both. -/
theorem C230_cells (beta ani : LSer) (hx : (beta.map Prod.fst).Nodup) (hy : (ani.map Prod.fst).Nodup)
    (ex ey : List ℝ) (hex : ex.Pairwise (· ≤ ·)) (hey : ey.Pairwise (· ≤ ·))
    (h1 : ∃ k a b, HasAt beta k a ∧ HasAt ani k b ∧ ¬ a.isNaN ∧ ¬ b.isNaN) :
    ∃ g, betaR none none beta ani ex ey = .ok g ∧ ∀ i j, ∃ ks : List Int, ks.Nodup ∧
      (∀ k, k ∈ ks ↔ InCell ex ey beta ani i j k) ∧
      g i j = if 5 ≤ ks.length then .fin (ks.length : ℕ) else .nan := by
  obtain ⟨hr, he, heo⟩ := C228_rows2 true true beta ani none hx hy (by simp)
  have hok : ∃ rows, setDataZ true true beta ani none = .ok rows := by
    cases hs : setDataZ true true beta ani none with
    | ok rows => exact ⟨rows, rfl⟩
    | error er =>
      have := heo er hs
      subst this
      obtain ⟨k, a, b, ha, hb, na, nb⟩ := h1
      exact absurd ⟨ha, hb, rfl, na, nb, by simp [Fl.isNaN]⟩ (he.mp hs k a b (.fin 1))
  obtain ⟨rows, hs⟩ := hok
  obtain ⟨hn, hm⟩ := hr rows hs
  have hv : ∀ r ∈ rows, r.v = .fin 1 := by
    intro r hr
    obtain ⟨a, b, hc, -⟩ := (hm r.k r.c r.v).mp hr
    exact hc.2.2.1
  have hne : rows ≠ [] := by
    obtain ⟨k, a, b, ha, hb, na, nb⟩ := h1
    have := (hm k _ (.fin 1)).mpr ⟨a, b, ⟨ha, hb, rfl, na, nb, by simp [Fl.isNaN]⟩, rfl⟩
    exact fun h => by rw [h] at this; simp at this
  have hch : chooseFcn none (rows.map LRow.v) = .count := by
    unfold chooseFcn
    simp only []
    rw [List.filter_eq_self.mpr, dedup_ones]
    · simp
    · simpa using hne
    · intro v hv'
      obtain ⟨r, hr, rfl⟩ := List.mem_map.mp hv'
      exact hv r hr
    · intro v hv'
      obtain ⟨r, hr, rfl⟩ := List.mem_map.mp hv'
      simp [hv r hr, Fl.isNaN]
  have hag := (C228_distinct [] rows (by simp) hn [] ex ey false true true none none (some 5) none none none).2
  refine ⟨fun i j => alimMask none none (binVal (rows.map LRow.v) (rows.map (fun r => (cutIdx ex r.c.1, cutIdx ey r.c.2))) none
      (some 5) none (some i, some j)), ?_, ?_⟩
  · unfold betaR
    simp only [Option.getD_none]
    rw [hs]
    simp only []
    rw [hag]
    rfl
  · intro i j
    refine ⟨(rows.filter (fun r => decide (cutIdx ex r.c.1 = some i ∧ cutIdx ey r.c.2 = some j))).map LRow.k,
      hn.sublist (List.filter_sublist.map _), ?_, ?_⟩
    · intro k
      rw [List.mem_map]
      constructor
      · rintro ⟨r, hr, rfl⟩
        obtain ⟨hr, hc⟩ := List.mem_filter.mp hr
        simp only [decide_eq_true_eq, cutIdx_in ex hex, cutIdx_in ey hey] at hc
        obtain ⟨a, b, hcp, hcc⟩ := (hm r.k r.c r.v).mp hr
        obtain ⟨⟨t, ht, hbt⟩, u, hu, hbu⟩ := hc
        rw [hcc] at ht hu
        exact ⟨a, b, t, u, hcp.1, hcp.2.1, ht, hu, hbt, hbu⟩
      · rintro ⟨a, b, t, u, ha, hb, ht, hu, hbt, hbu⟩
        refine ⟨⟨k, (stored true a, stored true b), .fin 1⟩, List.mem_filter.mpr ⟨?_, ?_⟩, rfl⟩
        · exact (hm k _ _).mpr ⟨a, b, ⟨ha, hb, rfl, nan_of_log10 a t ht, nan_of_log10 b u hu, by simp [Fl.isNaN]⟩, rfl⟩
        · simp only [decide_eq_true_eq, cutIdx_in ex hex, cutIdx_in ey hey]
          exact ⟨⟨t, ht, hbt⟩, u, hu, hbu⟩
    · obtain ⟨g1, g2⟩ := grp2_count_eq ex ey i j rows (fun r hr => by simp [hv r hr, Fl.isNaN])
      simp only [List.length_map]
      have hal : ∀ v, alimMask none none v = v := by intro v; simp [alimMask]
      rw [hal]
      unfold binVal
      rw [hch]
      obtain ⟨F, hF⟩ : ∃ F, F = rows.filter (fun r => decide (cutIdx ex r.c.1 = some i ∧ cutIdx ey r.c.2 = some j)) := ⟨_, rfl⟩
      rw [← hF] at g1 g2 ⊢
      by_cases hnil : F = []
      · rw [if_pos (g2.mpr hnil), hnil]
        simp
      · rw [if_neg (fun h => hnil (g2.mp h)), g1]
        simp only [aggVal, g1, climKeep]
        by_cases h5 : 5 ≤ F.length
        · rw [if_pos h5, if_pos]
          constructor
          · intro a ha
            simp only [Option.mem_def, Option.some.injEq] at ha
            subst ha
            exact_mod_cast h5
          · simp
        · rw [if_neg h5, if_neg]
          intro h
          have := h.1 5 rfl
          exact h5 (by exact_mod_cast this)

/-- C230: the anisotropy is labelled as one of pressures for a sum of species and of temperatures otherwise. -/
theorem C230_labels (strip : String → String) (species : String) :
    ((betaRLabels strip species).2.2.1 = "P" ↔ '+' ∈ species.toList) ∧
    ((betaRLabels strip species).2.2.1 = "T" ↔ '+' ∉ species.toList) ∧
    (betaRLabels strip species).1.2.2 = strip species ∧ (betaRLabels strip species).2.2.2 = strip species := by
  unfold betaRLabels
  by_cases h : '+' ∈ species.toList <;> simp [h]

/-- a time in a cell: log10 beta = 0 in (-1, 0], log10 R = 0 in (-1, 0] -/
example : InCell [-1, 0] [-1, 0] [(3, .fin 1)] [(3, .fin (-1))] 0 0 3 := by
  refine ⟨.fin 1, .fin (-1), 0, 0, by simp [HasAt], by simp [HasAt], ?_, ?_, ?_, ?_⟩
  · have h10 : Real.log 10 ≠ 0 := (Real.log_pos (by norm_num)).ne'
    simp only [log10abs, Fl.abs, abs_one, Fl.log, if_neg (show ¬ (1 : ℝ) < 0 by norm_num), if_neg one_ne_zero, Real.log_one]
    rw [Fl.fin_div _ _ h10, zero_div]
  · have h10 : Real.log 10 ≠ 0 := (Real.log_pos (by norm_num)).ne'
    simp only [log10abs, Fl.abs, abs_neg, abs_one, Fl.log, if_neg (show ¬ (1 : ℝ) < 0 by norm_num), if_neg one_ne_zero, Real.log_one]
    rw [Fl.fin_div _ _ h10, zero_div]
  · simp [InBin]
  · simp [InBin]

end Hist
end SW
