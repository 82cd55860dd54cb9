import Verif.Props.FitFuncs

/-!
# Properties C152, C153: initial guesses on noise-free data

Specification used here: the data are given as real lists; a sample "on two lines" is one whose ordinates are
`m1 (x - x1)` at abscissae on the left of the transition and `m2 (x - x2)` on the right; a median of a sample is a
number with at least half of the sample on either side.
-/

namespace SW
noncomputable section
open Classical Fl

/-! ### medians -/

/-- at least half of the sample is `≤ m` and at least half is `≥ m` -/
def IsMedian (l : List ℝ) (m : ℝ) : Prop :=
  l.length ≤ 2 * (l.filter (fun t => decide (t ≤ m))).length ∧
  l.length ≤ 2 * (l.filter (fun t => decide (m ≤ t))).length

theorem take_all_le {s : List ℝ} (hs : s.Pairwise (· ≤ ·)) (k : Nat) (hk : k < s.length) (m : ℝ) (hm : s[k] ≤ m) :
    k + 1 ≤ (s.filter (fun t => decide (t ≤ m))).length := by
  have h1 : (s.take (k + 1)).filter (fun t => decide (t ≤ m)) = s.take (k + 1) := by
    rw [List.filter_eq_self]
    intro a ha
    obtain ⟨i, hi, rfl⟩ := List.getElem_of_mem ha
    rw [List.length_take] at hi
    simp only [List.getElem_take, decide_eq_true_eq]
    refine le_trans ?_ hm
    rcases Nat.lt_or_ge i k with h | h
    · exact List.pairwise_iff_getElem.mp hs i k (by omega) hk h
    · have : i = k := by omega
      subst this; exact le_rfl
  have h2 : ((s.take (k + 1)).filter (fun t => decide (t ≤ m))).length ≤ (s.filter (fun t => decide (t ≤ m))).length :=
    ((List.take_sublist (k + 1) s).filter _).length_le
  rw [h1, List.length_take] at h2
  omega

theorem drop_all_ge {s : List ℝ} (hs : s.Pairwise (· ≤ ·)) (k : Nat) (hk : k < s.length) (m : ℝ) (hm : m ≤ s[k]) :
    s.length - k ≤ (s.filter (fun t => decide (m ≤ t))).length := by
  have h1 : (s.drop k).filter (fun t => decide (m ≤ t)) = s.drop k := by
    rw [List.filter_eq_self]
    intro a ha
    obtain ⟨i, hi, rfl⟩ := List.getElem_of_mem ha
    rw [List.length_drop] at hi
    simp only [List.getElem_drop, decide_eq_true_eq]
    refine le_trans hm ?_
    rcases Nat.eq_zero_or_pos i with h | h
    · subst h; simp
    · exact List.pairwise_iff_getElem.mp hs k (k + i) hk (by omega) (by omega)
  have h2 : ((s.drop k).filter (fun t => decide (m ≤ t))).length ≤ (s.filter (fun t => decide (m ≤ t))).length :=
    ((List.drop_sublist k s).filter _).length_le
  rw [h1, List.length_drop] at h2
  omega

theorem mergeSort_map_fin (l : List ℝ) :
    (l.map fin).mergeSort (fun a b => decide (Fl.le a b)) = (l.mergeSort (fun a b => decide (a ≤ b))).map fin := by
  rw [List.map_mergeSort]
  intro a _ b _
  simp [le_fin]

/-- the model's median of a finite non-empty sample is a median -/
theorem npMedian_spec (l : List ℝ) (hl : l ≠ []) : ∃ m : ℝ, npMedian (l.map fin) = fin m ∧ IsMedian l m := by
  obtain ⟨s, hs⟩ : ∃ s, s = l.mergeSort (fun a b => decide (a ≤ b)) := ⟨_, rfl⟩
  have hperm : s.Perm l := by rw [hs]; exact List.mergeSort_perm _ _
  have hlen : s.length = l.length := hperm.length_eq
  have hsort : s.Pairwise (· ≤ ·) := by
    have := List.pairwise_mergeSort (le := fun a b : ℝ => decide (a ≤ b))
      (by intro a b c; simp only [decide_eq_true_eq]; exact le_trans)
      (by intro a b; simp only [Bool.or_eq_true, decide_eq_true_eq]; exact le_total a b) l
    rw [← hs] at this
    exact this.imp (by intro a b h; simpa using h)
  have hpos : 0 < l.length := List.length_pos_iff.mpr hl
  have hcount : ∀ p : ℝ → Bool, (l.filter p).length = (s.filter p).length := fun p => ((hperm.filter p).length_eq).symm
  have hget : ∀ k, (hk : k < s.length) → ((l.map fin).mergeSort (fun a b => decide (Fl.le a b))).getD k nan = fin s[k] := by
    intro k hk
    rw [mergeSort_map_fin, ← hs, List.getD_eq_getElem _ _ (by simpa using hk)]
    simp
  unfold npMedian
  rw [if_neg (by
    rintro (h1 | ⟨a, ha, hn⟩)
    · exact hl (by simpa using h1)
    · obtain ⟨r, _, rfl⟩ := List.mem_map.mp ha; exact hn)]
  simp only [List.length_map]
  split
  · rename_i hodd
    have hk : l.length / 2 < s.length := by omega
    refine ⟨s[l.length / 2], hget _ hk, ?_, ?_⟩
    · rw [hcount]
      have := take_all_le hsort _ hk _ le_rfl
      omega
    · rw [hcount]
      have := drop_all_ge hsort _ hk _ le_rfl
      omega
  · rename_i heven
    have hk : l.length / 2 < s.length := by omega
    have hk1 : l.length / 2 - 1 < s.length := by omega
    have hle : s[l.length / 2 - 1] ≤ s[l.length / 2] :=
      List.pairwise_iff_getElem.mp hsort _ _ hk1 hk (by omega)
    refine ⟨(s[l.length / 2 - 1] + s[l.length / 2]) / 2, ?_, ?_, ?_⟩
    · rw [hget _ hk, hget _ hk1, fin_add, fin_div _ _ (by norm_num)]
    · rw [hcount]
      have := take_all_le hsort _ hk1 ((s[l.length / 2 - 1] + s[l.length / 2]) / 2) (by linarith)
      omega
    · rw [hcount]
      have := drop_all_ge hsort _ hk ((s[l.length / 2 - 1] + s[l.length / 2]) / 2) (by linarith)
      omega

theorem npNanMedian_const (l : List Fl) (c : ℝ) (hl : l ≠ []) (h : ∀ a ∈ l, a = fin c) : npNanMedian l = fin c := by
  unfold npNanMedian
  have : l.filter (fun a => decide ¬ a.isNaN) = l := by
    rw [List.filter_eq_self]
    intro a ha
    rw [h a ha]
    simp [Fl.isNaN]
  rw [this]
  exact npMedian_const l c hl h

/-! ### selection -/

theorem selBy_map (p : Fl → Prop) (q : ℝ → Prop) (hpq : ∀ t, p (fin t) ↔ q t) (f : ℝ → ℝ) (xs : List ℝ) :
    selBy p (xs.map fin) (xs.map (fun t => fin (f t))) = (xs.filter (fun t => decide (q t))).map (fun t => fin (f t)) := by
  unfold selBy
  induction xs with
  | nil => rfl
  | cons a xs ih =>
    by_cases h : q a
    · have h' := (hpq a).mpr h
      simp [compress, h, h'] at ih ⊢
      exact ih
    · have h' : ¬ p (fin a) := fun h1 => h ((hpq a).mp h1)
      simp [compress, h, h'] at ih ⊢
      exact ih

/-- the abscissae on one side: at least two, consecutive ones different -/
def GoodSide (xs : List ℝ) : Prop := 2 ≤ xs.length ∧ ∀ k, k + 1 < xs.length → xs.getD k 0 ≠ xs.getD (k + 1) 0

theorem GoodSide.dxOk {xs : List ℝ} (h : GoodSide xs) : dxOk (xs.map fin) := by
  have hd := h.2
  clear h
  unfold SW.dxOk
  induction xs with
  | nil => intro d h; simp [ediff1d] at h
  | cons a xs ih =>
    cases xs with
    | nil => intro d h; simp [ediff1d] at h
    | cons c xs =>
      intro d h
      simp only [List.map_cons, ediff1d, List.mem_cons] at h
      rcases h with h | h
      · have := hd 0 (by simp)
        simp at this
        rw [h, fin_sub]
        refine ⟨trivial, ?_⟩
        simp only [Fl.abs, lt_fin, abs_pos]
        exact sub_ne_zero.mpr (Ne.symm this)
      · refine ih ?_ d h
        intro k hk
        have := hd (k + 1) (by simpa using hk)
        simpa using this

theorem slopes_ne_nil {xs : List ℝ} (h : GoodSide xs) (f : ℝ → ℝ) :
    List.zipWith (· / ·) (ediff1d (xs.map (fun t => fin (f t)))) (ediff1d (xs.map fin)) ≠ [] := by
  match xs, h.1 with
  | a :: c :: xs, _ => simp [ediff1d]

theorem slopes_line {xs : List ℝ} (h : GoodSide xs) (m x1 : ℝ) :
    ∀ q ∈ List.zipWith (· / ·) (ediff1d (xs.map (fun t => fin (m * (t - x1))))) (ediff1d (xs.map fin)), q = fin m := by
  have e : (fun t => fin (m * (t - x1))) = (fun t => fin (m * t + (-(m * x1)))) := by
    funext t; congr 1; ring
  rw [e]
  exact ediff1d_line xs m _ h.dxOk

theorem intercepts_line {xs : List ℝ} (m x1 : ℝ) (hm : m ≠ 0) :
    ∀ q ∈ List.zipWith (fun xi yi => xi - yi / fin m) (xs.map fin) (xs.map (fun t => fin (m * (t - x1)))), q = fin x1 := by
  intro q hq
  rw [zipWith_same] at hq
  obtain ⟨t, _, rfl⟩ := List.mem_map.mp hq
  rw [fin_div _ _ hm, fin_sub, fin_inj]
  field_simp; ring

theorem intercepts_ne_nil {xs : List ℝ} (h : GoodSide xs) (f : ℝ → ℝ) (m : Fl) :
    List.zipWith (fun xi yi => xi - yi / m) (xs.map fin) (xs.map (fun t => fin (f t))) ≠ [] := by
  match xs, h.1 with
  | a :: c :: xs, _ => simp

/-- selecting one side of a two-piece sample -/
theorem sel_side (p : Fl → Prop) (q : ℝ → Prop) (hpq : ∀ t, p (fin t) ↔ q t) (f g : ℝ → ℝ) (xs : List ℝ)
    (hfg : ∀ t, q t → f t = g t) :
    selBy p (xs.map fin) (xs.map fin) = (xs.filter (fun t => decide (q t))).map fin ∧
    selBy p (xs.map fin) (xs.map (fun t => fin (f t))) = (xs.filter (fun t => decide (q t))).map (fun t => fin (g t)) := by
  refine ⟨selBy_map p q hpq (fun t => t) xs, ?_⟩
  rw [selBy_map p q hpq]
  apply List.map_congr_left
  intro a ha
  rw [hfg a (by simpa using (List.mem_filter.mp ha).2)]

theorem estimateLine_exact (p : Fl → Prop) (q : ℝ → Prop) (hpq : ∀ t, p (fin t) ↔ q t) (f : ℝ → ℝ) (xs : List ℝ)
    (m x1 : ℝ) (hm : m ≠ 0) (hf : ∀ t, q t → f t = m * (t - x1))
    (hs : GoodSide (xs.filter (fun t => decide (q t)))) :
    estimateLine p (xs.map fin) (xs.map (fun t => fin (f t))) = (fin x1, fin m) := by
  obtain ⟨e1, e2⟩ := sel_side p q hpq f (fun t => m * (t - x1)) xs hf
  unfold estimateLine
  simp only [e1, e2]
  rw [npNanMedian_const _ m (slopes_ne_nil hs _) (slopes_line hs m x1),
    npNanMedian_const _ x1 (intercepts_ne_nil hs _ _) (intercepts_line m x1 hm)]

/-! ### C152 -/

/-- the sample of two lines meeting (or jumping) at `g`; `left` says which abscissae use the first line -/
def onTwoLines (left : ℝ → Prop) (m1 x1 m2 x2 : ℝ) (t : ℝ) : ℝ := if left t then m1 * (t - x1) else m2 * (t - x2)

/-- C152: on noise-free two-line data, with the true transition as guess, `TwoLine`'s initial guess is exact. -/
theorem C152_twoLine (xs : List ℝ) (g m1 x1 m2 x2 : ℝ) (h1 : m1 ≠ 0) (h2 : m2 ≠ 0)
    (hl : GoodSide (xs.filter (fun t => decide (t ≤ g)))) (hr : GoodSide (xs.filter (fun t => decide (g < t)))) :
    twoLineP0 (fin g) (xs.map fin) (xs.map (fun t => fin (onTwoLines (· ≤ g) m1 x1 m2 x2 t))) =
      .ok [fin x1, fin x2, fin m1, fin m2] := by
  have hn : 4 ≤ xs.length := by
    have a := hl.1; have b := hr.1
    have : (xs.filter (fun t => decide (t ≤ g))).length + (xs.filter (fun t => decide (g < t))).length = xs.length := by
      clear hl hr a b
      induction xs with
      | nil => rfl
      | cons c xs ih =>
        by_cases hc : c ≤ g
        · have hc' : ¬ g < c := not_lt.mpr hc
          simp [hc, hc']; omega
        · have hc' : g < c := not_le.mp hc
          simp [hc, hc']; omega
    omega
  unfold twoLineP0
  rw [if_neg (by simp; omega)]
  rw [estimateLine_exact (fun t => Fl.le t (fin g)) (· ≤ g) (fun t => le_fin t g) _ xs m1 x1 h1
      (fun t ht => by simp [onTwoLines, ht]) hl,
    estimateLine_exact (fun t => ¬ Fl.le t (fin g)) (g < ·) (fun t => by rw [le_fin, not_le]) _ xs m2 x2 h2
      (fun t ht => by simp [onTwoLines, not_le.mpr ht]) hr]

/-- C152: ... and so is `Saturation`'s: `x1`, the transition, the common height there, and the angle between the lines
(for `1 + m1 m2 > 0`, in particular for two non-negative slopes), so the curve at the guess is the true one by C53. -/
theorem C152_saturation (xs : List ℝ) (g s gs : Fl) (xg sr m1 x1 m2 x2 : ℝ) (hg : g = fin xg) (hsr : s = fin sr)
    (h1 : m1 ≠ 0) (h2 : m2 ≠ 0)
    (hs1 : m1 * (xg - x1) = sr) (hs2 : m2 * (xg - x2) = sr) (hpos : 0 < 1 + m1 * m2)
    (hn : 4 ≤ xs.length)
    (hl : GoodSide (xs.filter (fun t => decide (t ≤ xg)))) (hr : GoodSide (xs.filter (fun t => decide (xg < t)))) :
    saturationP0 (g, gs) (xs.map fin) (xs.map (fun t => fin (onTwoLines (· ≤ xg) m1 x1 m2 x2 t))) =
      .ok [fin x1, g, s, twoLineTheta (fin m1) (fin m2)] := by
  subst hg hsr
  unfold saturationP0
  rw [if_neg (by simp; omega)]
  simp only []
  rw [estimateLine_exact (fun t => Fl.le t (fin xg)) (· ≤ xg) (fun t => le_fin t xg) _ xs m1 x1 h1
      (fun t ht => by simp [onTwoLines, ht]) hl,
    estimateLine_exact (fun t => ¬ Fl.le t (fin xg)) (xg < ·) (fun t => by rw [le_fin, not_le]) _ xs m2 x2 h2
      (fun t ht => by simp [onTwoLines, not_le.mpr ht]) hr]
  simp only [fin_sub, fin_mul, fin_add, hs1, hs2]
  rw [npNanMedian_const [fin sr, fin sr] sr (by simp) (by simp), fin_div _ _ hpos.ne']
  have : Real.arctan ((m1 - m2) / (1 + m1 * m2)) = Real.arctan m1 - Real.arctan m2 := by
    have := Real.arctan_add (x := m1) (y := -m2) (by nlinarith)
    rw [Real.arctan_neg] at this
    rw [sub_eq_add_neg (Real.arctan m1), this]
    congr 1; ring_nf
  simp only [Fl.arctan, twoLineTheta, fin_sub, this]

/-- C152: `HingeMin` and `HingeMax` (they share the estimate). -/
theorem C152_hinge (xs : List ℝ) (h m1 x1 m2 x2 : ℝ) (h1 : m1 ≠ 0) (h2 : m2 ≠ 0) (hn : 4 ≤ xs.length)
    (hl : GoodSide (xs.filter (fun t => decide (t < h)))) (hr : GoodSide (xs.filter (fun t => decide (h ≤ t)))) :
    hingeP0 (fin h) (xs.map fin) (xs.map (fun t => fin (onTwoLines (· < h) m1 x1 m2 x2 t))) =
      .ok [fin m1, fin x1, fin x2, fin h] := by
  obtain ⟨e1, e2⟩ := sel_side (fun t => Fl.lt t (fin h)) (· < h) (fun t => lt_fin t h)
    (onTwoLines (· < h) m1 x1 m2 x2) (fun t => m1 * (t - x1)) xs (fun t ht => by simp [onTwoLines, ht])
  obtain ⟨e3, e4⟩ := sel_side (fun t => Fl.le (fin h) t) (h ≤ ·) (fun t => le_fin h t)
    (onTwoLines (· < h) m1 x1 m2 x2) (fun t => m2 * (t - x2)) xs (fun t ht => by simp [onTwoLines, not_lt.mpr ht])
  unfold hingeP0
  rw [if_neg (by simp; omega)]
  simp only [e1, e2, e3, e4, List.length_map]
  rw [if_pos hl.1, if_pos hl.1, if_pos hr.1,
    npNanMedian_const _ m1 (slopes_ne_nil hl _) (slopes_line hl m1 x1),
    npNanMedian_const _ x1 (intercepts_ne_nil hl _ _) (intercepts_line m1 x1 h1),
    npMedian_const _ m2 (slopes_ne_nil hr _) (slopes_line hr m2 x2),
    npMedian_const _ x2 (intercepts_ne_nil hr _ _) (intercepts_line m2 x2 h2)]

/-- C152: `HingeAtPoint` recovers both slopes exactly; the height is the ordinate of an abscissa nearest to the guessed
hinge (exact if the hinge was sampled). -/
theorem C152_hingeAtPoint (xs : List ℝ) (h m1 x1 m2 x2 : ℝ) (gy : Fl) (hn : 4 ≤ xs.length)
    (hl : GoodSide (xs.filter (fun t => decide (t < h)))) (hr : GoodSide (xs.filter (fun t => decide (h ≤ t)))) :
    ∃ v ∈ xs, (∀ u ∈ xs, |v - h| ≤ |u - h|) ∧
      hingeAtPointP0 (fin h, gy) (xs.map fin) (xs.map (fun t => fin (onTwoLines (· < h) m1 x1 m2 x2 t))) =
      .ok [fin h, fin (onTwoLines (· < h) m1 x1 m2 x2 v), fin m1, fin m2] := by
  obtain ⟨e1, e2⟩ := sel_side (fun t => Fl.lt t (fin h)) (· < h) (fun t => lt_fin t h)
    (onTwoLines (· < h) m1 x1 m2 x2) (fun t => m1 * (t - x1)) xs (fun t ht => by simp [onTwoLines, ht])
  obtain ⟨e3, e4⟩ := sel_side (fun t => Fl.le (fin h) t) (h ≤ ·) (fun t => le_fin h t)
    (onTwoLines (· < h) m1 x1 m2 x2) (fun t => m2 * (t - x2)) xs (fun t ht => by simp [onTwoLines, not_lt.mpr ht])
  -- the nearest abscissa
  obtain ⟨k, hkdef⟩ : ∃ k, k = argminIdx ((xs.map fin).map (fun t => (t - fin h).abs)) := ⟨_, rfl⟩
  have hdist : ∀ i, (hi : i < xs.length) → ((xs.map fin).map (fun t => (t - fin h).abs)).getD i nan = fin |xs[i] - h| := by
    intro i hi
    rw [List.getD_eq_getElem _ _ (by simpa using hi)]
    simp [Fl.abs]
  obtain ⟨i, hi, himin⟩ : ∃ i, ∃ hi : i < xs.length, ∀ j, (hj : j < xs.length) → |xs[i] - h| ≤ |xs[j] - h| := by
    haveI : Nonempty (Fin xs.length) := ⟨⟨0, by omega⟩⟩
    obtain ⟨i, hi⟩ := Finite.exists_min (fun i : Fin xs.length => |xs[i.1] - h|)
    exact ⟨i.1, i.2, fun j hj => hi ⟨j, hj⟩⟩
  have hk : k < xs.length := by
    rw [hkdef]
    unfold argminIdx
    have : (List.range ((xs.map fin).map (fun t => (t - fin h).abs)).length).length = xs.length := by simp
    rw [← this]
    apply List.findIdx_lt_length_of_exists
    refine ⟨i, by simpa using hi, ?_⟩
    simp only [decide_eq_true_eq]
    intro j hj
    rw [hdist i hi, hdist j (by simpa using hj), le_fin]
    exact himin j (by simpa using hj)
  have hkmin : ∀ j, (hj : j < xs.length) → |xs[k] - h| ≤ |xs[j] - h| := by
    intro j hj
    have hlt : (List.range ((xs.map fin).map (fun t => (t - fin h).abs)).length).findIdx
        (fun i => decide (∀ j < ((xs.map fin).map (fun t => (t - fin h).abs)).length,
          Fl.le (((xs.map fin).map (fun t => (t - fin h).abs)).getD i .nan)
            (((xs.map fin).map (fun t => (t - fin h).abs)).getD j .nan))) <
        (List.range ((xs.map fin).map (fun t => (t - fin h).abs)).length).length := by
      have : argminIdx ((xs.map fin).map (fun t => (t - fin h).abs)) < xs.length := by rw [← hkdef]; exact hk
      unfold argminIdx at this
      simpa using this
    have := List.findIdx_getElem (w := hlt)
    rw [List.getElem_range] at this
    have h2 := of_decide_eq_true this j (by simpa using hj)
    have hk2 : (List.range ((xs.map fin).map (fun t => (t - fin h).abs)).length).findIdx
        (fun i => decide (∀ j < ((xs.map fin).map (fun t => (t - fin h).abs)).length,
          Fl.le (((xs.map fin).map (fun t => (t - fin h).abs)).getD i .nan)
            (((xs.map fin).map (fun t => (t - fin h).abs)).getD j .nan))) = k := hkdef.symm
    rw [hk2, hdist k hk, hdist j hj, le_fin] at h2
    exact h2
  refine ⟨xs[k], List.getElem_mem hk, ?_, ?_⟩
  · intro u hu
    obtain ⟨j, hj, rfl⟩ := List.getElem_of_mem hu
    exact hkmin j hj
  · unfold hingeAtPointP0
    rw [if_neg (by simp; omega)]
    simp only [e1, e2, e3, e4, List.length_map, ← hkdef]
    rw [if_pos hl.1, if_pos hr.1,
      npNanMedian_const _ m1 (slopes_ne_nil hl _) (slopes_line hl m1 x1),
      npMedian_const _ m2 (slopes_ne_nil hr _) (slopes_line hr m2 x2),
      List.getD_eq_getElem _ _ (by simpa using hk)]
    simp

/-- C152: `HeavySide`: for any data with points on both sides of the guessed step the guessed levels are medians of the
data above the step, and of those below relative to it; in particular a noise-free step is recovered exactly. -/
theorem C152_heavySide (xs : List ℝ) (f : ℝ → ℝ) (x0 : ℝ) (hn : 3 ≤ xs.length)
    (hl : ∃ t ∈ xs, t < x0) (hr : ∃ t ∈ xs, x0 < t) :
    ∃ hi lo : ℝ, heavySideP0 (some (fin x0)) none none (xs.map fin) (xs.map (fun t => fin (f t))) =
        .ok [fin x0, fin hi, fin (lo - hi)] ∧
      IsMedian ((xs.filter (fun t => decide (x0 < t))).map f) hi ∧
      IsMedian ((xs.filter (fun t => decide (t < x0))).map f) lo := by
  have e1 := selBy_map (fun t => Fl.lt (fin x0) t) (x0 < ·) (fun t => lt_fin x0 t) f xs
  have e2 := selBy_map (fun t => Fl.lt t (fin x0)) (· < x0) (fun t => lt_fin t x0) f xs
  obtain ⟨a, ha, hm1⟩ := npMedian_spec ((xs.filter (fun t => decide (x0 < t))).map f) (by
    obtain ⟨t, ht, h⟩ := hr
    exact List.ne_nil_of_mem (List.mem_map.mpr ⟨t, by simp [ht, h], rfl⟩))
  obtain ⟨b, hb, hm2⟩ := npMedian_spec ((xs.filter (fun t => decide (t < x0))).map f) (by
    obtain ⟨t, ht, h⟩ := hl
    exact List.ne_nil_of_mem (List.mem_map.mpr ⟨t, by simp [ht, h], rfl⟩))
  rw [List.map_map] at ha hb
  refine ⟨a, b, ?_, hm1, hm2⟩
  unfold heavySideP0
  rw [if_neg (by simp; omega)]
  simp only [e1, e2]
  rw [show (fun t => fin (f t)) = fin ∘ f from rfl, ha, hb, fin_sub]
  simp [Fl.isNaN]

theorem isMedian_const (l : List ℝ) (c m : ℝ) (hne : l ≠ []) (hl : ∀ t ∈ l, t = c) (h : IsMedian l m) : m = c := by
  have hpos : 0 < l.length := List.length_pos_iff.mpr hne
  obtain ⟨h1, h2⟩ := h
  apply le_antisymm
  · by_contra hc
    have : l.filter (fun t => decide (m ≤ t)) = [] := by
      rw [List.filter_eq_nil_iff]
      intro a ha
      rw [hl a ha]; simpa using hc
    rw [this, List.length_nil] at h2
    omega
  · by_contra hc
    have : l.filter (fun t => decide (t ≤ m)) = [] := by
      rw [List.filter_eq_nil_iff]
      intro a ha
      rw [hl a ha]; simpa using hc
    rw [this, List.length_nil] at h1
    omega

/-- C152: a noise-free step is recovered exactly, whatever is measured exactly at the step. -/
theorem C152_heavySide_exact (xs : List ℝ) (f : ℝ → ℝ) (x0 y0 y1 : ℝ) (hn : 3 ≤ xs.length)
    (hl : ∃ t ∈ xs, t < x0) (hr : ∃ t ∈ xs, x0 < t)
    (h1 : ∀ t ∈ xs, t < x0 → f t = y0 + y1) (h2 : ∀ t ∈ xs, x0 < t → f t = y0) :
    heavySideP0 (some (fin x0)) none none (xs.map fin) (xs.map (fun t => fin (f t))) = .ok [fin x0, fin y0, fin y1] := by
  obtain ⟨hi, lo, e, m1, m2⟩ := C152_heavySide xs f x0 hn hl hr
  have a : hi = y0 := by
    refine isMedian_const _ _ _ ?_ ?_ m1
    · obtain ⟨t, ht, h⟩ := hr
      exact List.ne_nil_of_mem (List.mem_map.mpr ⟨t, by simp [ht, h], rfl⟩)
    · intro t ht
      obtain ⟨u, hu, rfl⟩ := List.mem_map.mp ht
      exact h2 u (List.mem_filter.mp hu).1 (by simpa using (List.mem_filter.mp hu).2)
  have b : lo = y0 + y1 := by
    refine isMedian_const _ _ _ ?_ ?_ m2
    · obtain ⟨t, ht, h⟩ := hl
      exact List.ne_nil_of_mem (List.mem_map.mpr ⟨t, by simp [ht, h], rfl⟩)
    · intro t ht
      obtain ⟨u, hu, rfl⟩ := List.mem_map.mp ht
      exact h1 u (List.mem_filter.mp hu).1 (by simpa using (List.mem_filter.mp hu).2)
  rw [e, a, b]
  congr 4; ring_nf

/-- C152: the estimates refuse exactly the data sets with fewer points than parameters. -/
theorem C152_sufficient (g h : Fl) (gp : Fl × Fl) (a b c : Option Fl) (x y : List Fl) :
    (twoLineP0 g x y = .error .insufficientData ↔ x.length < 4) ∧
    (saturationP0 gp x y = .error .insufficientData ↔ x.length < 4) ∧
    (hingeP0 h x y = .error .insufficientData ↔ x.length < 4) ∧
    (hingeAtPointP0 gp x y = .error .insufficientData ↔ x.length < 4) ∧
    (heavySideP0 a b c x y = .error .insufficientData ↔ x.length < 3) ∧
    (gaussianP0 x y = .error .insufficientData ↔ x.length < 3) ∧
    (gaussianNormP0 x y = .error .insufficientData ↔ x.length < 3) ∧
    (gaussianLnP0 x y = .error .insufficientData ↔ x.length < 3) ∧
    (lineP0 x y = .error .insufficientData ↔ x.length < 2) ∧
    (lineXP0 x y = .error .insufficientData ↔ x.length < 2) := by
  refine ⟨?_, ?_, ?_, ?_, ?_, ?_, ?_, ?_, ?_, ?_⟩
  · unfold twoLineP0; split <;> simp_all
  · unfold saturationP0; split <;> simp_all
  · unfold hingeP0; split <;> simp_all
  · unfold hingeAtPointP0; split <;> simp_all
  · unfold heavySideP0; split
    · simp_all
    · cases b <;> cases c <;> simp_all
  · unfold gaussianP0; split <;> simp_all
  · unfold gaussianNormP0; split <;> simp_all
  · unfold gaussianLnP0; split <;> simp_all
  · unfold lineP0; split <;> simp_all
  · unfold lineXP0; split <;> simp_all

/-- non-vacuity of C152: four points of the curve with slopes 2 and 1 meeting at (1, 2) -/
example : twoLineP0 (fin 1) (([0, 1, 2, 3] : List ℝ).map fin)
    (([0, 1, 2, 3] : List ℝ).map (fun t => fin (onTwoLines (· ≤ 1) 2 0 1 (-1) t))) =
    .ok [fin 0, fin (-1), fin 2, fin 1] := by
  have e1 : (([0, 1, 2, 3] : List ℝ).filter (fun t => decide (t ≤ 1))) = [0, 1] := by
    norm_num [List.filter_cons]
  have e2 : (([0, 1, 2, 3] : List ℝ).filter (fun t => decide (1 < t))) = [2, 3] := by
    norm_num [List.filter_cons]
  apply C152_twoLine
  · norm_num
  · norm_num
  · rw [e1]; refine ⟨by simp, ?_⟩
    intro k hk
    simp at hk; subst hk; simp
  · rw [e2]; refine ⟨by simp, ?_⟩
    intro k hk
    simp at hk; subst hk; norm_num

/-! ### C153: the log-normal guess -/

/-- C153 (violated): the amplitude guessed by `GaussianLn` is the logarithm of the largest datum `M`, never `M` itself;
for data not exceeding 1 the guessed curve is nowhere positive although the data are. -/
theorem C153_amplitude (xs ys : List ℝ) (h3 : 3 ≤ xs.length) (hl : xs.length = ys.length) (hpos : ∀ y ∈ ys, 0 < y) :
    ∃ M ∈ ys, (∀ y ∈ ys, y ≤ M) ∧ ∃ mu s : Fl, ∃ A : ℝ,
      gaussianLnP0 (xs.map fin) (ys.map fin) = .ok [mu, s, fin A] ∧ A = Real.log M ∧ A < M ∧
      (M ≤ 1 → ∀ t m s : ℝ, 0 < t → s ≠ 0 → ∃ v : ℝ, gaussianLnF (fin t) (fin m) (fin s) (fin A) = fin v ∧ v ≤ 0) := by
  have hne : ys ≠ [] := by rintro rfl; simp at hl; simp [hl] at h3
  obtain ⟨M, hM, hin, hmax⟩ := npMax_fin ys hne
  have hMpos : 0 < M := hpos M hin
  refine ⟨M, hin, hmax, Fl.log (wMean (xs.map fin) (ys.map fin)), Fl.log (wVar (xs.map fin) (ys.map fin)), Real.log M, ?_, rfl, ?_, ?_⟩
  · unfold gaussianLnP0
    rw [if_neg (by simp; omega), hM, log_fin _ hMpos]
  · have := Real.log_le_sub_one_of_pos hMpos
    linarith
  · intro h1 t m s ht hs
    have hA : Real.log M ≤ 0 := Real.log_nonpos hMpos.le h1
    unfold gaussianLnF
    rw [log_fin _ ht, fin_sub, fin_div _ _ hs]
    simp only [Fl.sq, fin_mul, exp_fin]
    exact ⟨_, rfl, mul_nonpos_of_nonpos_of_nonneg hA (Real.exp_pos _).le⟩

end
end SW
