import Verif.PlotTools
import Mathlib.Data.Nat.Prime.Basic
import Mathlib.Data.List.Sort
import Mathlib.Data.List.Dedup
import Mathlib.Algebra.Order.BigOperators.Group.List
import Mathlib.Tactic.Linarith
import Mathlib.Tactic.IntervalCases

/-!
# C82-C84, C134, C135: plotting helpers
-/

namespace SW
namespace PlotTools

/-! ### C82: grid layout -/

/-- the search returns the largest divisor not above its start -/
theorem downTo_spec (n : Nat) : ∀ r, 0 < r → ∃ d, downTo n r = .ok d ∧ 0 < d ∧ d ≤ r ∧ d ∣ n ∧ ∀ e, e ≤ r → e ∣ n → e ≤ d := by
  intro r
  induction r with
  | zero => intro h; omega
  | succ r ih =>
    intro _
    unfold downTo
    by_cases h : n % (r + 1) = 0
    · rw [if_pos h]
      exact ⟨r + 1, rfl, by omega, le_refl _, Nat.dvd_of_mod_eq_zero h, fun e he _ => he⟩
    · rw [if_neg h]
      have hr : 0 < r := by
        rcases Nat.eq_zero_or_pos r with rfl | h0
        · exfalso; apply h; exact Nat.mod_one n
        · exact h0
      obtain ⟨d, h1, h2, h3, h4, h5⟩ := ih hr
      refine ⟨d, h1, h2, by omega, h4, ?_⟩
      intro e he hd
      rcases Nat.lt_or_ge r e with h' | h'
      · have : e = r + 1 := by omega
        subst this
        exact absurd (Nat.mod_eq_zero_of_dvd hd) h
      · exact h5 e h' hd

/-- Specification: the sides `a ≤ b` of the most balanced grid with exactly `m` places. -/
def BestGrid (m a b : Nat) : Prop := a * b = m ∧ a ≤ b ∧ ∀ x y, x * y = m → x ≤ y → x ≤ a

theorem bestGrid_of_search {m : Nat} (hm : 0 < m) : ∃ d, downTo m m.sqrt = .ok d ∧ 0 < d ∧ BestGrid m d (m / d) := by
  have hs : 0 < m.sqrt := Nat.sqrt_pos.mpr hm
  obtain ⟨d, h1, h2, h3, h4, h5⟩ := downTo_spec m m.sqrt hs
  have hmul : d * (m / d) = m := Nat.mul_div_cancel' h4
  have hle : d * d ≤ m := le_trans (Nat.mul_le_mul h3 h3) (Nat.sqrt_le m)
  refine ⟨d, h1, h2, hmul, ?_, ?_⟩
  · rw [Nat.le_div_iff_mul_le h2]; exact hle
  · intro x y hxy hle
    refine h5 x ?_ ⟨y, hxy.symm⟩
    rw [Nat.le_sqrt]
    calc x * x ≤ x * y := Nat.mul_le_mul_left _ hle
      _ = m := hxy

theorem one_of_best_iff {m d : Nat} (hm : 1 < m) (h : BestGrid m d (m / d)) : d = 1 ↔ m.Prime := by
  obtain ⟨h1, h2, h3⟩ := h
  constructor
  · intro hd
    rw [Nat.prime_def_lt]
    refine ⟨by omega, ?_⟩
    intro x hx ⟨y, hy⟩
    rcases Nat.le_total x y with h | h
    · have := h3 x y hy.symm h
      have hx0 : x ≠ 0 := by rintro rfl; rw [Nat.zero_mul] at hy; omega
      omega
    · have := h3 y x (by rw [Nat.mul_comm]; exact hy.symm) h
      have hy0 : y ≠ 0 := by rintro rfl; rw [Nat.mul_zero] at hy; omega
      have hy1 : y = 1 := by omega
      subst hy1; omega
  · intro hp
    have hdvd : d ∣ m := ⟨m / d, h1.symm⟩
    rcases (Nat.dvd_prime hp).mp hdvd with h | h
    · exact h
    · exfalso
      rw [h, Nat.div_self (by omega)] at h2
      omega

/-- C82: for every `n ≥ 1` the helper returns a grid with exactly `n` places, or `n + 1` exactly if `n` is a prime above 4; the grid is
the most balanced one with that number of places; it has at least as many rows as columns from four rows on, else at most as many. For
`n = 0` it fails (division by zero). -/
theorem C82_grid (n : Nat) :
    (n = 0 → nrowsNcols n = .error .other) ∧
    (1 ≤ n → ∃ r c, nrowsNcols n = .ok (r, c) ∧ BestGrid (if n.Prime ∧ 4 < n then n + 1 else n) (min r c) (max r c) ∧
      (max r c < 4 → r ≤ c) ∧ (4 ≤ max r c → c ≤ r)) := by
  constructor
  · rintro rfl; rfl
  · intro hn
    obtain ⟨d, hd, hd0, hbest⟩ := bestGrid_of_search (m := n) (by omega)
    have key : ∃ m root, grow n d = .ok (m, root) ∧
        m = (if n.Prime ∧ 4 < n then n + 1 else n) ∧ BestGrid m root (m / root) := by
      by_cases h4 : 4 < n
      · have hiff := one_of_best_iff (by omega) hbest
        have hor : (n / d = 1 ∨ d = 1) ↔ n.Prime := by
          rw [← hiff]
          constructor
          · rintro (h | h)
            · obtain ⟨e1, e2, _⟩ := hbest; rw [h] at e2; omega
            · exact h
          · exact Or.inr
        by_cases hp : n.Prime
        · obtain ⟨d2, hd2, _, hb2⟩ := bestGrid_of_search (m := n + 1) (by omega)
          refine ⟨n + 1, d2, ?_, by rw [if_pos ⟨hp, h4⟩], hb2⟩
          unfold grow; rw [if_pos ⟨hor.mpr hp, h4⟩, hd2]; rfl
        · refine ⟨n, d, ?_, by rw [if_neg (fun h => hp h.1)], hbest⟩
          unfold grow; rw [if_neg (fun h => hp (hor.mp h.1))]
      · exact ⟨n, d, by unfold grow; rw [if_neg (fun h => h4 h.2)], by rw [if_neg (fun h => h4 h.2)], hbest⟩
    obtain ⟨m, root, h1, h2, h3⟩ := key
    have hval : nrowsNcols n = (if max root (m / root) < 4 then .ok (min root (m / root), max root (m / root))
        else .ok (max root (m / root), min root (m / root))) := by
      unfold nrowsNcols
      rw [hd]
      show (grow n d >>= _) = _
      rw [h1]
      rfl
    obtain ⟨g1, g2, g3⟩ := h3
    rw [max_eq_right g2, min_eq_left g2] at hval
    rw [hval, ← h2]
    by_cases hlt : m / root < 4
    · rw [if_pos hlt]
      refine ⟨root, m / root, rfl, ?_, ?_, ?_⟩
      · rw [min_eq_left g2, max_eq_right g2]; exact ⟨g1, g2, g3⟩
      · intro _; exact g2
      · intro h; rw [max_eq_right g2] at h; omega
    · rw [if_neg hlt]
      refine ⟨m / root, root, rfl, ?_, ?_, ?_⟩
      · rw [min_eq_right g2, max_eq_left g2]; exact ⟨g1, g2, g3⟩
      · intro h; rw [max_eq_left g2] at h; omega
      · intro _; exact g2

/-- non-vacuity: 5 and 12 panels -/
example : nrowsNcols 5 = .ok (2, 3) := by decide +kernel
example : nrowsNcols 12 = .ok (4, 3) := by decide +kernel

/-! ### C83: shared colour bar -/

/-- grid cell (row, column) is part of the colour bar -/
def InBar (L : Layout) (i j : Nat) : Prop := i ∈ L.caxRows ∧ j ∈ L.caxCols

/-- the panel stored in `axes[r, c]` -/
def panelAt (L : Layout) (r c : Nat) : Option (Nat × Nat) := L.panels[r]?.bind (fun row => row[c]?)

theorem panelAt_eq (nrows ncols : Nat) (loc : Loc) (r c : Nat) :
    panelAt (layout nrows ncols loc) r c =
      if r < nrows ∧ c < ncols then some (r + (if loc = .top then 2 else 0), c + (if loc = .left then 2 else 0)) else none := by
  unfold panelAt layout
  by_cases hr : r < nrows <;> by_cases hc : c < ncols <;> cases loc <;> simp [hr, hc]

/-- C83: for every grid shape and location there is exactly one panel per (row, column), each on its own full-size grid cell outside the
colour bar; rows and columns are in order. -/
theorem C83_panels (nrows ncols : Nat) (loc : Loc) (r c : Nat) :
    (r < nrows ∧ c < ncols → ∃ i j, panelAt (layout nrows ncols loc) r c = some (i, j) ∧
      (layout nrows ncols loc).heights[i]? = some 1000 ∧ (layout nrows ncols loc).widths[j]? = some 1000 ∧
      ¬ InBar (layout nrows ncols loc) i j ∧
      ∀ r' c' i' j', panelAt (layout nrows ncols loc) r' c' = some (i', j') → (r < r' ↔ i < i') ∧ (c < c' ↔ j < j')) ∧
    (¬ (r < nrows ∧ c < ncols) → panelAt (layout nrows ncols loc) r c = none) := by
  constructor
  · rintro ⟨hr, hc⟩
    rw [panelAt_eq, if_pos ⟨hr, hc⟩]
    refine ⟨_, _, rfl, ?_, ?_, ?_, ?_⟩
    · cases loc <;> simp [layout, hr, List.getElem?_append]
    · cases loc <;> simp [layout, hc, List.getElem?_append]
    · cases loc <;> simp [layout, InBar] <;> omega
    · intro r' c' i' j' h
      rw [panelAt_eq] at h
      split at h
      · simp only [Option.some.injEq, Prod.mk.injEq] at h
        obtain ⟨rfl, rfl⟩ := h
        omega
      · exact absurd h (by simp)
  · intro h
    rw [panelAt_eq, if_neg h]

/-- C83: the colour bar spans its whole side, is 0.075 thick, lies on the side asked for, and is separated from the panels by one empty
line of thickness 0.05. -/
theorem C83_bar (nrows ncols : Nat) :
    (∃ b s, (layout nrows ncols .left).caxCols = [b] ∧ (layout nrows ncols .left).caxRows = List.range nrows ∧
      (layout nrows ncols .left).widths[b]? = some 75 ∧ (layout nrows ncols .left).widths[s]? = some 50 ∧
      (layout nrows ncols .left).widths.length = ncols + 2 ∧
      ∀ r c i j, panelAt (layout nrows ncols .left) r c = some (i, j) → b < s ∧ s < j) ∧
    (∃ b s, (layout nrows ncols .right).caxCols = [b] ∧ (layout nrows ncols .right).caxRows = List.range nrows ∧
      (layout nrows ncols .right).widths[b]? = some 75 ∧ (layout nrows ncols .right).widths[s]? = some 50 ∧
      (layout nrows ncols .right).widths.length = ncols + 2 ∧
      ∀ r c i j, panelAt (layout nrows ncols .right) r c = some (i, j) → j < s ∧ s < b) ∧
    (∃ b s, (layout nrows ncols .top).caxRows = [b] ∧ (layout nrows ncols .top).caxCols = List.range ncols ∧
      (layout nrows ncols .top).heights[b]? = some 75 ∧ (layout nrows ncols .top).heights[s]? = some 50 ∧
      (layout nrows ncols .top).heights.length = nrows + 2 ∧
      ∀ r c i j, panelAt (layout nrows ncols .top) r c = some (i, j) → b < s ∧ s < i) ∧
    (∃ b s, (layout nrows ncols .bottom).caxRows = [b] ∧ (layout nrows ncols .bottom).caxCols = List.range ncols ∧
      (layout nrows ncols .bottom).heights[b]? = some 75 ∧ (layout nrows ncols .bottom).heights[s]? = some 50 ∧
      (layout nrows ncols .bottom).heights.length = nrows + 2 ∧
      ∀ r c i j, panelAt (layout nrows ncols .bottom) r c = some (i, j) → i < s ∧ s < b) := by
  refine ⟨⟨0, 1, ?_, ?_, ?_, ?_, ?_, ?_⟩, ⟨ncols + 1, ncols, ?_, ?_, ?_, ?_, ?_, ?_⟩, ⟨0, 1, ?_, ?_, ?_, ?_, ?_, ?_⟩,
    ⟨nrows + 1, nrows, ?_, ?_, ?_, ?_, ?_, ?_⟩⟩ <;>
    first
      | (intro r c i j h
         rw [panelAt_eq] at h
         split at h
         · next hrc => simp only [Option.some.injEq, Prod.mk.injEq] at h; obtain ⟨rfl, rfl⟩ := h; simp; try omega
         · exact absurd h (by simp))
      | simp [layout]

/-- C83: what is returned: a single panel for a 1 x 1 grid (no axes), a one-dimensional array of all panels when there is one row or one
column, the full array otherwise; no panel is lost. -/
theorem C83_shape (nrows ncols : Nat) (hr : 1 ≤ nrows) (hc : 1 ≤ ncols) :
    (squeezeShape nrows ncols).prod = nrows * ncols ∧
    (squeezeShape nrows ncols = [] ↔ nrows = 1 ∧ ncols = 1) ∧
    (2 ≤ nrows → ncols = 1 → squeezeShape nrows ncols = [nrows]) ∧
    (nrows = 1 → 2 ≤ ncols → squeezeShape nrows ncols = [ncols]) ∧
    (2 ≤ nrows → 2 ≤ ncols → squeezeShape nrows ncols = [nrows, ncols]) := by
  unfold squeezeShape
  by_cases h1 : nrows = 1 <;> by_cases h2 : ncols = 1 <;> simp [h1, h2] <;> omega

/-- C83: locations are recognised in any case; anything else raises ValueError. -/
theorem C83_location (s : String) :
    (parseLoc s = .error .valueError ↔ s.map Char.toLower ≠ "top" ∧ s.map Char.toLower ≠ "bottom" ∧
      s.map Char.toLower ≠ "left" ∧ s.map Char.toLower ≠ "right") ∧
    (parseLoc s = .ok .top ↔ s.map Char.toLower = "top") ∧ (parseLoc s = .ok .bottom ↔ s.map Char.toLower = "bottom") ∧
    (parseLoc s = .ok .left ↔ s.map Char.toLower = "left") ∧ (parseLoc s = .ok .right ↔ s.map Char.toLower = "right") := by
  unfold parseLoc
  simp only []
  generalize s.map Char.toLower = l
  by_cases h1 : l = "top"
  · subst h1; simp
  by_cases h2 : l = "bottom"
  · subst h2; simp
  by_cases h3 : l = "left"
  · subst h3; simp
  by_cases h4 : l = "right"
  · subst h4; simp
  simp [h1, h2, h3, h4]

example : parseLoc "Top" = .ok .top := by decide +kernel
example : panelAt (layout 2 3 .left) 1 2 = some (1, 4) := by decide +kernel

/-! ### C134: joint legend -/

theorem legendCollect_spec {H : Type} : ∀ (rest acc : List (String × H)), (acc.map Prod.fst).Nodup →
    ((legendCollect rest acc).map Prod.fst).Nodup ∧
    (∀ l, l ∈ (legendCollect rest acc).map Prod.fst ↔ l ∈ (acc ++ rest).map Prod.fst) ∧
    (∀ l h, (l, h) ∈ legendCollect rest acc → (acc ++ rest).find? (fun e => e.1 = l) = some (l, h)) := by
  intro rest
  induction rest with
  | nil =>
    intro acc hnd
    unfold legendCollect
    refine ⟨hnd, by simp, ?_⟩
    intro l h hm
    rw [List.append_nil]
    induction acc with
    | nil => simp at hm
    | cons a acc ih =>
      rw [List.map_cons, List.nodup_cons] at hnd
      rcases List.mem_cons.mp hm with rfl | hm
      · simp
      · have hne : a.1 ≠ l := by
          rintro rfl; exact hnd.1 (List.mem_map.mpr ⟨(a.1, h), hm, rfl⟩)
        rw [List.find?_cons_of_neg (by simpa using hne)]
        exact ih hnd.2 hm
  | cons a rest ih =>
    obtain ⟨l0, h0⟩ := a
    intro acc hnd
    unfold legendCollect
    by_cases hm : l0 ∈ acc.map Prod.fst
    · rw [if_pos hm]
      obtain ⟨i1, i2, i3⟩ := ih acc hnd
      refine ⟨i1, ?_, ?_⟩
      · intro l
        rw [i2]
        simp only [List.map_append, List.map_cons, List.mem_append, List.mem_cons]
        constructor
        · rintro (h | h)
          · exact Or.inl h
          · exact Or.inr (Or.inr h)
        · rintro (h | rfl | h)
          · exact Or.inl h
          · exact Or.inl hm
          · exact Or.inr h
      · intro l h hl
        have := i3 l h hl
        rw [List.find?_append] at this ⊢
        by_cases hf : acc.find? (fun e => decide (e.1 = l)) = none
        · have hne : l0 ≠ l := by
            rintro rfl
            obtain ⟨e, he, hel⟩ := List.mem_map.mp hm
            have := List.find?_eq_none.mp hf e he
            simp [hel] at this
          rw [List.find?_cons_of_neg (by simpa using hne)]
          exact this
        · obtain ⟨e, he⟩ := Option.ne_none_iff_exists'.mp hf
          rw [he] at this ⊢
          exact this
    · rw [if_neg hm]
      have hnd' : ((acc ++ [(l0, h0)]).map Prod.fst).Nodup := by
        rw [List.map_append, List.nodup_append]
        refine ⟨hnd, by simp, ?_⟩
        intro a ha b hb
        simp at hb; subst hb
        rintro rfl; exact hm ha
      obtain ⟨i1, i2, i3⟩ := ih _ hnd'
      refine ⟨i1, ?_, ?_⟩
      · intro l; rw [i2, List.append_assoc]; rfl
      · intro l h hl
        have := i3 l h hl
        rw [List.append_assoc] at this; exact this

/-- C134: the joint legend shows every label of every axis exactly once, in ascending order, each with the handle of its first
occurrence in axis order. -/
theorem C134_joint_legend {H : Type} (axes : List (List (String × H))) :
    ((jointLegend axes).map Prod.fst).Pairwise (· < ·) ∧
    (∀ l, l ∈ (jointLegend axes).map Prod.fst ↔ ∃ ax ∈ axes, ∃ h, (l, h) ∈ ax) ∧
    (∀ l h, (l, h) ∈ jointLegend axes → axes.flatten.find? (fun e => e.1 = l) = some (l, h)) := by
  obtain ⟨h1, h2, h3⟩ := legendCollect_spec axes.flatten [] (by simp)
  have hperm : (jointLegend axes).Perm (legendCollect axes.flatten []) := List.perm_insertionSort _ _
  refine ⟨?_, ?_, ?_⟩
  · unfold jointLegend
    rw [List.map_insertionSort (s := (· ≤ ·)) _ Prod.fst _ (fun a _ b _ => Iff.rfl)]
    have hs := List.pairwise_insertionSort (· ≤ ·) ((legendCollect axes.flatten []).map Prod.fst)
    have hn : (((legendCollect axes.flatten []).map Prod.fst).insertionSort (· ≤ ·)).Nodup :=
      (List.perm_insertionSort _ _).nodup_iff.mpr h1
    exact (hs.and hn).imp (fun h => lt_of_le_of_ne h.1 h.2)
  · intro l
    rw [(hperm.map Prod.fst).mem_iff, h2]
    simp only [List.nil_append, List.mem_map, List.mem_flatten]
    constructor
    · rintro ⟨⟨a, b⟩, ⟨ax, hax, hm⟩, rfl⟩; exact ⟨ax, hax, b, hm⟩
    · rintro ⟨ax, hax, h, hm⟩; exact ⟨(l, h), ⟨ax, hax, hm⟩, rfl⟩
  · intro l h hm
    have := h3 l h (hperm.mem_iff.mp hm)
    simpa using this

example : jointLegend [[("b", 1), ("a", 2)], [("c", 3), ("a", 4)]] = [("a", 2), ("b", 1), ("c", 3)] := by decide +kernel

/-! ### C84: smoothing -/

open Classical

theorem linFilter_get (w : Nat → Nat → ℝ) (a : List Fl) (i : Nat) (hi : i < a.length) (g : Nat → ℝ)
    (hg : ∀ j, j < a.length → w i j ≠ 0 → a.getD j .nan = .fin (g j)) :
    (linFilter w a)[i]? = some (.fin (((List.range a.length).filter (fun j => decide (w i j ≠ 0))).map (fun j => w i j * g j)).sum) := by
  unfold linFilter
  rw [List.getElem?_map, List.getElem?_range hi]
  simp only [Option.map_some, Option.some.injEq]
  apply Fl.sumAll_fin'
  intro j hj
  rw [List.mem_filter, List.mem_range] at hj
  rw [hg j hj.1 (by simpa using hj.2)]
  simp

/-- the data the kernel of cell `i` sees: numbers in the support, all between `lo` and `hi`; missing cells are ignored -/
def KernelIn (w : Nat → Nat → ℝ) (a : List Fl) (i : Nat) (lo hi : ℝ) : Prop :=
  ∀ (j : Nat) (x : Fl), a[j]? = some x → w i j ≠ 0 → ¬ x.isNaN → ∃ v, x = .fin v ∧ lo ≤ v ∧ v ≤ hi

theorem nanFilter_get (w : Nat → Nat → ℝ) (a : List Fl) (out : List Fl) (h : nanFilter w false a = .ok out) (i : Nat)
    (hi : i < a.length) (d v : Fl) (hd : (linFilter w (a.map (fun x => if x.isNaN then Fl.fin 0 else x)))[i]? = some d)
    (hv : (linFilter w (a.map (fun x => if x.isNaN then Fl.fin 0 else .fin 1)))[i]? = some v) (x : Fl) (hx : a[i]? = some x) :
    out[i]? = some (if x.isNaN then .nan else if Fl.lt (.fin 0) v then d / v else .nan) := by
  unfold nanFilter at h
  simp only [Bool.false_eq_true, if_false, Except.ok.injEq] at h
  subst h
  rw [List.getElem?_zipWith, List.getElem?_zipWith, hd, hv, hx]

theorem fill_getD (a : List Fl) (j : Nat) (hj : j < a.length) (f : Fl → Fl) : (a.map f).getD j .nan = f (a.getD j .nan) := by
  simp [List.getD_eq_getElem?_getD, hj]

/-- C84: missing cells stay missing; a valid cell whose kernel sees only numbers between `lo` and `hi` is a number between `lo` and `hi`
(in particular constants are reproduced), whatever is missing around it. -/
theorem C84_filter (w : Nat → Nat → ℝ) (hw : ∀ i j, 0 ≤ w i j) (hc : ∀ i, 0 < w i i) (a : List Fl) :
    ∃ out, nanFilter w false a = .ok out ∧ out.length = a.length ∧
      (∀ (i : Nat) (x : Fl), a[i]? = some x → x.isNaN → out[i]? = some .nan) ∧
      (∀ (i : Nat) (x : Fl) (lo hi : ℝ), a[i]? = some x → ¬ x.isNaN → KernelIn w a i lo hi →
        ∃ v, out[i]? = some (.fin v) ∧ lo ≤ v ∧ v ≤ hi) := by
  obtain ⟨out, hout⟩ : ∃ out, nanFilter w false a = .ok out := by
    unfold nanFilter; simp only [Bool.false_eq_true, if_false]; exact ⟨_, rfl⟩
  have hlenF : ∀ b : List Fl, (linFilter w b).length = b.length := by intro b; unfold linFilter; simp
  refine ⟨out, hout, ?_, ?_, ?_⟩
  · unfold nanFilter at hout
    simp only [Bool.false_eq_true, if_false, Except.ok.injEq] at hout
    subst hout
    simp [hlenF]
  · intro i x hx hn
    have hi : i < a.length := (List.getElem?_eq_some_iff.mp hx).1
    have h1 : i < (linFilter w (a.map (fun x => if x.isNaN then Fl.fin 0 else x))).length := by rw [hlenF]; simpa using hi
    have h2 : i < (linFilter w (a.map (fun x => if x.isNaN then Fl.fin 0 else .fin 1))).length := by rw [hlenF]; simpa using hi
    rw [nanFilter_get w a out hout i hi _ _ (List.getElem?_eq_getElem h1) (List.getElem?_eq_getElem h2) x hx, if_pos hn]
  · intro i x lo hi hx hn hk
    have hil : i < a.length := (List.getElem?_eq_some_iff.mp hx).1
    obtain ⟨g, hg⟩ : ∃ g : Nat → ℝ, ∀ j, j < a.length → w i j ≠ 0 → (if (a.getD j .nan).isNaN then Fl.fin 0 else a.getD j .nan) = .fin (g j) ∧
        ((a.getD j .nan).isNaN → g j = 0) ∧ (¬ (a.getD j .nan).isNaN → lo ≤ g j ∧ g j ≤ hi) := by
      have : ∀ j, ∃ r : ℝ, j < a.length → w i j ≠ 0 → (if (a.getD j .nan).isNaN then Fl.fin 0 else a.getD j .nan) = .fin r ∧
          ((a.getD j .nan).isNaN → r = 0) ∧ (¬ (a.getD j .nan).isNaN → lo ≤ r ∧ r ≤ hi) := by
        intro j
        by_cases hj : j < a.length
        · by_cases hw0 : w i j = 0
          · exact ⟨0, fun _ h => absurd hw0 h⟩
          · have hget : a[j]? = some (a.getD j .nan) := by simp [List.getD_eq_getElem?_getD, hj]
            by_cases hnan : (a.getD j .nan).isNaN
            · exact ⟨0, fun _ _ => ⟨by rw [if_pos hnan], fun _ => rfl, fun h => absurd hnan h⟩⟩
            · obtain ⟨v, hv, h1, h2⟩ := hk j _ hget hw0 hnan
              exact ⟨v, fun _ _ => ⟨by rw [if_neg hnan, hv], fun h => absurd h hnan, fun _ => ⟨h1, h2⟩⟩⟩
        · exact ⟨0, fun h => absurd h hj⟩
      choose g hg using this
      exact ⟨g, hg⟩
    obtain ⟨m, hm⟩ : ∃ m : Nat → ℝ, m = fun j => if (a.getD j .nan).isNaN then 0 else 1 := ⟨_, rfl⟩
    obtain ⟨K, hK⟩ : ∃ K, K = (List.range a.length).filter (fun j => decide (w i j ≠ 0)) := ⟨_, rfl⟩
    have hd := linFilter_get w (a.map (fun x => if x.isNaN then Fl.fin 0 else x)) i (by simpa using hil) g
      (fun j hj hw0 => by rw [fill_getD _ _ (by simpa using hj)]; exact (hg j (by simpa using hj) hw0).1)
    have hv := linFilter_get w (a.map (fun x => if x.isNaN then Fl.fin 0 else .fin 1)) i (by simpa using hil) m
      (fun j hj _ => by rw [fill_getD _ _ (by simpa using hj), hm]; simp only []; split <;> rfl)
    rw [List.length_map] at hd hv
    rw [← hK] at hd hv
    have hgm : ∀ j ∈ K, w i j * m j * lo ≤ w i j * g j ∧ w i j * g j ≤ w i j * m j * hi := by
      intro j hj
      rw [hK, List.mem_filter, List.mem_range] at hj
      obtain ⟨_, g2, g3⟩ := hg j hj.1 (by simpa using hj.2)
      by_cases hnan : (a.getD j .nan).isNaN
      · rw [g2 hnan, hm]; simp only [if_pos hnan]; simp
      · obtain ⟨b1, b2⟩ := g3 hnan
        rw [hm]; simp only [if_neg hnan, mul_one]
        exact ⟨mul_le_mul_of_nonneg_left b1 (hw i j), mul_le_mul_of_nonneg_left b2 (hw i j)⟩
    obtain ⟨D, hD⟩ : ∃ D, D = (K.map (fun j => w i j * g j)).sum := ⟨_, rfl⟩
    obtain ⟨V, hV⟩ : ∃ V, V = (K.map (fun j => w i j * m j)).sum := ⟨_, rfl⟩
    rw [← hD] at hd
    rw [← hV] at hv
    have hlo : V * lo ≤ D := by
      rw [hV, hD, ← List.sum_map_mul_right]
      exact List.sum_le_sum (fun j hj => (hgm j hj).1)
    have hhi : D ≤ V * hi := by
      rw [hV, hD, ← List.sum_map_mul_right]
      exact List.sum_le_sum (fun j hj => (hgm j hj).2)
    have hVpos : 0 < V := by
      have hmem : i ∈ K := by
        rw [hK, List.mem_filter, List.mem_range]; exact ⟨hil, by simpa using (hc i).ne'⟩
      have hnn : ∀ y ∈ K.map (fun j => w i j * m j), 0 ≤ y := by
        intro y hy
        obtain ⟨j, _, rfl⟩ := List.mem_map.mp hy
        refine mul_nonneg (hw i j) ?_
        rw [hm]; simp only []; split <;> norm_num
      have h1 := List.single_le_sum hnn _ (List.mem_map.mpr ⟨i, hmem, rfl⟩)
      have hni : ¬ (a.getD i .nan).isNaN := by
        have : a.getD i .nan = x := by rw [List.getD_eq_getElem?_getD, hx]; rfl
        rw [this]; exact hn
      have h2 : w i i * m i = w i i := by rw [hm]; simp only [if_neg hni, mul_one]
      rw [h2, ← hV] at h1
      exact lt_of_lt_of_le (hc i) h1
    refine ⟨D / V, ?_, ?_, ?_⟩
    · rw [nanFilter_get w a out hout i hil _ _ hd hv x hx, if_neg hn, if_pos (by simpa using hVpos), Fl.fin_div _ _ hVpos.ne']
    · rw [le_div_iff₀ hVpos]; linarith
    · rw [div_le_iff₀ hVpos]; linarith

/-- C84: without missing values and with kernels of unit mass the result is the plain filter. -/
theorem C84_plain (w : Nat → Nat → ℝ) (a : List ℝ)
    (hunit : ∀ i, i < a.length → (((List.range a.length).filter (fun j => decide (w i j ≠ 0))).map (fun j => w i j)).sum = 1) :
    nanFilter w false (a.map Fl.fin) = .ok (linFilter w (a.map Fl.fin)) := by
  obtain ⟨out, hout⟩ : ∃ out, nanFilter w false (a.map Fl.fin) = .ok out := by
    unfold nanFilter; simp only [Bool.false_eq_true, if_false]; exact ⟨_, rfl⟩
  have hmap : (a.map Fl.fin).map (fun x => if x.isNaN then Fl.fin 0 else x) = a.map Fl.fin := by
    rw [List.map_map]; apply List.map_congr_left; intro x _; simp
  rw [hout]
  congr 1
  have hlenF : ∀ b : List Fl, (linFilter w b).length = b.length := by intro b; unfold linFilter; simp
  apply List.ext_getElem?
  intro i
  by_cases hi : i < a.length
  · have hi' : i < (a.map Fl.fin).length := by simpa using hi
    have hd := linFilter_get w (a.map Fl.fin) i hi' (fun j => a.getD j 0) (fun j hj _ => by
      have hj' : j < a.length := by simpa using hj
      simp [List.getD_eq_getElem?_getD, hj'])
    have hv := linFilter_get w ((a.map Fl.fin).map (fun x => if x.isNaN then Fl.fin 0 else .fin 1)) i (by simpa using hi) (fun _ => 1)
      (fun j hj _ => by
        have hj' : j < a.length := by simpa using hj
        simp [List.getD_eq_getElem?_getD, hj'])
    simp only [List.length_map, mul_one] at hv
    rw [hunit i hi] at hv
    have hx : (a.map Fl.fin)[i]? = some (.fin a[i]) := by simp [hi]
    rw [nanFilter_get w _ out hout i hi' _ _ (by rw [hmap]; exact hd) hv _ hx, hd]
    simp [Fl.fin_div]
  · have h1 : out.length = a.length := by
      unfold nanFilter at hout
      simp only [Bool.false_eq_true, if_false, Except.ok.injEq] at hout
      subst hout
      simp [hlenF]
    rw [List.getElem?_eq_none (by omega), List.getElem?_eq_none (by rw [hlenF]; simpa using hi)]

/-- C84: the smoothed value of a cell depends only on the cells its kernel reaches. -/
theorem C84_local (w : Nat → Nat → ℝ) (hc : ∀ i, 0 < w i i) (a b : List Fl) (hl : a.length = b.length) (i : Nat)
    (hag : ∀ j : Nat, w i j ≠ 0 → a[j]? = b[j]?) (oa ob : List Fl) (ha : nanFilter w false a = .ok oa)
    (hb : nanFilter w false b = .ok ob) : oa[i]? = ob[i]? := by
  have hlen : ∀ f : Fl → Fl, (linFilter w (a.map f))[i]? = (linFilter w (b.map f))[i]? := by
    intro f
    unfold linFilter
    simp only [List.length_map, hl]
    by_cases hi : i < b.length
    · rw [List.getElem?_map, List.getElem?_map, List.getElem?_range hi]
      simp only [Option.map_some]
      congr 2
      apply List.map_congr_left
      intro j hj
      have hj' : w i j ≠ 0 := by simpa using (List.mem_filter.mp hj).2
      simp only [List.getD_eq_getElem?_getD, List.getElem?_map, hag j hj']
    · rw [List.getElem?_eq_none (by simpa using hi), List.getElem?_eq_none (by simpa using hi)]
  unfold nanFilter at ha hb
  simp only [Bool.false_eq_true, if_false, Except.ok.injEq] at ha hb
  subst ha; subst hb
  simp only [List.getElem?_zipWith, hlen, hag i (hc i).ne']

/-- C84 (violated): integer arrays always fail. -/
theorem C84_integer (w : Nat → Nat → ℝ) (a : List Fl) : nanFilter w true a = .error .typeError := by
  unfold nanFilter; simp

/-- non-vacuity: a three-point box filter with a missing cell -/
example : KernelIn (fun i j => if i ≤ j + 1 ∧ j ≤ i + 1 then 1 else 0) [.fin 1, .nan, .fin 3] 0 1 1 := by
  intro j x hx hw hn
  match j with
  | 0 => simp at hx; subst hx; exact ⟨1, rfl, le_refl _, le_refl _⟩
  | 1 => simp at hx; subst hx; simp at hn
  | 2 => simp at hw
  | (k + 3) => simp at hx

/-! ### C135: sampling selected patches -/

/-- what pandas guarantees of `sample`: the requested number; without replacement no position twice -/
structure Sampler.Sound (S : Sampler) : Prop where
  draw_subperm : ∀ pop n, n ≤ pop.length → (S.draw pop n).Subperm pop
  draw_length : ∀ pop n, n ≤ pop.length → (S.draw pop n).length = n
  drawR_subset : ∀ pop n, pop ≠ [] → S.drawR pop n ⊆ pop
  drawR_length : ∀ pop n, pop ≠ [] → (S.drawR pop n).length = n

/-- a datum `x` lies in `(lo, hi]` of its axis; on a logarithmic axis the datum is the decimal logarithm of the position shown -/
def Between (log : Bool) (lo hi x : ℝ) : Prop :=
  if log then 0 ≤ lo ∧ 0 < hi ∧ lo < (10 : ℝ) ^ x ∧ (10 : ℝ) ^ x ≤ hi else lo < x ∧ x ≤ hi

/-- labels of the data inside a patch (left and lower border excluded), as the user sees them -/
def Inside (logx logy : Bool) (data : List Datum) (c : Patch) (l : Nat) : Prop :=
  ∃ d ∈ data, d.label = l ∧ ∃ x y : ℝ, d.x = .fin x ∧ d.y = .fin y ∧
    Between logx c.x0 c.x1 x ∧ Between logy c.y0 c.y1 y

theorem axis_between (log : Bool) (lo hi : ℝ) (v : Fl) : (Fl.lt (axisVal log lo) v ∧ Fl.le v (axisVal log hi)) ↔
    ∃ x : ℝ, v = .fin x ∧ Between log lo hi x := by
  cases log with
  | false => cases v <;> simp [axisVal, Between, Fl.le, Fl.lt]
  | true =>
    simp only [axisVal, Between, if_true]
    rcases lt_trichotomy lo 0 with hl | hl | hl
    · rw [if_pos hl]
      constructor
      · rintro ⟨h, _⟩; simp [Fl.lt] at h
      · rintro ⟨x, _, h, _⟩; linarith
    · subst hl
      simp only [lt_irrefl, if_false, if_true]
      rcases lt_trichotomy hi 0 with hh | hh | hh
      · rw [if_pos hh]
        constructor
        · rintro ⟨_, h⟩; cases v <;> simp [Fl.le] at h
        · rintro ⟨x, _, _, h, _⟩; linarith
      · subst hh
        simp only [lt_irrefl, if_false, if_true]
        constructor
        · rintro ⟨h', h⟩; cases v <;> simp [Fl.le, Fl.lt] at h h'
        · rintro ⟨x, _, _, h, _⟩; exact h.elim
      · rw [if_neg hh.not_gt, if_neg hh.ne']
        constructor
        · rintro ⟨h', h⟩
          cases v with
          | fin x => exact ⟨x, rfl, le_refl _, hh, by positivity, (Real.le_logb_iff_rpow_le (by norm_num) hh).mp (by simpa [Fl.le] using h)⟩
          | _ => simp [Fl.le, Fl.lt] at h h'
        · rintro ⟨x, rfl, _, _, _, h⟩
          exact ⟨by simp [Fl.lt], by simpa [Fl.le] using (Real.le_logb_iff_rpow_le (by norm_num) hh).mpr h⟩
    · rw [if_neg hl.not_gt, if_neg hl.ne']
      rcases lt_trichotomy hi 0 with hh | hh | hh
      · rw [if_pos hh]
        constructor
        · rintro ⟨_, h⟩; cases v <;> simp [Fl.le] at h
        · rintro ⟨x, _, _, h, _⟩; linarith
      · subst hh
        simp only [lt_irrefl, if_false, if_true]
        constructor
        · rintro ⟨h', h⟩; cases v <;> simp [Fl.le, Fl.lt] at h h'
        · rintro ⟨x, _, _, h, _⟩; exact h.elim
      · rw [if_neg hh.not_gt, if_neg hh.ne']
        constructor
        · rintro ⟨h', h⟩
          cases v with
          | fin x =>
            exact ⟨x, rfl, hl.le, hh, (Real.logb_lt_iff_lt_rpow (by norm_num) hl).mp (by simpa [Fl.lt] using h'),
              (Real.le_logb_iff_rpow_le (by norm_num) hh).mp (by simpa [Fl.le] using h)⟩
          | _ => simp [Fl.le, Fl.lt] at h h'
        · rintro ⟨x, rfl, _, _, h', h⟩
          exact ⟨by simpa [Fl.lt] using (Real.logb_lt_iff_lt_rpow (by norm_num) hl).mpr h',
            by simpa [Fl.le] using (Real.le_logb_iff_rpow_le (by norm_num) hh).mpr h⟩

theorem inPatch_iff (logx logy : Bool) (c : Patch) (d : Datum) : inPatch logx logy c d ↔
    ∃ x y : ℝ, d.x = .fin x ∧ d.y = .fin y ∧
    Between logx c.x0 c.x1 x ∧ Between logy c.y0 c.y1 y := by
  obtain ⟨l, dx, dy⟩ := d
  unfold inPatch
  simp only []
  rw [← and_assoc, axis_between, axis_between]
  constructor
  · rintro ⟨⟨x, hx, h1⟩, y, hy, h2⟩; exact ⟨x, y, hx, hy, h1, h2⟩
  · rintro ⟨x, y, hx, hy, h1, h2⟩; exact ⟨⟨x, hx, h1⟩, y, hy, h2⟩

theorem mem_idx (logx logy : Bool) (data : List Datum) (c : Patch) (l : Nat) :
    l ∈ (data.filter (fun d => decide (inPatch logx logy c d))).map Datum.label ↔ Inside logx logy data c l := by
  simp only [List.mem_map, List.mem_filter, decide_eq_true_eq, inPatch_iff, Inside]
  constructor
  · rintro ⟨d, ⟨h1, h2⟩, rfl⟩; exact ⟨d, h1, rfl, h2⟩
  · rintro ⟨d, h1, rfl, h2⟩; exact ⟨d, ⟨h1, h2⟩, rfl⟩

/-- one patch: nothing is sampled exactly if it holds no data; else only data inside it, without repetition, the requested number if
there are enough, otherwise at least one. -/
theorem samplePatch_spec (S : Sampler) (hS : S.Sound) (n : Nat) (hn : 0 < n) (logx logy : Bool) (data : List Datum)
    (hu : (data.map Datum.label).Nodup) (c : Patch) :
    (samplePatch S n logx logy data c = none ↔ ∀ l, ¬ Inside logx logy data c l) ∧
    ∀ out, samplePatch S n logx logy data c = some out → out.Nodup ∧ (∀ l ∈ out, Inside logx logy data c l) ∧ out ≠ [] ∧
      out.length ≤ n ∧
      (n ≤ (data.countP (fun d => decide (inPatch logx logy c d))) → out.length = n) := by
  obtain ⟨idx, hidx⟩ : ∃ idx, idx = (data.filter (fun d => decide (inPatch logx logy c d))).map Datum.label := ⟨_, rfl⟩
  have hmem : ∀ l, l ∈ idx ↔ Inside logx logy data c l := fun l => by rw [hidx]; exact mem_idx _ _ _ _ _
  have hnd : idx.Nodup := by
    rw [hidx]; exact List.Nodup.sublist (List.Sublist.map _ List.filter_sublist) hu
  have hdef : samplePatch S n logx logy data c =
      if idx = [] then none else if n ≤ idx.length then some (S.draw idx n) else some (S.drawR idx n).dedup := by
    rw [hidx]; rfl
  have hlen : idx.length = data.countP (fun d => decide (inPatch logx logy c d)) := by
    rw [hidx, List.length_map, ← List.countP_eq_length_filter]
  rw [hdef]
  by_cases h0 : idx = []
  · rw [if_pos h0]
    refine ⟨⟨fun _ l hl => ?_, fun _ => rfl⟩, fun out h => by simp at h⟩
    have := (hmem l).mpr hl; rw [h0] at this; simp at this
  · rw [if_neg h0]
    have hne : ∃ l, Inside logx logy data c l := by
      obtain ⟨l, hl⟩ := List.exists_mem_of_ne_nil _ h0
      exact ⟨l, (hmem l).mp hl⟩
    by_cases hle : n ≤ idx.length
    · rw [if_pos hle]
      refine ⟨⟨fun h => by simp at h, fun h => ?_⟩, ?_⟩
      · obtain ⟨l, hl⟩ := hne; exact absurd hl (h l)
      · intro out h
        simp only [Option.some.injEq] at h
        subst h
        have hsp := hS.draw_subperm idx n hle
        have hl := hS.draw_length idx n hle
        refine ⟨?_, fun l hm => (hmem l).mp (hsp.subset hm), ?_, hl.le, fun _ => hl⟩
        · obtain ⟨l', hp, hsub⟩ := hsp
          exact hp.nodup_iff.mp (hnd.sublist hsub)
        · intro h; rw [h] at hl; simp at hl; omega
    · rw [if_neg hle]
      refine ⟨⟨fun h => by simp at h, fun h => ?_⟩, ?_⟩
      · obtain ⟨l, hl⟩ := hne; exact absurd hl (h l)
      · intro out h
        simp only [Option.some.injEq] at h
        subst h
        have hl := hS.drawR_length idx n h0
        refine ⟨List.nodup_dedup _, fun l hm => (hmem l).mp (hS.drawR_subset idx n h0 (List.mem_dedup.mp hm)), ?_, ?_, ?_⟩
        · intro h; rw [List.dedup_eq_nil] at h; rw [h] at hl; simp at hl; omega
        · exact le_trans (List.Sublist.length_le (List.dedup_sublist _)) hl.le
        · intro h; omega

/-- the data left after excluding earlier selections -/
noncomputable def remaining (data : List Datum) (others : Option (List (List Nat))) : List Datum :=
  match others with
  | none => data
  | some os => dropSelected data os.flatten

theorem sampleData_eq (S : Sampler) (n : Nat) (logx logy : Bool) (data : List Datum) (others : Option (List (List Nat)))
    (corners : List Patch) : sampleData S n logx logy data others corners =
    ((corners.flatMap (fun c => (samplePatch S n logx logy (remaining data others) c).getD [])).insertionSort (· ≤ ·),
     corners.filter (fun c => decide (samplePatch S n logx logy (remaining data others) c = none))) := rfl

theorem remaining_nodup {data : List Datum} (hu : (data.map Datum.label).Nodup) (others : Option (List (List Nat))) :
    ((remaining data others).map Datum.label).Nodup := by
  cases others with
  | none => exact hu
  | some os =>
    show ((dropSelected data os.flatten).map Datum.label).Nodup
    unfold dropSelected
    split
    · exact List.Nodup.sublist (List.Sublist.map _ List.filter_sublist) hu
    · exact hu

/-- C135: every sampled label belongs to a datum inside one of the selected patches, the labels come in ascending order, and the
failed patches are exactly those without data. -/
theorem C135_sample (S : Sampler) (hS : S.Sound) (n : Nat) (hn : 0 < n) (logx logy : Bool) (data : List Datum)
    (hu : (data.map Datum.label).Nodup) (corners : List Patch) :
    (∀ l ∈ (sampleData S n logx logy data none corners).1, ∃ c ∈ corners, Inside logx logy data c l) ∧
    (sampleData S n logx logy data none corners).1.Pairwise (· ≤ ·) ∧
    (∀ c ∈ corners, (c ∈ (sampleData S n logx logy data none corners).2 ↔ ∀ l, ¬ Inside logx logy data c l)) ∧
    (∀ c ∈ corners, n ≤ data.countP (fun d => decide (inPatch logx logy c d)) →
      ∃ part : List Nat, part.Subperm (sampleData S n logx logy data none corners).1 ∧ part.length = n ∧ part.Nodup ∧
        ∀ l ∈ part, Inside logx logy data c l) ∧
    ((corners.Pairwise (fun c c' => ∀ l, ¬ (Inside logx logy data c l ∧ Inside logx logy data c' l))) →
      (sampleData S n logx logy data none corners).1.Nodup) := by
  have hspec := samplePatch_spec S hS n hn logx logy data hu
  rw [sampleData_eq]
  have hrem : remaining data none = data := rfl
  rw [hrem]
  simp only []
  have hin : ∀ c, ∀ l ∈ (samplePatch S n logx logy data c).getD [], Inside logx logy data c l := by
    intro c l hl
    rcases h : samplePatch S n logx logy data c with _ | out
    · rw [h] at hl; simp at hl
    · rw [h] at hl; exact ((hspec c).2 out h).2.1 l hl
  refine ⟨?_, List.pairwise_insertionSort (· ≤ ·) _, ?_, ?_, ?_⟩
  · intro l hl
    rw [List.mem_insertionSort, List.mem_flatMap] at hl
    obtain ⟨c, hc, hl⟩ := hl
    exact ⟨c, hc, hin c l hl⟩
  · intro c hc
    rw [List.mem_filter, decide_eq_true_eq, (hspec c).1]
    exact ⟨fun h => h.2, fun h => ⟨hc, h⟩⟩
  · intro c hc hcount
    have hne : samplePatch S n logx logy data c ≠ none := by
      rw [Ne, (hspec c).1]
      intro hno
      have : 0 < data.countP (fun d => decide (inPatch logx logy c d)) := by omega
      rw [List.countP_pos_iff] at this
      obtain ⟨d, hd, hp⟩ := this
      exact hno d.label ⟨d, hd, rfl, (inPatch_iff _ _ _ _).mp (by simpa using hp)⟩
    obtain ⟨out, hout⟩ := Option.ne_none_iff_exists'.mp hne
    obtain ⟨s1, s2, s3, s4, s5⟩ := (hspec c).2 out hout
    refine ⟨out, ?_, s5 hcount, s1, s2⟩
    have hsub : out.Sublist (corners.flatMap (fun c => (samplePatch S n logx logy data c).getD [])) := by
      obtain ⟨l1, l2, rfl⟩ := List.append_of_mem hc
      rw [List.flatMap_append, List.flatMap_cons, hout]
      exact (List.sublist_append_left out _).trans (List.sublist_append_right _ _)
    exact hsub.subperm.trans (List.perm_insertionSort _ _).symm.subperm
  · intro hdis
    rw [(List.perm_insertionSort (· ≤ ·) _).nodup_iff]
    induction corners with
    | nil => simp
    | cons c cs ih =>
      rw [List.pairwise_cons] at hdis
      rw [List.flatMap_cons, List.nodup_append]
      refine ⟨?_, ih hdis.2, ?_⟩
      · rcases h : samplePatch S n logx logy data c with _ | out
        · simp
        · exact ((hspec c).2 out h).1
      · intro a ha b hb
        rintro rfl
        obtain ⟨c', hc', hb⟩ := List.mem_flatMap.mp hb
        exact hdis.1 c' hc' a ⟨hin c a ha, hin c' a hb⟩

/-- C135: if all earlier selected labels occur in the data none of them is sampled again. -/
theorem C135_excludes (S : Sampler) (hS : S.Sound) (n : Nat) (hn : 0 < n) (logx logy : Bool) (data : List Datum)
    (hu : (data.map Datum.label).Nodup) (others : List (List Nat)) (hall : ∀ o ∈ others, ∀ l ∈ o, l ∈ data.map Datum.label)
    (corners : List Patch) :
    ∀ l ∈ (sampleData S n logx logy data (some others) corners).1, ∀ o ∈ others, l ∉ o := by
  intro l hl o ho hlo
  rw [sampleData_eq] at hl
  simp only [] at hl
  rw [List.mem_insertionSort, List.mem_flatMap] at hl
  obtain ⟨c, hc, hl⟩ := hl
  have hrem : remaining data (some others) = data.filter (fun d => decide (d.label ∉ others.flatten)) := by
    show dropSelected data others.flatten = _
    unfold dropSelected
    rw [if_pos]
    intro l hl
    obtain ⟨o, ho, hl⟩ := List.mem_flatten.mp hl
    exact hall o ho l hl
  rcases h : samplePatch S n logx logy (remaining data (some others)) c with _ | out
  · rw [h] at hl; simp at hl
  · rw [h] at hl
    obtain ⟨d, hd, hdl, _⟩ := ((samplePatch_spec S hS n hn logx logy _ (remaining_nodup hu _) c).2 out h).2.1 l hl
    rw [hrem, List.mem_filter] at hd
    rw [hdl] at hd
    have := hd.2
    simp only [decide_eq_true_eq, List.mem_flatten, not_exists, not_and] at this
    exact this o ho hlo

/-- C135 (violated): one earlier selected label that is not in this plot's data disables the exclusion entirely: the result is the one
without any earlier selection. -/
theorem C135_one_missing (S : Sampler) (n : Nat) (logx logy : Bool) (data : List Datum) (others : List (List Nat)) (o : List Nat)
    (ho : o ∈ others) (l : Nat) (hl : l ∈ o) (hmiss : l ∉ data.map Datum.label) (corners : List Patch) :
    sampleData S n logx logy data (some others) corners = sampleData S n logx logy data none corners := by
  rw [sampleData_eq, sampleData_eq]
  have : remaining data (some others) = remaining data none := by
    show dropSelected data others.flatten = data
    unfold dropSelected
    rw [if_neg]
    intro h
    exact hmiss (h l (List.mem_flatten.mpr ⟨o, ho, hl⟩))
  rw [this]

/-- non-vacuity: a sound sampler exists -/
example : Sampler.Sound ⟨fun pop n => pop.take n, fun pop n => List.replicate n (pop.headD 0)⟩ where
  draw_subperm pop n _ := (List.take_sublist n pop).subperm
  draw_length pop n h := by simp [h]
  drawR_subset pop n h := by
    intro x hx
    rw [List.eq_of_mem_replicate hx]
    cases pop with
    | nil => exact absurd rfl h
    | cons a l => simp
  drawR_length pop n _ := by simp

end PlotTools
end SW
