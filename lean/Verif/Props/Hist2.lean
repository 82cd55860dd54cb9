import Verif.Props.Hist
import Mathlib.Tactic.Linarith

/-!
# C76-C78, C125-C130: 2-D normalisation, selection, CDF, borders
-/

namespace SW
namespace Hist

open Classical

/-! ### C76 -/

/-- `after` is `before` divided by its (positive) maximum over the cells `l`: at most 1, 1 attained, ratios kept, missing stays
missing -/
def MaxNormed {α : Type} (l : List α) (before after : α → Fl) : Prop :=
  ∃ M, 0 < M ∧ Act.IsMax M (l.map before) ∧
    (∀ k ∈ l, (before k = .nan → after k = .nan) ∧
      ∀ r, before k = .fin r → ∃ q, after k = .fin q ∧ q * M = r ∧ q ≤ 1) ∧
    ∃ k ∈ l, after k = .fin 1

/-- every cell is a number or missing, and one is positive -/
def HasPositive {α : Type} (l : List α) (before : α → Fl) : Prop :=
  (∀ k ∈ l, before k = .nan ∨ ∃ r, before k = .fin r) ∧ ∃ k ∈ l, ∃ r, 0 < r ∧ before k = .fin r

theorem exists_max {g : List Fl} {r : ℝ} (h : Fl.fin r ∈ g) : ∃ M, Act.IsMax M g ∧ r ≤ M := by
  have hv := Act.mem_vals.mpr h
  cases hl : Act.vals g with
  | nil => rw [hl] at hv; simp at hv
  | cons a l =>
    obtain ⟨h1, h2⟩ := Act.foldl_max_spec a l
    rw [← hl] at h1 h2
    exact ⟨l.foldl max a, ⟨Act.mem_vals.mp h1, fun q hq => h2 q (Act.mem_vals.mpr hq)⟩, h2 r hv⟩

theorem maxNormed_of {α : Type} (l : List α) (before : α → Fl) (h : HasPositive l before) :
    MaxNormed l before (fun k => before k / Act.gmax (l.map before)) := by
  obtain ⟨hm, k, hk, r, hr, hkr⟩ := h
  obtain ⟨M, hM, hrM⟩ := exists_max (g := l.map before) (List.mem_map.mpr ⟨k, hk, hkr⟩)
  have hpos : 0 < M := lt_of_lt_of_le hr hrM
  rw [Act.gmax_eq hM]
  refine ⟨M, hpos, hM, ?_, ?_⟩
  · intro j hj
    refine ⟨fun h => by simp [h], fun q hq => ⟨q / M, by simp only [hq]; exact Fl.fin_div _ _ hpos.ne', div_mul_cancel₀ _ hpos.ne', ?_⟩⟩
    rw [div_le_one hpos]
    exact hM.2 q (List.mem_map.mpr ⟨j, hj, hq⟩)
  · obtain ⟨j, hj, hje⟩ := List.mem_map.mp hM.1
    exact ⟨j, hj, by simp only [hje]; rw [Fl.fin_div _ _ hpos.ne', div_self hpos.ne']⟩

/-- C76: 'c' scales each column with a positive cell by that column's largest value, 'r' each row, 't' the whole grid. -/
theorem C76_max_norms (ex ey : List ℝ) (logx logy : Bool) (a : Grid) :
    (∃ g, norm2 ex ey logx logy (some "c") a = .ok g ∧
      ∀ i, HasPositive (List.range (ey.length - 1)) (a i) → MaxNormed (List.range (ey.length - 1)) (a i) (g i)) ∧
    (∃ g, norm2 ex ey logx logy (some "r") a = .ok g ∧
      ∀ j, HasPositive (List.range (ex.length - 1)) (fun i => a i j) →
        MaxNormed (List.range (ex.length - 1)) (fun i => a i j) (fun i => g i j)) ∧
    (∃ g, norm2 ex ey logx logy (some "t") a = .ok g ∧
      (HasPositive (List.product (List.range (ex.length - 1)) (List.range (ey.length - 1))) (fun p => a p.1 p.2) →
        MaxNormed (List.product (List.range (ex.length - 1)) (List.range (ey.length - 1))) (fun p => a p.1 p.2)
          (fun p => g p.1 p.2))) := by
  refine ⟨⟨_, rfl, ?_⟩, ⟨_, rfl, ?_⟩, ⟨_, rfl, ?_⟩⟩
  · intro i h; exact maxNormed_of _ _ h
  · intro j h; exact maxNormed_of _ _ h
  · intro h
    have := maxNormed_of _ _ h
    rw [← cells_eq] at this
    exact this

/-- C76: an all-zero column (row, grid) becomes entirely missing: 0/0. -/
theorem C76_zero_column (ex ey : List ℝ) (logx logy : Bool) (a : Grid) (i : Nat)
    (h : ∀ j, j < ey.length - 1 → a i j = .fin 0) :
    ∃ g, norm2 ex ey logx logy (some "c") a = .ok g ∧ ∀ j, j < ey.length - 1 → g i j = .nan := by
  refine ⟨_, rfl, ?_⟩
  intro j hj
  have hM : Act.IsMax 0 (col a (ey.length - 1) i) := by
    constructor
    · exact List.mem_map.mpr ⟨j, List.mem_range.mpr hj, h j hj⟩
    · intro r hr
      obtain ⟨k, hk, he⟩ := List.mem_map.mp hr
      rw [h k (List.mem_range.mp hk), Fl.fin_inj] at he
      exact he.ge
  show a i j / Act.gmax (col a (ey.length - 1) i) = .nan
  rw [Act.gmax_eq hM, h j hj]
  show (if (0 : ℝ) = 0 then _ else _) = _
  simp

theorem sumSkip_normed {α : Type} (l : List α) (F : α → Fl) (w : α → ℝ) (hF : ∀ k ∈ l, F k = .nan ∨ ∃ r, F k = .fin r)
    {N : ℝ} (hN : Fl.sumSkip (l.map F) = .fin N) (hN0 : N ≠ 0) (hw : ∀ k ∈ l, w k ≠ 0) :
    Fl.sumSkip (l.map (fun k => F k / .fin N / .fin (w k) * .fin (w k))) = .fin 1 := by
  rw [sumSkip_rv l F hF, Fl.fin_inj] at hN
  have hval : ∀ k ∈ l, F k / .fin N / .fin (w k) * .fin (w k) = .nan ∨
      ∃ r, F k / .fin N / .fin (w k) * .fin (w k) = .fin r := by
    intro k hk
    rcases hF k hk with h | ⟨r, h⟩
    · left; rw [h]; simp
    · right; rw [h, Fl.fin_div _ _ hN0, Fl.fin_div _ _ (hw k hk), Fl.fin_mul]; exact ⟨_, rfl⟩
  rw [sumSkip_rv l _ hval]
  congr 1
  have : l.map (fun k => rv (F k / .fin N / .fin (w k) * .fin (w k))) = l.map (fun k => rv (F k) / N) := by
    apply List.map_congr_left
    intro k hk
    rcases hF k hk with h | ⟨r, h⟩
    · rw [h]; simp
    · rw [h, Fl.fin_div _ _ hN0, Fl.fin_div _ _ (hw k hk), Fl.fin_mul, rv_fin, rv_fin, div_mul_cancel₀ _ (hw k hk)]
  rw [this, sum_div_const, hN, div_self hN0]

/-- C76: 'cd' makes every column integrate to one over y, 'rd' every row over x (in the plotted coordinate, also on log axes). -/
theorem C76_conditional_densities (ex ey : List ℝ) (hx : ex.Pairwise (· < ·)) (hy : ey.Pairwise (· < ·)) (logx logy : Bool)
    (a : Grid) (ha : ∀ i j, a i j = .nan ∨ ∃ r, a i j = .fin r) :
    (∃ g, norm2 ex ey logx logy (some "cd") a = .ok g ∧ ∀ (i : Nat) (N : ℝ), Fl.sumSkip (col a (ey.length - 1) i) = .fin N → N ≠ 0 →
      Fl.sumSkip ((List.range (ey.length - 1)).map (fun j => g i j * .fin (width ey j))) = .fin 1) ∧
    (∃ g, norm2 ex ey logx logy (some "rd") a = .ok g ∧ ∀ (j : Nat) (N : ℝ), Fl.sumSkip (row a (ex.length - 1) j) = .fin N → N ≠ 0 →
      Fl.sumSkip ((List.range (ex.length - 1)).map (fun i => g i j * .fin (width ex i))) = .fin 1) := by
  refine ⟨⟨_, rfl, ?_⟩, ⟨_, rfl, ?_⟩⟩
  · intro i N hN hN0
    have := sumSkip_normed (List.range (ey.length - 1)) (a i) (width ey) (fun j _ => ha i j) hN hN0
      (fun j hj => (width_pos hy (by have := List.mem_range.mp hj; omega)).ne')
    rw [← hN] at this
    exact this
  · intro j N hN hN0
    have := sumSkip_normed (List.range (ex.length - 1)) (fun i => a i j) (width ex) (fun i _ => ha i j) hN hN0
      (fun i hi => (width_pos hx (by have := List.mem_range.mp hi; omega)).ne')
    rw [← hN] at this
    exact this

/-- the volume under a 2-D density: the sum over cells of value times area -/
noncomputable def volume (ex ey : List ℝ) (g : Grid) : Fl :=
  Fl.sumSkip ((List.product (List.range (ex.length - 1)) (List.range (ey.length - 1))).map
    (fun p => g p.1 p.2 * .fin (width ex p.1 * width ey p.2)))

theorem volume_d (ex ey : List ℝ) (hx : ex.Pairwise (· < ·)) (hy : ey.Pairwise (· < ·)) (logx logy : Bool)
    (a : Grid) (ha : ∀ i j, a i j = .nan ∨ ∃ r, a i j = .fin r) {N : ℝ}
    (hN : Fl.sumSkip (cells a (ex.length - 1) (ey.length - 1)) = .fin N) (hN0 : N ≠ 0) :
    ∃ g, norm2 ex ey logx logy (some "d") a = .ok g ∧ volume ex ey g =
      .fin (((List.product (List.range (ex.length - 1)) (List.range (ey.length - 1))).map
        (fun p => rv (a p.1 p.2) / N * (width ex p.1 / dens logx (width ex p.1)) * (width ey p.2 / dens logy (width ey p.2)))).sum) := by
  refine ⟨_, rfl, ?_⟩
  unfold volume
  have hdens : ∀ (b : Bool) (w : ℝ), 0 < w → dens b w ≠ 0 := by
    intro b w hw; unfold dens; split
    · positivity
    · exact hw.ne'
  have hcell : ∀ p ∈ List.product (List.range (ex.length - 1)) (List.range (ey.length - 1)),
      a p.1 p.2 / .fin (dens logx (width ex p.1)) / .fin (dens logy (width ey p.2)) /
        Fl.sumSkip (cells a (ex.length - 1) (ey.length - 1)) * .fin (width ex p.1 * width ey p.2) =
      (if (a p.1 p.2).isNaN then .nan else
        .fin (rv (a p.1 p.2) / N * (width ex p.1 / dens logx (width ex p.1)) * (width ey p.2 / dens logy (width ey p.2)))) := by
    rintro ⟨i, j⟩ hp
    have hp' := List.mem_product.mp hp
    simp only [List.mem_range] at hp'
    have hwx := hdens logx _ (width_pos hx (i := i) (by omega))
    have hwy := hdens logy _ (width_pos hy (i := j) (by omega))
    rcases ha i j with h | ⟨r, h⟩
    · simp only [h]; simp
    · simp only [h, hN]
      rw [Fl.fin_div _ _ hwx, Fl.fin_div _ _ hwy, Fl.fin_div _ _ hN0, Fl.fin_mul, if_neg (by simp), rv_fin]
      congr 1
      field_simp
  rw [List.map_congr_left hcell, sumSkip_rv]
  · congr 2
    apply List.map_congr_left
    intro p _
    cases h : a p.1 p.2 <;> simp [rv]
  · intro p _
    by_cases h : (a p.1 p.2).isNaN
    · left; rw [if_pos h]
    · right; rw [if_neg h]; exact ⟨_, rfl⟩

/-- C76 / C75 (2-D): on linear axes the 'd' density integrates to exactly one over the plane. -/
theorem C76_density (ex ey : List ℝ) (hx : ex.Pairwise (· < ·)) (hy : ey.Pairwise (· < ·))
    (a : Grid) (ha : ∀ i j, a i j = .nan ∨ ∃ r, a i j = .fin r) {N : ℝ}
    (hN : Fl.sumSkip (cells a (ex.length - 1) (ey.length - 1)) = .fin N) (hN0 : N ≠ 0) :
    ∃ g, norm2 ex ey false false (some "d") a = .ok g ∧ volume ex ey g = .fin 1 := by
  obtain ⟨g, hg, hv⟩ := volume_d ex ey hx hy false false a ha hN hN0
  refine ⟨g, hg, hv.trans ?_⟩
  congr 1
  have : (List.product (List.range (ex.length - 1)) (List.range (ey.length - 1))).map
      (fun p => rv (a p.1 p.2) / N * (width ex p.1 / dens false (width ex p.1)) * (width ey p.2 / dens false (width ey p.2))) =
      (List.product (List.range (ex.length - 1)) (List.range (ey.length - 1))).map (fun p => rv (a p.1 p.2) / N) := by
    apply List.map_congr_left
    rintro ⟨i, j⟩ hp
    have hp' := List.mem_product.mp hp
    simp only [List.mem_range] at hp'
    have h1 := width_pos hx (i := i) (by omega)
    have h2 := width_pos hy (i := j) (by omega)
    simp only [dens]
    rw [if_neg (by simp), if_neg (by simp), div_self h1.ne', div_self h2.ne', mul_one, mul_one]
  rw [this, sum_div_const]
  rw [cells_eq, sumSkip_rv _ _ (fun p _ => ha p.1 p.2), Fl.fin_inj] at hN
  rw [hN, div_self hN0]

theorem lin_lt_pow10 {w : ℝ} (hw : 0 < w) : 0 < w / dens true w ∧ w / dens true w < 1 := by
  have h10 : w < (10 : ℝ) ^ w := by
    have h1 : 1 + w * Real.log 10 ≤ (10 : ℝ) ^ w := by
      rw [Real.rpow_def_of_pos (by norm_num)]
      have := Real.add_one_le_exp (Real.log 10 * w)
      linarith
    have h2 : 1 < Real.log 10 := by
      rw [Real.lt_log_iff_exp_lt (by norm_num)]
      have := Real.exp_one_lt_d9; linarith
    nlinarith
  have hpos : (0 : ℝ) < 10 ^ w := by positivity
  simp only [dens, if_true]
  exact ⟨div_pos hw hpos, by rw [div_lt_one hpos]; exact h10⟩

/-- C76 / C75 (2-D, violated): as soon as one axis is logarithmic the 'd' density of non-negative counts integrates to strictly
less than one. -/
theorem C76_density_log (ex ey : List ℝ) (hx : ex.Pairwise (· < ·)) (hy : ey.Pairwise (· < ·)) (logx logy : Bool)
    (hlog : logx = true ∨ logy = true)
    (a : Grid) (ha : ∀ i j, a i j = .nan ∨ ∃ r, 0 ≤ r ∧ a i j = .fin r) {N : ℝ}
    (hN : Fl.sumSkip (cells a (ex.length - 1) (ey.length - 1)) = .fin N) (hN0 : 0 < N) :
    ∃ g s, norm2 ex ey logx logy (some "d") a = .ok g ∧ volume ex ey g = .fin s ∧ s < 1 := by
  have ha' : ∀ i j, a i j = .nan ∨ ∃ r, a i j = .fin r := fun i j => (ha i j).imp id (fun ⟨r, _, h⟩ => ⟨r, h⟩)
  obtain ⟨g, hg, hv⟩ := volume_d ex ey hx hy logx logy a ha' hN hN0.ne'
  refine ⟨g, _, hg, hv, ?_⟩
  rw [cells_eq, sumSkip_rv _ _ (fun p _ => ha' p.1 p.2), Fl.fin_inj] at hN
  have h1 : ((List.product (List.range (ex.length - 1)) (List.range (ey.length - 1))).map (fun p => rv (a p.1 p.2) / N)).sum = 1 := by
    rw [sum_div_const, hN, div_self hN0.ne']
  have hrv : ∀ p : Nat × Nat, 0 ≤ rv (a p.1 p.2) := by
    intro p
    rcases ha p.1 p.2 with h | ⟨r, hr, h⟩
    · rw [h]; simp
    · rw [h]; exact hr
  have hdens : ∀ (b : Bool) (w : ℝ), 0 < w → 0 < w / dens b w ∧ w / dens b w ≤ 1 ∧ (b = true → w / dens b w < 1) := by
    intro b w hw
    cases b with
    | true => exact ⟨(lin_lt_pow10 hw).1, (lin_lt_pow10 hw).2.le, fun _ => (lin_lt_pow10 hw).2⟩
    | false =>
      simp only [dens]
      rw [if_neg (by simp), div_self hw.ne']; exact ⟨by norm_num, le_refl _, by simp⟩
  -- some cell is positive
  obtain ⟨p, hp, hpp⟩ : ∃ p ∈ List.product (List.range (ex.length - 1)) (List.range (ey.length - 1)), 0 < rv (a p.1 p.2) := by
    by_contra hc
    push Not at hc
    have hz : (List.product (List.range (ex.length - 1)) (List.range (ey.length - 1))).map (fun p => rv (a p.1 p.2)) =
        (List.product (List.range (ex.length - 1)) (List.range (ey.length - 1))).map (fun _ => (0 : ℝ)) := by
      apply List.map_congr_left
      intro p hp
      exact le_antisymm (hc p hp) (hrv p)
    rw [hz] at hN
    simp at hN
    linarith
  rw [← h1]
  have hle : ∀ p ∈ List.product (List.range (ex.length - 1)) (List.range (ey.length - 1)),
      0 < width ex p.1 / dens logx (width ex p.1) * (width ey p.2 / dens logy (width ey p.2)) ∧
      width ex p.1 / dens logx (width ex p.1) * (width ey p.2 / dens logy (width ey p.2)) < 1 := by
    rintro ⟨i, j⟩ hp
    have hp' := List.mem_product.mp hp
    simp only [List.mem_range] at hp'
    obtain ⟨x1, x2, x3⟩ := hdens logx _ (width_pos hx (i := i) (by omega))
    obtain ⟨y1, y2, y3⟩ := hdens logy _ (width_pos hy (i := j) (by omega))
    refine ⟨mul_pos x1 y1, ?_⟩
    rcases hlog with h | h
    · have := x3 h; simp only []; nlinarith
    · have := y3 h; simp only []; nlinarith
  refine sum_lt' _ _ _ ?_ hp ?_
  · intro q hq
    have := (hle q hq).2.le
    rw [mul_assoc]
    exact mul_le_of_le_one_right (div_nonneg (hrv q) hN0.le) this
  · have := (hle p hp).2
    rw [mul_assoc]
    have hq : 0 < rv (a p.1 p.2) / N := div_pos hpp hN0
    nlinarith

example : ∃ g, norm2 [0, 1, 3] [0, 2] false false (some "d") (fun i j => if i = 0 ∧ j = 0 then .fin 3 else if i = 1 ∧ j = 0 then .fin 1 else .nan)
    = .ok g ∧ volume [0, 1, 3] [0, 2] g = .fin 1 := by
  refine C76_density [0, 1, 3] [0, 2] (by norm_num) (by norm_num) _ ?_ (N := 4) ?_ (by norm_num)
  · intro i j
    split
    · right; exact ⟨_, rfl⟩
    · split
      · right; exact ⟨_, rfl⟩
      · left; rfl
  · simp [cells, col, List.range_succ]
    rw [Fl.zero_def, Fl.fin_add, Fl.fin_add]; norm_num

/-- `alim` masks exactly the values outside the closed limits, after normalisation. -/
theorem C128_alim (a0 a1 : Option ℝ) (r : ℝ) :
    (((∀ a, a0 = some a → a ≤ r) ∧ (∀ b, a1 = some b → r ≤ b)) → alimMask a0 a1 (.fin r) = .fin r) ∧
    (¬ ((∀ a, a0 = some a → a ≤ r) ∧ (∀ b, a1 = some b → r ≤ b)) → alimMask a0 a1 (.fin r) = .nan) ∧
    alimMask a0 a1 .nan = .nan := by
  refine ⟨?_, ?_, ?_⟩
  · intro h; unfold alimMask; rw [if_pos]; simpa [Option.mem_def] using h
  · intro h; unfold alimMask; rw [if_neg]; simpa [Option.mem_def] using h
  · unfold alimMask; split <;> rfl

/-! ### C77 -/

/-- C77 (1-D, exact): a datum is marked iff its bin is displayed. -/
theorem C77_exact_1d (a : List Fl) (cuts : List (Option Nat)) :
    (plotted1 a cuts).length = cuts.length ∧
    ∀ (k : Nat) (c : Option Nat), cuts[k]? = some c →
      ((plotted1 a cuts)[k]? = some true ↔ ∃ i v, c = some i ∧ a[i]? = some v ∧ ¬ v.isNaN) := by
  refine ⟨by simp [plotted1], ?_⟩
  intro k c hk
  unfold plotted1
  rw [List.getElem?_map, hk]
  simp only [Option.map_some, Option.some.injEq, decide_eq_true_eq]
  constructor
  · rintro ⟨i, hc, hi, hn⟩
    refine ⟨i, a[i], hc, List.getElem?_eq_getElem hi, ?_⟩
    rwa [List.getD_eq_getElem?_getD, List.getElem?_eq_getElem hi] at hn
  · rintro ⟨i, v, hc, hv, hn⟩
    have hi := (List.getElem?_eq_some_iff.mp hv).1
    refine ⟨i, hc, hi, ?_⟩
    rw [List.getD_eq_getElem?_getD, hv]; exact hn

/-- C77 (2-D): a datum in cell (i,j) is marked iff column i shows some cell and row j shows some cell. -/
theorem C77_2d (nx ny : Nat) (a : Grid) (cuts : List (Option Nat × Option Nat)) :
    (plotted2 nx ny a cuts).length = cuts.length ∧
    (∀ (k i j : Nat), cuts[k]? = some (some i, some j) → i < nx → j < ny →
      (¬ (a i j).isNaN → (plotted2 nx ny a cuts)[k]? = some true) ∧
      ((plotted2 nx ny a cuts)[k]? = some true ↔
        (∃ j', j' < ny ∧ ¬ (a i j').isNaN) ∧ (∃ i', i' < nx ∧ ¬ (a i' j).isNaN))) ∧
    (∀ (k : Nat) (c : Option Nat × Option Nat), cuts[k]? = some c → (c.1 = none ∨ c.2 = none) →
      (plotted2 nx ny a cuts)[k]? = some false) := by
  refine ⟨by simp [plotted2], ?_, ?_⟩
  · intro k i j hk hi hj
    have key : (plotted2 nx ny a cuts)[k]? = some true ↔
        (∃ j', j' < ny ∧ ¬ (a i j').isNaN) ∧ (∃ i', i' < nx ∧ ¬ (a i' j).isNaN) := by
      unfold plotted2
      rw [List.getElem?_map, hk]
      simp only [Option.map_some, Option.some.injEq, Bool.and_eq_true, decide_eq_true_eq]
      constructor
      · rintro ⟨⟨i0, e1, _, h1⟩, ⟨j0, e2, _, h2⟩⟩
        subst e1; subst e2; exact ⟨h1, h2⟩
      · rintro ⟨h1, h2⟩; exact ⟨⟨i, rfl, hi, h1⟩, ⟨j, rfl, hj, h2⟩⟩
    exact ⟨fun h => key.mpr ⟨⟨j, hj, h⟩, ⟨i, hi, h⟩⟩, key⟩
  · rintro k ⟨c1, c2⟩ hk hc
    unfold plotted2
    rw [List.getElem?_map, hk]
    simp only [Option.map_some, Option.some.injEq, Bool.and_eq_false_iff, decide_eq_false_iff_not]
    rcases hc with h | h <;> simp only at h <;> subst h
    · left; rintro ⟨i, e, _⟩; exact absurd e (by simp)
    · right; rintro ⟨i, e, _⟩; exact absurd e (by simp)

/-- C77 (violated): a datum in a hidden cell is marked as plotted whenever its column and its row each show another cell. -/
theorem C77_hidden_marked (nx ny : Nat) (a : Grid) (cuts : List (Option Nat × Option Nat)) (k i j i' j' : Nat)
    (hk : cuts[k]? = some (some i, some j)) (hi : i < nx) (hj : j < ny) (hi' : i' < nx) (hj' : j' < ny)
    (h1 : ¬ (a i j').isNaN) (h2 : ¬ (a i' j).isNaN) : (plotted2 nx ny a cuts)[k]? = some true :=
  ((C77_2d nx ny a cuts).2.1 k i j hk hi hj).2.mpr ⟨⟨j', hj', h1⟩, ⟨i', hi', h2⟩⟩

/-- the violation is reachable: with a lower count limit of 2 the single datum of cell (0,1) is not displayed but marked. -/
example : ∃ g, agg2 [0, 1, 2] [0, 1, 2] false false none [1, 1, 1, 1, 1]
      [(some 0, some 0), (some 0, some 0), (some 1, some 1), (some 1, some 1), (some 0, some 1)] none (some 2) none none none = .ok g ∧
    g 0 1 = .nan ∧ (plotted2 2 2 g
      [(some 0, some 0), (some 0, some 0), (some 1, some 1), (some 1, some 1), (some 0, some 1)])[4]? = some true := by
  refine ⟨_, rfl, ?_, ?_⟩
  · have h : binVal [1, 1, 1, 1, 1] [(some 0, some 0), (some 0, some 0), (some 1, some 1), (some 1, some 1), (some 0, some 1)]
        none (some 2) none ((some 0, some 1) : Option Nat × Option Nat) = .nan := by
      refine (C74_clim _ _ none (some 2) none _).2.1 ?_
      rw [grp_eq]
      simp [Fl.one_def]
    show alimMask none none (binVal _ _ _ _ _ _) = _
    rw [h]; unfold alimMask; simp
  · have hv : ∀ k : Option Nat × Option Nat, 2 ≤ count (grp [1, 1, 1, 1, 1]
        [(some 0, some 0), (some 0, some 0), (some 1, some 1), (some 1, some 1), (some 0, some 1)] k) →
        ¬ (alimMask none none (binVal [1, 1, 1, 1, 1]
          [(some 0, some 0), (some 0, some 0), (some 1, some 1), (some 1, some 1), (some 0, some 1)] none (some 2) none k)).isNaN := by
      intro k hk
      have hm : ∀ v : Fl, alimMask none none v = v := by intro v; unfold alimMask; simp
      rw [hm]
      unfold binVal
      have hne : grp [1, 1, 1, 1, 1]
        [(some 0, some 0), (some 0, some 0), (some 1, some 1), (some 1, some 1), (some 0, some 1)] k ≠ [] := by
        intro h; rw [h] at hk; simp [count] at hk
      rw [if_neg hne, if_pos (by simp [climKeep]; exact_mod_cast hk)]
      have : chooseFcn none [1, 1, 1, 1, 1] = .count := by
        unfold chooseFcn
        have : ([1, 1, 1, 1, 1] : List Fl).filter (fun v => decide (¬ v.isNaN)) = [1, 1, 1, 1, 1] := by simp [Fl.one_def]
        rw [this]
        have : ([1, 1, 1, 1, 1] : List Fl).dedup = [1] := by simp
        simp [this]
      rw [this]
      simp [aggVal]
    refine C77_hidden_marked 2 2 _ _ 4 0 1 1 0 rfl (by norm_num) (by norm_num) (by norm_num) (by norm_num) ?_ ?_
    · apply hv; rw [grp_eq]; simp [Fl.one_def]
    · apply hv; rw [grp_eq]; simp [Fl.one_def]

/-- C77: `get_subset_above_threshold` is exact in 1-D and also axis-wise in 2-D. -/
theorem C77_threshold (nx ny : Nat) (thr : ℝ) (a1 : List Fl) (a : Grid) (cuts1 : List (Option Nat))
    (cuts : List (Option Nat × Option Nat)) :
    (∀ (k i : Nat) (v : Fl), cuts1[k]? = some (some i) → a1[i]? = some v →
      ((above1 thr a1 cuts1)[k]? = some true ↔ Fl.le (.fin thr) v)) ∧
    (∀ (k i j : Nat), cuts[k]? = some (some i, some j) → i < nx → j < ny →
      ((above2 nx ny thr a cuts)[k]? = some true ↔
        (∃ j', j' < ny ∧ Fl.le (.fin thr) (a i j')) ∧ (∃ i', i' < nx ∧ Fl.le (.fin thr) (a i' j)))) := by
  constructor
  · intro k i v hk hv
    unfold above1
    rw [List.getElem?_map, hk]
    simp only [Option.map_some, Option.some.injEq, decide_eq_true_eq]
    have hi := (List.getElem?_eq_some_iff.mp hv).1
    have hg : a1.getD i .nan = v := by rw [List.getD_eq_getElem?_getD, hv]; rfl
    constructor
    · rintro ⟨i0, e, _, h⟩
      subst e; rwa [hg] at h
    · intro h; exact ⟨i, rfl, hi, by rwa [hg]⟩
  · intro k i j hk hi hj
    unfold above2
    rw [List.getElem?_map, hk]
    simp only [Option.map_some, Option.some.injEq, Bool.and_eq_true, decide_eq_true_eq]
    constructor
    · rintro ⟨⟨i0, e1, _, h1⟩, ⟨j0, e2, _, h2⟩⟩
      subst e1; subst e2; exact ⟨h1, h2⟩
    · rintro ⟨h1, h2⟩; exact ⟨⟨i, rfl, hi, h1⟩, ⟨j, rfl, hj, h2⟩⟩

/-! ### C78: empirical CDF -/

/-- the measurements the CDF is built from: those in some bin and marked -/
def Selected (xs : List Fl) (cuts : List (Option Nat)) (mark : List Bool) : List Fl :=
  (((xs.zip cuts).zip mark).filter (fun p => decide (p.1.2 ≠ none) && p.2)).map (fun p => p.1.1)

theorem vals_fin {l : List Fl} (h : ∀ x ∈ l, x.isFinite) : (Act.vals l).map Fl.fin = l := by
  induction l with
  | nil => rfl
  | cons a l ih =>
    obtain ⟨r, rfl⟩ := Fl.isFinite_iff.mp (h a (by simp))
    have ih' := ih (fun x hx => h x (by simp [hx]))
    show Fl.fin r :: (Act.vals l).map Fl.fin = _
    rw [ih']

/-- C78: the CDF of a histogram lists every selected measurement exactly once, in ascending order, at positions `k/(n-1)`: they rise
in equal steps from 0 to 1. -/
theorem C78_cdf (e : List ℝ) (xs ys : List Fl) (mark : List Bool) (out : List (Fl × Fl))
    (h : cdf false xs ys (xs.map (cutIdx e)) mark = .ok out) :
    (out.map Prod.fst).Perm (Selected xs (xs.map (cutIdx e)) mark) ∧
    (out.map Prod.fst).Pairwise Fl.le ∧
    (2 ≤ out.length → ∀ k : Nat, k < out.length → (out.map Prod.snd)[k]? = some (.fin ((k : ℝ) / ((out.length : ℝ) - 1)))) ∧
    (2 ≤ out.length → (out.map Prod.snd)[0]? = some (.fin 0) ∧ (out.map Prod.snd)[out.length - 1]? = some (.fin 1)) ∧
    (out.length = 1 → out.map Prod.snd = [.nan]) := by
  unfold cdf at h
  split at h
  · exact absurd h (by simp)
  · simp only [Bool.false_eq_true, if_false] at h
    injection h with h
    have hsel : ((((xs.zip (xs.map (cutIdx e))).zip mark).filter (fun p => decide (p.1.2 ≠ none) && p.2)).map (fun p => p.1.1)) =
        Selected xs (xs.map (cutIdx e)) mark := rfl
    rw [hsel] at h
    have hfin : ∀ x ∈ Selected xs (xs.map (cutIdx e)) mark, x.isFinite := by
      intro x hx
      obtain ⟨⟨⟨y, c⟩, b⟩, hp, rfl⟩ := List.mem_map.mp hx
      rw [List.mem_filter] at hp
      have hz := (List.of_mem_zip hp.1).1
      have hc : c = cutIdx e y := by
        have hz' : (y, c) ∈ xs.map (fun x => (x, cutIdx e x)) := by
          have e1 : xs.zip (xs.map (cutIdx e)) = xs.map (fun x => (x, cutIdx e x)) := by
            conv_lhs => rw [← List.map_id xs, List.map_map, List.zip_map']
            rfl
          rw [← e1]; exact hz
        obtain ⟨w, _, hw⟩ := List.mem_map.mp hz'
        simp only [Prod.mk.injEq] at hw
        rw [← hw.2, hw.1]
      by_contra hnf
      rw [cutIdx_nonfinite e y hnf] at hc
      rw [hc] at hp
      simp at hp
    obtain ⟨v, hv⟩ : ∃ v, v = (Act.vals (Selected xs (xs.map (cutIdx e)) mark)).insertionSort (· ≤ ·) := ⟨_, rfl⟩
    rw [← hv] at h
    have hlen : out.length = v.length := by rw [← h]; simp
    have hfst : out.map Prod.fst = v.map Fl.fin := by
      rw [← h, List.map_map]
      apply List.ext_getElem
      · simp
      · intro i h1 h2
        simp at h1
        simp [List.getD_eq_getElem?_getD, h1]
    have hsnd : ∀ k : Nat, k < v.length → (out.map Prod.snd)[k]? = some (Fl.fin k / Fl.fin ((v.length : ℝ) - 1)) := by
      intro k hk
      rw [← h, List.map_map, List.getElem?_map, List.getElem?_range hk]; rfl
    have hpos : 2 ≤ out.length → ∀ k : Nat, k < out.length →
        (out.map Prod.snd)[k]? = some (.fin ((k : ℝ) / ((out.length : ℝ) - 1))) := by
      intro h2 k hk
      rw [hlen] at h2 hk ⊢
      rw [hsnd k hk, Fl.fin_div]
      have : (2 : ℝ) ≤ v.length := by exact_mod_cast h2
      intro h0; linarith
    refine ⟨?_, ?_, hpos, ?_, ?_⟩
    · rw [hfst, hv]
      conv_rhs => rw [← vals_fin hfin]
      exact List.Perm.map _ (List.perm_insertionSort _ _)
    · rw [hfst, List.pairwise_map, hv]
      exact List.pairwise_insertionSort (· ≤ ·) _
    · intro h2
      refine ⟨?_, ?_⟩
      · rw [hpos h2 0 (by omega)]; simp
      · rw [hpos h2 (out.length - 1) (by omega)]
        congr 2
        have : (2 : ℝ) ≤ out.length := by exact_mod_cast h2
        rw [Nat.cast_sub (by omega), Nat.cast_one, div_self]
        intro h0; linarith
    · intro h1
      rw [hlen] at h1
      have := hsnd 0 (by omega)
      rw [h1] at this
      have hl : (out.map Prod.snd).length = 1 := by simp [hlen, h1]
      apply List.ext_getElem?
      intro k
      cases k with
      | zero =>
        rw [this]
        have : Fl.fin ((0 : ℕ) : ℝ) / Fl.fin (((1 : ℕ) : ℝ) - 1) = .nan := by
          simp only [Nat.cast_one, sub_self, Nat.cast_zero]
          show (if (0 : ℝ) = 0 then _ else _) = _
          simp
        rw [this]; rfl
      | succ k => rw [List.getElem?_eq_none (by omega)]; rfl

/-- C78: it refuses data with more than two different (or missing) aggregated values. -/
theorem C78_refuses (log : Bool) (xs ys : List Fl) (cuts : List (Option Nat)) (mark : List Bool) :
    (cdf log xs ys cuts mark = .error .valueError ↔ 2 < ys.dedup.length) ∧
    (ys.dedup.length ≤ 2 → ∃ out, cdf log xs ys cuts mark = .ok out) := by
  unfold cdf
  constructor
  · constructor
    · intro h
      by_contra hc
      rw [if_neg (by omega)] at h
      exact absurd h (by simp)
    · intro h; rw [if_pos (by omega)]
  · intro h; rw [if_neg (by omega)]; exact ⟨_, rfl⟩

/-! ### C125: axnorm arguments -/

/-- C125 (violated: the documented 't' is rejected): `Hist1D.set_axnorm` accepts None and every string beginning with d or D (all
meaning density), raises AssertionError for the documented 't' and every other non-empty string; `Hist2D.set_axnorm` accepts exactly
the documented keys, case-insensitively. -/
theorem C125_axnorm (s : String) :
    setAxnorm1 none = .ok none ∧ setAxnorm2 none = .ok none ∧
    (setAxnorm1 (some s) = .ok (some "d") ↔ ∃ c l, s.toList = c :: l ∧ c.toLower = 'd') ∧
    setAxnorm1 (some "t") = .error .assertionError ∧ setAxnorm1 (some "") = .error .indexError ∧
    (∀ c l, s.toList = c :: l → c.toLower ≠ 'd' → setAxnorm1 (some s) = .error .assertionError) ∧
    (s.toLower ∈ ["c", "r", "t", "d", "cd", "rd"] → setAxnorm2 (some s) = .ok (some s.toLower)) ∧
    (s.toLower ∉ ["c", "r", "t", "d", "cd", "rd"] → setAxnorm2 (some s) = .error .assertionError) := by
  refine ⟨rfl, rfl, ?_, by decide +kernel, by decide +kernel, ?_, ?_, ?_⟩
  · unfold setAxnorm1
    simp only []
    cases hs : s.toList with
    | nil => simp
    | cons c l =>
      simp only []
      by_cases hc : c.toLower = 'd'
      · simp [hc]
      · simp [hc]
  · intro c l hs hc
    unfold setAxnorm1
    simp [hs, hc]
  · intro h; unfold setAxnorm2; simp only [h, if_true]
  · intro h; unfold setAxnorm2; simp only [h, if_false]

/-- C129 (violated): the guard "no PDF with non-count aggregation" only looks at an explicit `fcn`; for data with two different
values and no explicit function the density of bin means is returned. -/
theorem C129_guard (e : List ℝ) (log : Bool) (ys : List Fl) (cuts : List (Option Nat)) (c0 c1 : Option ℝ) :
    agg1 e log (some "d") ys cuts (some .mean) c0 c1 = .error .valueError ∧
    (∀ r s : ℝ, r ≠ s → Fl.fin r ∈ ys → Fl.fin s ∈ ys →
      ∃ m, agg1 e log none ys cuts (some .mean) c0 c1 = .ok m ∧
        agg1 e log (some "d") ys cuts none c0 c1 = .ok (density1 log e m)) := by
  constructor
  · rfl
  · intro r s hrs hr hs
    refine ⟨_, rfl, ?_⟩
    have hch : chooseFcn none ys = .mean := by
      unfold chooseFcn
      simp only []
      rw [if_neg]
      intro h1
      obtain ⟨x, hx⟩ := List.length_eq_one_iff.mp h1
      have m1 : Fl.fin r ∈ (ys.filter (fun v => decide (¬ v.isNaN))).dedup := by
        rw [List.mem_dedup, List.mem_filter]; exact ⟨hr, by simp⟩
      have m2 : Fl.fin s ∈ (ys.filter (fun v => decide (¬ v.isNaN))).dedup := by
        rw [List.mem_dedup, List.mem_filter]; exact ⟨hs, by simp⟩
      rw [hx, List.mem_singleton] at m1 m2
      rw [← m2, Fl.fin_inj] at m1
      exact hrs m1
    unfold agg1
    simp only [if_true]
    rw [if_neg (by simp)]
    congr 1
    congr 1
    apply List.map_congr_left
    intro i _
    unfold binVal
    rw [hch]
    rfl

/-! ### C126: borders -/

/-- C126: in every column the top border is the last displayed cell and the bottom border the first; a column without displayed cells
has neither. -/
theorem C126_border (ny : Nat) (a : Nat → Fl) :
    (∀ j v, (borderCol ny a).1 = some (j, v) ↔ j < ny ∧ a j = v ∧ ¬ v.isNaN ∧ ∀ j', j < j' → j' < ny → (a j').isNaN) ∧
    (∀ j v, (borderCol ny a).2 = some (j, v) ↔ j < ny ∧ a j = v ∧ ¬ v.isNaN ∧ ∀ j', j' < j → (a j').isNaN) ∧
    ((borderCol ny a).1 = none ↔ ∀ j, j < ny → (a j).isNaN) ∧
    ((borderCol ny a).2 = none ↔ ∀ j, j < ny → (a j).isNaN) := by
  obtain ⟨ok, hok⟩ : ∃ ok, ok = (List.range ny).filter (fun j => decide (¬ (a j).isNaN)) := ⟨_, rfl⟩
  have hmem : ∀ j, j ∈ ok ↔ j < ny ∧ ¬ (a j).isNaN := by
    intro j; rw [hok, List.mem_filter]; simp
  have hsort : ok.Pairwise (· < ·) := by rw [hok]; exact List.Pairwise.filter _ List.pairwise_lt_range
  have hb : borderCol ny a = (ok.getLast?.map (fun j => (j, a j)), ok.head?.map (fun j => (j, a j))) := by
    rw [hok]; rfl
  have hnil : ok = [] ↔ ∀ j, j < ny → (a j).isNaN := by
    rw [List.eq_nil_iff_forall_not_mem]
    constructor
    · intro h j hj; by_contra hc; exact h j ((hmem j).mpr ⟨hj, hc⟩)
    · intro h j hj; exact ((hmem j).mp hj).2 (h j ((hmem j).mp hj).1)
  rw [hb]
  refine ⟨?_, ?_, ?_, ?_⟩
  · intro j v
    simp only [Option.map_eq_some_iff, Prod.mk.injEq]
    constructor
    · rintro ⟨k, hk, rfl, rfl⟩
      obtain ⟨l, rfl⟩ := List.getLast?_eq_some_iff.mp hk
      have hk' := (hmem k).mp (by simp)
      refine ⟨hk'.1, rfl, hk'.2, ?_⟩
      intro j' h1 h2
      by_contra hc
      have := (hmem j').mpr ⟨h2, hc⟩
      rcases List.mem_append.mp this with h | h
      · have := (List.pairwise_append.mp hsort).2.2 j' h k (by simp); omega
      · simp at h; omega
    · rintro ⟨hj, rfl, hn, hno⟩
      refine ⟨j, ?_, rfl, rfl⟩
      have hjm := (hmem j).mpr ⟨hj, hn⟩
      obtain ⟨k, hk⟩ : ∃ k, ok.getLast? = some k :=
        Option.isSome_iff_exists.mp (by rw [List.getLast?_isSome]; intro h; rw [h] at hjm; simp at hjm)
      obtain ⟨l, hl⟩ := List.getLast?_eq_some_iff.mp hk
      have hkm := (hmem k).mp (by rw [hl]; simp)
      rw [hl] at hjm hsort
      rcases List.mem_append.mp hjm with h | h
      · have := (List.pairwise_append.mp hsort).2.2 j h k (by simp)
        exact absurd (hno k this hkm.1) hkm.2
      · simp at h; rw [hk, h]
  · intro j v
    simp only [Option.map_eq_some_iff, Prod.mk.injEq]
    constructor
    · rintro ⟨k, hk, rfl, rfl⟩
      cases hl : ok with
      | nil => rw [hl] at hk; simp at hk
      | cons b l =>
        rw [hl] at hk hsort
        simp at hk; subst hk
        have hk' := (hmem b).mp (by rw [hl]; simp)
        refine ⟨hk'.1, rfl, hk'.2, ?_⟩
        intro j' h1
        by_contra hc
        have := (hmem j').mpr ⟨by omega, hc⟩
        rw [hl] at this
        rcases List.mem_cons.mp this with h | h
        · omega
        · have := (List.pairwise_cons.mp hsort).1 j' h; omega
    · rintro ⟨hj, rfl, hn, hno⟩
      refine ⟨j, ?_, rfl, rfl⟩
      have hjm := (hmem j).mpr ⟨hj, hn⟩
      cases hl : ok with
      | nil => rw [hl] at hjm; simp at hjm
      | cons b l =>
        have hbm := (hmem b).mp (by rw [hl]; simp)
        rw [hl] at hjm hsort
        rcases List.mem_cons.mp hjm with h | h
        · rw [h]; rfl
        · have := (List.pairwise_cons.mp hsort).1 j h
          exact absurd (hno b this) hbm.2
  · simp only [Option.map_eq_none_iff, List.getLast?_eq_none_iff]; exact hnil
  · simp only [Option.map_eq_none_iff, List.head?_eq_none_iff]; exact hnil

/-! ### C127: taking data in ranges -/

/-- a datum lies in the box `(l,r] × (b,t]` -/
def InBox (q : (ℝ × ℝ) × (ℝ × ℝ)) (x y : Fl) : Prop :=
  (∃ t, x = .fin t ∧ q.1.1 < t ∧ t ≤ q.1.2) ∧ (∃ t, y = .fin t ∧ q.2.1 < t ∧ t ≤ q.2.2)

theorem inIvl_iff (l r : ℝ) (v : Fl) : inIvl l r v ↔ ∃ t, v = .fin t ∧ l < t ∧ t ≤ r := by
  cases v with
  | fin t => simp [inIvl_fin]
  | nan => simp [inIvl]
  | pinf => simp [inIvl, Fl.le]
  | ninf => simp [inIvl, Fl.lt]

theorem takeLoop_spec (data : List (Int × Fl × Fl)) : ∀ ranges : List ((ℝ × ℝ) × (ℝ × ℝ)),
    ((∀ q ∈ ranges, q.1.1 < q.1.2 ∧ q.2.1 < q.2.2) → ∃ out, takeLoop data ranges = .ok out ∧
      ∀ k : Int, out.count k = (ranges.map (fun q => data.countP (fun d => decide (d.1 = k ∧ InBox q d.2.1 d.2.2)))).sum) ∧
    (¬ (∀ q ∈ ranges, q.1.1 < q.1.2 ∧ q.2.1 < q.2.2) → takeLoop data ranges = .error .assertionError) := by
  intro ranges
  induction ranges with
  | nil => exact ⟨fun _ => ⟨[], rfl, by simp⟩, fun h => absurd (by simp) h⟩
  | cons q rest ih =>
    obtain ⟨⟨l, r⟩, ⟨b, t⟩⟩ := q
    by_cases hq : l < r ∧ b < t
    · constructor
      · intro h
        obtain ⟨out, ho, hc⟩ := ih.1 (fun q hq => h q (by simp [hq]))
        refine ⟨_, by unfold takeLoop; rw [if_pos hq, ho]; rfl, ?_⟩
        intro k
        rw [List.count_append, hc k, List.map_cons, List.sum_cons]
        congr 1
        rw [List.count_eq_countP, List.countP_map, List.countP_filter]
        apply List.countP_congr
        intro d _
        have hb : (inIvl l r d.2.1 ∧ inIvl b t d.2.2) ↔ InBox ((l, r), (b, t)) d.2.1 d.2.2 := by
          unfold InBox; rw [inIvl_iff, inIvl_iff]
        simp [hb]
      · intro h
        have : ¬ (∀ q ∈ rest, q.1.1 < q.1.2 ∧ q.2.1 < q.2.2) := by
          intro h'; apply h
          intro q hq'
          rcases List.mem_cons.mp hq' with rfl | hq'
          · exact hq
          · exact h' q hq'
        unfold takeLoop; rw [if_pos hq, ih.2 this]; rfl
    · constructor
      · intro h; exact absurd (h _ (List.mem_cons_self ..)) hq
      · intro _; unfold takeLoop; rw [if_neg hq]

/-- C127: with proper ranges `take_data_in_yrange_across_x` returns, in ascending order, the label of each datum once for every range
(half-open box) it lies in; a reversed or empty range raises AssertionError, no ranges ValueError. -/
theorem C127_take (data : List (Int × Fl × Fl)) (ranges : List ((ℝ × ℝ) × (ℝ × ℝ))) :
    ((∀ q ∈ ranges, q.1.1 < q.1.2 ∧ q.2.1 < q.2.2) → ranges ≠ [] → ∃ out, takeData data ranges = .ok out ∧
      out.Pairwise (· ≤ ·) ∧
      ∀ k : Int, out.count k = (ranges.map (fun q => data.countP (fun d => decide (d.1 = k ∧ InBox q d.2.1 d.2.2)))).sum) ∧
    (¬ (∀ q ∈ ranges, q.1.1 < q.1.2 ∧ q.2.1 < q.2.2) → takeData data ranges = .error .assertionError) ∧
    takeData data [] = .error .valueError := by
  refine ⟨?_, ?_, rfl⟩
  · intro h hne
    obtain ⟨out, ho, hc⟩ := (takeLoop_spec data ranges).1 h
    refine ⟨out.insertionSort (· ≤ ·), ?_, List.pairwise_insertionSort (· ≤ ·) _, ?_⟩
    · unfold takeData; rw [ho]
      show (if ranges = [] then _ else _) = _
      rw [if_neg hne]
    · intro k; rw [(List.perm_insertionSort _ out).count_eq]; exact hc k
  · intro h; unfold takeData; rw [(takeLoop_spec data ranges).2 h]; rfl

/-- C127: with distinct labels and ranges of which no two contain the same datum every label is taken at most once, and exactly when
its datum lies in some range. -/
theorem C127_once (data : List (Int × Fl × Fl)) (ranges : List ((ℝ × ℝ) × (ℝ × ℝ))) (hne : ranges ≠ [])
    (hr : ∀ q ∈ ranges, q.1.1 < q.1.2 ∧ q.2.1 < q.2.2) (hl : (data.map Prod.fst).Nodup)
    (hdis : ranges.Pairwise (fun p q => ∀ d ∈ data, ¬ (InBox p d.2.1 d.2.2 ∧ InBox q d.2.1 d.2.2))) :
    ∃ out, takeData data ranges = .ok out ∧ out.Pairwise (· < ·) ∧
      ∀ k, k ∈ out ↔ ∃ d ∈ data, d.1 = k ∧ ∃ q ∈ ranges, InBox q d.2.1 d.2.2 := by
  obtain ⟨out, ho, hs, hc⟩ := (C127_take data ranges).1 hr hne
  have hone : ∀ (q : (ℝ × ℝ) × (ℝ × ℝ)) (k : Int), data.countP (fun d => decide (d.1 = k ∧ InBox q d.2.1 d.2.2)) =
      if ∃ d ∈ data, d.1 = k ∧ InBox q d.2.1 d.2.2 then 1 else 0 := by
    intro q k
    have hle : data.countP (fun d => decide (d.1 = k ∧ InBox q d.2.1 d.2.2)) ≤ 1 := by
      have h1 : data.countP (fun d => decide (d.1 = k ∧ InBox q d.2.1 d.2.2)) ≤ data.countP (fun d => decide (d.1 = k)) := by
        apply List.countP_mono_left; intro d _; simp; tauto
      have h2 : data.countP (fun d => decide (d.1 = k)) = (data.map Prod.fst).count k := by
        rw [List.count_eq_countP, List.countP_map]
        apply List.countP_congr; intro d _; simp
      have h3 := List.nodup_iff_count_le_one.mp hl k
      omega
    split
    · next h =>
      obtain ⟨d, hd, he⟩ := h
      have : 0 < data.countP (fun d => decide (d.1 = k ∧ InBox q d.2.1 d.2.2)) :=
        List.countP_pos_iff.mpr ⟨d, hd, by simpa using he⟩
      omega
    · next h =>
      rw [List.countP_eq_zero]
      intro d hd hh
      exact h ⟨d, hd, by simpa using hh⟩
  have hsum : ∀ k, out.count k ≤ 1 ∧ (out.count k = 1 ↔ ∃ d ∈ data, d.1 = k ∧ ∃ q ∈ ranges, InBox q d.2.1 d.2.2) := by
    intro k
    rw [hc k]
    clear hc hs ho hr hne
    induction ranges with
    | nil => simp
    | cons p rest ih =>
      obtain ⟨hp, hrest⟩ := List.pairwise_cons.mp hdis
      obtain ⟨i1, i2⟩ := ih hrest
      rw [List.map_cons, List.sum_cons, hone p k]
      by_cases hk : ∃ d ∈ data, d.1 = k ∧ InBox p d.2.1 d.2.2
      · have hz : ¬ (rest.map (fun q => data.countP (fun d => decide (d.1 = k ∧ InBox q d.2.1 d.2.2)))).sum = 1 := by
          rw [i2]
          rintro ⟨d, hd, hdk, q, hq, hin⟩
          obtain ⟨d', hd', hdk', hin'⟩ := hk
          have : d = d' := by
            have := List.inj_on_of_nodup_map hl hd hd' (by rw [hdk, hdk'])
            exact this
          subst this
          exact hp q hq d hd ⟨hin', hin⟩
        rw [if_pos hk]
        constructor
        · omega
        · constructor
          · intro _
            obtain ⟨d, hd, hdk, hin⟩ := hk
            exact ⟨d, hd, hdk, p, by simp, hin⟩
          · intro _; omega
      · rw [if_neg hk]
        constructor
        · omega
        · rw [zero_add, i2]
          constructor
          · rintro ⟨d, hd, hdk, q, hq, hin⟩; exact ⟨d, hd, hdk, q, by simp [hq], hin⟩
          · rintro ⟨d, hd, hdk, q, hq, hin⟩
            rcases List.mem_cons.mp hq with rfl | hq
            · exact absurd ⟨d, hd, hdk, hin⟩ hk
            · exact ⟨d, hd, hdk, q, hq, hin⟩
  refine ⟨out, ho, ?_, ?_⟩
  · have hnd : out.Nodup := List.nodup_iff_count_le_one.mpr (fun k => (hsum k).1)
    have := hs.and hnd
    exact List.Pairwise.imp (fun ⟨h1, h2⟩ => lt_of_le_of_ne h1 h2) this
  · intro k
    rw [← (hsum k).2]
    have h1 := (hsum k).1
    rw [← List.count_pos_iff]
    omega

/-! ### C128: clip_data -/

/-- C128 (violated: "Remove extreme values"): with clipping, a datum outside the quantiles is moved onto the quantile and counted there;
no datum is ever removed: if the quantiles lie inside the binned range, every non-missing datum (even ±inf and the extremes) lands in
a bin. -/
theorem C128_clip_keeps (e : List ℝ) (hm : e.Pairwise (· ≤ ·)) {a z lo up : ℝ} (ha : e.head? = some a) (hz : e.getLast? = some z)
    (h1 : a < lo) (h2 : lo ≤ up) (h3 : up ≤ z) (xs : List Fl) :
    ∃ c, makeCut .on lo up e xs = .ok c ∧
      (∀ (k : Nat) (x : Fl), xs[k]? = some x → ¬ x.isNaN → ∃ i, c[k]? = some (some i)) ∧
      (∀ (k : Nat) (t : ℝ), xs[k]? = some (.fin t) → up ≤ t → c[k]? = some (cutIdx e (.fin up))) ∧
      (∀ (k : Nat) (t : ℝ), xs[k]? = some (.fin t) → t ≤ lo → c[k]? = some (cutIdx e (.fin lo))) ∧
      (∀ (k : Nat) (t : ℝ), xs[k]? = some (.fin t) → lo ≤ t → t ≤ up → c[k]? = some (cutIdx e (.fin t))) := by
  refine ⟨_, rfl, ?_, ?_, ?_, ?_⟩
  · intro k x hx hn
    obtain ⟨t, ht, t1, t2⟩ : ∃ t, clipVal lo up x = .fin t ∧ lo ≤ t ∧ t ≤ up := by
      cases x with
      | nan => exact absurd trivial hn
      | pinf => exact ⟨up, rfl, h2, le_refl _⟩
      | ninf => exact ⟨lo, rfl, le_refl _, h2⟩
      | fin t => exact ⟨_, rfl, le_min (le_max_right _ _) h2, min_le_right _ _⟩
    obtain ⟨hi, hu, _, _⟩ := C73_one_bin e hm ha hz
    obtain ⟨i, hb, _⟩ := hu t (by linarith) (by linarith)
    refine ⟨i, ?_⟩
    rw [List.getElem?_map, hx, Option.map_some, ht, (hi t i).mpr hb]
  · intro k t hx ht
    rw [List.getElem?_map, hx, Option.map_some]
    show some (cutIdx e (.fin (min (max t lo) up))) = _
    rw [min_eq_right (le_trans ht (le_max_left _ _))]
  · intro k t hx ht
    rw [List.getElem?_map, hx, Option.map_some]
    show some (cutIdx e (.fin (min (max t lo) up))) = _
    rw [max_eq_right ht, min_eq_left h2]
  · intro k t hx t1 t2
    rw [List.getElem?_map, hx, Option.map_some]
    show some (cutIdx e (.fin (min (max t lo) up))) = _
    rw [max_eq_left t1, min_eq_left t2]

/-- C128 (violated): asking `Hist1D` to clip only the lower or only the upper end ("l…", "u…") raises AttributeError; `Hist2D`
reduces the argument to a truth value, so there the same strings clip both ends. -/
theorem C128_one_sided (s : String) (c : Char) (l : List Char) (hs : s.toList = c :: l) (lo up : ℝ) (e : List ℝ) (xs : List Fl) :
    (c.toLower = 'l' ∨ c.toLower = 'u' → makeCut (.str s) lo up e xs = .error .attributeError) ∧
    makeCut (Clip.toBool (.str s)) lo up e xs = makeCut .on lo up e xs := by
  constructor
  · intro h; unfold makeCut; simp [hs, h]
  · unfold Clip.toBool
    simp only []
    rw [if_neg]
    intro h; rw [h] at hs; simp at hs

/-! ### C130: logarithmic axes forget the sign -/

/-- C130 (violated for negative data): on a logarithmic axis the stored coordinate is `log10|x|`; transforming the selected subset back
returns the absolute value, so the data handed back differ from the input exactly for negative data. -/
theorem C130_log_axis (x : Fl) : pow10 (log10abs x) = Fl.abs x := by
  have hl : 0 < Real.log 10 := Real.log_pos (by norm_num)
  cases x with
  | nan => simp [log10abs, Fl.abs, Fl.log, pow10]
  | pinf =>
    show pow10 (Fl.pinf / Fl.fin (Real.log 10)) = _
    have : (Fl.pinf / Fl.fin (Real.log 10)) = .pinf := by
      show (if Real.log 10 < 0 then _ else _) = _
      rw [if_neg (by linarith)]
    rw [this]; rfl
  | ninf =>
    show pow10 (Fl.pinf / Fl.fin (Real.log 10)) = _
    have : (Fl.pinf / Fl.fin (Real.log 10)) = .pinf := by
      show (if Real.log 10 < 0 then _ else _) = _
      rw [if_neg (by linarith)]
    rw [this]; rfl
  | fin a =>
    by_cases h0 : a = 0
    · subst h0
      have e1 : Fl.log (Fl.abs (.fin 0)) = .ninf := by
        show Fl.log (.fin |0|) = _
        rw [abs_zero]
        show (if (0 : ℝ) < 0 then _ else if (0 : ℝ) = 0 then _ else _) = _
        simp
      unfold log10abs
      rw [e1]
      have : (Fl.ninf / Fl.fin (Real.log 10)) = .ninf := by
        show (if Real.log 10 < 0 then _ else _) = _
        rw [if_neg (by linarith)]
      rw [this]
      show Fl.fin 0 = .fin |0|
      rw [abs_zero]
    · have hp : 0 < |a| := abs_pos.mpr h0
      unfold log10abs
      show pow10 (Fl.log (.fin |a|) / _) = .fin |a|
      rw [Fl.log_fin _ hp, Fl.fin_div _ _ hl.ne']
      show Fl.fin ((10 : ℝ) ^ (Real.log |a| / Real.log 10)) = _
      congr 1
      rw [Real.rpow_def_of_pos (by norm_num), mul_div_cancel₀ _ hl.ne', Real.exp_log hp]

end Hist
end SW
