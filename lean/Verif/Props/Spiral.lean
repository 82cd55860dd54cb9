import Verif.Spiral
import Mathlib.Tactic.Linarith
import Mathlib.Tactic.Positivity
import Mathlib.Data.List.ProdSigma
import Mathlib.Algebra.Order.Floor.Ring
import Mathlib.Algebra.Order.Archimedean.Basic

/-!
# C79-C81, C131-C133: adaptive mesh plots
-/

namespace SW
namespace Spiral

open Classical

/-! ### Basic facts about cells -/

theorem inCell_fin (c : Cell) (x y : ℝ) : inCell c (.fin x, .fin y) ↔ c.x0 ≤ x ∧ x < c.x1 ∧ c.y0 ≤ y ∧ y < c.y1 := by
  unfold inCell; simp

theorem inCell_finite {c : Cell} {p : Pt} (h : inCell c p) : ∃ x y, p = (.fin x, .fin y) := by
  obtain ⟨px, py⟩ := p
  obtain ⟨h1, h2, h3, h4⟩ := h
  simp only at h1 h2 h3 h4
  have hx : ∃ x, px = .fin x := by
    cases px with
    | fin x => exact ⟨x, rfl⟩
    | nan => exact absurd h1 (by simp)
    | pinf => exact absurd h2 id
    | ninf => exact absurd h1 id
  have hy : ∃ y, py = .fin y := by
    cases py with
    | fin x => exact ⟨x, rfl⟩
    | nan => exact absurd h3 (by simp)
    | pinf => exact absurd h4 id
    | ninf => exact absurd h3 id
  obtain ⟨x, rfl⟩ := hx
  obtain ⟨y, rfl⟩ := hy
  exact ⟨x, y, rfl⟩

/-- number of cells of a mesh containing a point -/
noncomputable def covers (mesh : List Cell) (p : Pt) : Nat := mesh.countP (fun c => decide (inCell c p))

theorem covers_split (c : Cell) (p : Pt) : covers (split c) p = if inCell c p then 1 else 0 := by
  by_cases hf : ∃ x y, p = (Fl.fin x, Fl.fin y)
  · obtain ⟨x, y, rfl⟩ := hf
    unfold covers split
    simp only [List.countP_cons, List.countP_nil, inCell_fin, decide_eq_true_eq]
    obtain ⟨x0, x1, y0, y1⟩ := c
    simp only []
    by_cases hx : x < 0.5 * (x0 + x1) <;> by_cases hy : y < 0.5 * (y0 + y1)
    · have hx' : ¬ 0.5 * (x0 + x1) ≤ x := by linarith
      have hy' : ¬ 0.5 * (y0 + y1) ≤ y := by linarith
      simp only [hx, hy, hx', hy', false_and, and_false, and_true, true_and, if_false, add_zero, zero_add]
      congr 1
      apply propext
      constructor
      · rintro ⟨a, b⟩; exact ⟨a, by linarith, b, by linarith⟩
      · rintro ⟨a, _, b, _⟩; exact ⟨a, b⟩
    · have hx' : ¬ 0.5 * (x0 + x1) ≤ x := by linarith
      have hy' : 0.5 * (y0 + y1) ≤ y := by linarith
      simp only [hx, hy, hx', hy', false_and, and_false, true_and, if_false, add_zero, zero_add]
      congr 1
      apply propext
      constructor
      · rintro ⟨a, b⟩; exact ⟨a, by linarith, by linarith, b⟩
      · rintro ⟨a, _, _, b⟩; exact ⟨a, b⟩
    · have hx' : 0.5 * (x0 + x1) ≤ x := by linarith
      have hy' : ¬ 0.5 * (y0 + y1) ≤ y := by linarith
      simp only [hx, hy, hx', hy', false_and, and_false, and_true, true_and, if_false, add_zero, zero_add]
      congr 1
      apply propext
      constructor
      · rintro ⟨a, b⟩; exact ⟨by linarith, a, b, by linarith⟩
      · rintro ⟨_, a, b, _⟩; exact ⟨a, b⟩
    · have hx' : 0.5 * (x0 + x1) ≤ x := by linarith
      have hy' : 0.5 * (y0 + y1) ≤ y := by linarith
      simp only [hx, hy, hx', hy', false_and, and_false, true_and, if_false, add_zero, zero_add]
      congr 1
      apply propext
      constructor
      · rintro ⟨a, b⟩; exact ⟨by linarith, a, by linarith, b⟩
      · rintro ⟨_, a, _, b⟩; exact ⟨a, b⟩
  · have hno : ∀ c, ¬ inCell c p := fun c h => hf (inCell_finite h)
    unfold covers
    rw [if_neg (hno c), List.countP_eq_zero]
    intro d _; simp [hno d]

theorem covers_append (a b : List Cell) (p : Pt) : covers (a ++ b) p = covers a p + covers b p := List.countP_append

theorem covers_flatMap_split (l : List Cell) (p : Pt) : covers (l.flatMap split) p = covers l p := by
  induction l with
  | nil => rfl
  | cons c l ih =>
    rw [List.flatMap_cons, covers_append, ih, covers_split]
    unfold covers
    rw [List.countP_cons]
    simp only [decide_eq_true_eq]
    rw [add_comm]

theorem covers_filter (l : List Cell) (p : Pt) (m : Nat) (f : Cell → Nat) :
    covers (l.filter (fun c => decide (f c ≤ m))) p + covers (l.filter (fun c => decide (m < f c))) p = covers l p := by
  unfold covers
  induction l with
  | nil => rfl
  | cons c l ih =>
    by_cases h : f c ≤ m
    · have h' : ¬ m < f c := by omega
      simp only [List.filter_cons, h, h', decide_true, decide_false, if_true, List.countP_cons, Bool.false_eq_true, if_false]
      omega
    · have h' : m < f c := by omega
      simp only [List.filter_cons, h, h', decide_true, decide_false, if_true, List.countP_cons, Bool.false_eq_true, if_false]
      omega

/-- one refinement step keeps the number of cells over every point -/
theorem covers_step (m : Nat) (pts : List Pt) (s : State) (p : Pt) : covers (step m pts s).mesh p = covers s.mesh p := by
  unfold step State.mesh
  simp only []
  rw [covers_append, covers_append, covers_append, covers_flatMap_split, add_assoc, covers_filter]

theorem covers_steps (m : Nat) (pts : List Pt) (k : Nat) (s : State) (p : Pt) :
    covers ((step m pts)^[k] s).mesh p = covers s.mesh p := by
  induction k generalizing s with
  | zero => rfl
  | succ k ih => rw [Function.iterate_succ_apply, ih, covers_step]

/-! ### The initial mesh -/

theorem strip_count : ∀ (b : List ℝ), b.Pairwise (· ≤ ·) → ∀ (a z x : ℝ), b.head? = some a → b.getLast? = some z →
    (b.zip b.tail).countP (fun q => decide (q.1 ≤ x ∧ x < q.2)) = if a ≤ x ∧ x < z then 1 else 0 := by
  intro b
  induction b with
  | nil => intro _ a z x ha; simp at ha
  | cons u b ih =>
    intro hm a z x ha hz
    simp only [List.head?_cons, Option.some.injEq] at ha
    subst ha
    cases b with
    | nil =>
      simp at hz; subst hz
      simp only [List.tail_cons, List.zip_nil_right, List.countP_nil]
      rw [if_neg]; rintro ⟨h1, h2⟩; linarith
    | cons v b =>
      rw [List.getLast?_cons_cons] at hz
      have hm' := (List.pairwise_cons.mp hm).2
      have h := ih hm' v z x rfl hz
      have huv : u ≤ v := (List.pairwise_cons.mp hm).1 v (by simp)
      have hvz : v ≤ z := by
        rcases List.mem_cons.mp (List.mem_of_getLast? hz) with h | h
        · exact h.ge
        · exact (List.pairwise_cons.mp hm').1 z h
      have e1 : (u :: v :: b).zip (u :: v :: b).tail = (u, v) :: (v :: b).zip (v :: b).tail := rfl
      rw [e1, List.countP_cons, h]
      simp only [decide_eq_true_eq]
      by_cases h1 : x < v
      · have h2 : ¬ v ≤ x := by linarith
        have h3 : x < z := by linarith
        simp [h1, h2, h3]
      · have h2 : v ≤ x := by linarith
        have h3 : u ≤ x := by linarith
        simp [h1, h2, h3]

theorem covers_initial (xb yb : List ℝ) (p : Pt) : covers (initialMesh xb yb) p =
    (match p with
     | (.fin x, .fin y) => (xb.zip xb.tail).countP (fun q => decide (q.1 ≤ x ∧ x < q.2)) *
        (yb.zip yb.tail).countP (fun q => decide (q.1 ≤ y ∧ y < q.2))
     | _ => 0) := by
  by_cases hf : ∃ x y, p = (Fl.fin x, Fl.fin y)
  · obtain ⟨x, y, rfl⟩ := hf
    simp only []
    unfold covers initialMesh
    induction xb.zip xb.tail with
    | nil => simp
    | cons a l ih =>
      rw [List.flatMap_cons, List.countP_append, ih, List.countP_cons, add_mul, add_comm]
      congr 1
      rw [List.countP_map]
      by_cases ha : a.1 ≤ x ∧ x < a.2
      · rw [if_pos (by simpa using ha), one_mul]
        apply List.countP_congr
        intro q _
        simp [inCell_fin, ha]
      · rw [if_neg (by simpa using ha), zero_mul]
        rw [List.countP_eq_zero]
        intro q _
        simp only [Function.comp_apply, inCell_fin, decide_eq_true_eq]
        rintro ⟨h1, h2, _⟩
        exact ha ⟨h1, h2⟩
  · have hno : ∀ c, ¬ inCell c p := fun c h => hf (inCell_finite h)
    have : covers (initialMesh xb yb) p = 0 := by
      unfold covers; rw [List.countP_eq_zero]; intro d _; simp [hno d]
    rw [this]
    split
    · next x y => exact absurd ⟨x, y, rfl⟩ hf
    · rfl

/-- the region `[ax, zx) × [ay, zy)` -/
def InRegion (ax zx ay zy : ℝ) (p : Pt) : Prop := ∃ x y : ℝ, p = (.fin x, .fin y) ∧ ax ≤ x ∧ x < zx ∧ ay ≤ y ∧ y < zy

theorem covers_region {xb yb : List ℝ} (hx : xb.Pairwise (· ≤ ·)) (hy : yb.Pairwise (· ≤ ·)) {ax zx ay zy : ℝ}
    (hax : xb.head? = some ax) (hzx : xb.getLast? = some zx) (hay : yb.head? = some ay) (hzy : yb.getLast? = some zy) (p : Pt) :
    covers (initialMesh xb yb) p = if InRegion ax zx ay zy p then 1 else 0 := by
  rw [covers_initial]
  by_cases hf : ∃ x y, p = (Fl.fin x, Fl.fin y)
  · obtain ⟨x, y, rfl⟩ := hf
    simp only []
    rw [strip_count xb hx ax zx x hax hzx, strip_count yb hy ay zy y hay hzy]
    have : InRegion ax zx ay zy (.fin x, .fin y) ↔ (ax ≤ x ∧ x < zx) ∧ (ay ≤ y ∧ y < zy) := by
      constructor
      · rintro ⟨x', y', h, h1, h2, h3, h4⟩
        simp only [Prod.mk.injEq, Fl.fin_inj] at h
        obtain ⟨rfl, rfl⟩ := h
        exact ⟨⟨h1, h2⟩, h3, h4⟩
      · rintro ⟨⟨h1, h2⟩, h3, h4⟩; exact ⟨x, y, rfl, h1, h2, h3, h4⟩
    by_cases h1 : ax ≤ x ∧ x < zx <;> by_cases h2 : ay ≤ y ∧ y < zy <;> simp [this, h1, h2]
  · have : ¬ InRegion ax zx ay zy p := by rintro ⟨x, y, h, _⟩; exact hf ⟨x, y, h⟩
    rw [if_neg this]
    split
    · next x y => exact absurd ⟨x, y, rfl⟩ hf
    · rfl

theorem countP_one {α : Type} (P : α → Prop) : ∀ l : List α, l.countP (fun a => decide (P a)) = 1 →
    ∃! i : Nat, ∃ a, l[i]? = some a ∧ P a := by
  intro l
  induction l with
  | nil => intro h; simp at h
  | cons a l ih =>
    intro h
    rw [List.countP_cons] at h
    simp only [decide_eq_true_eq] at h
    by_cases ha : P a
    · rw [if_pos ha] at h
      have h0 : l.countP (fun a => decide (P a)) = 0 := by omega
      rw [List.countP_eq_zero] at h0
      refine ⟨0, ⟨a, rfl, ha⟩, ?_⟩
      rintro i ⟨b, hb, hP⟩
      cases i with
      | zero => rfl
      | succ i =>
        rw [List.getElem?_cons_succ] at hb
        exact absurd hP (by simpa using h0 b (List.mem_of_getElem? hb))
    · rw [if_neg ha, add_zero] at h
      obtain ⟨i, ⟨b, hb, hP⟩, hu⟩ := ih h
      refine ⟨i + 1, ⟨b, by simpa using hb, hP⟩, ?_⟩
      rintro j ⟨c, hc, hPc⟩
      cases j with
      | zero => simp at hc; subst hc; exact absurd hPc ha
      | succ j =>
        rw [List.getElem?_cons_succ] at hc
        rw [hu j ⟨c, hc, hPc⟩]

/-- C79: after any number of refinement steps (with any data and any limit), every point of the initial region lies in exactly one
cell, every other point (and every non-finite one) in none. -/
theorem C79_partition (xb yb : List ℝ) (hx : xb.Pairwise (· ≤ ·)) (hy : yb.Pairwise (· ≤ ·)) {ax zx ay zy : ℝ}
    (hax : xb.head? = some ax) (hzx : xb.getLast? = some zx) (hay : yb.head? = some ay) (hzy : yb.getLast? = some zy)
    (m : Nat) (pts : List Pt) (k : Nat) (p : Pt) :
    (InRegion ax zx ay zy p →
      ∃! i : Nat, ∃ c, ((step m pts)^[k] ([], initialMesh xb yb)).mesh[i]? = some c ∧ inCell c p) ∧
    (¬ InRegion ax zx ay zy p → ∀ c ∈ ((step m pts)^[k] ([], initialMesh xb yb)).mesh, ¬ inCell c p) := by
  have h := covers_steps m pts k ([], initialMesh xb yb) p
  have h2 : State.mesh (([], initialMesh xb yb) : State) = initialMesh xb yb := rfl
  rw [h2, covers_region hx hy hax hzx hay hzy] at h
  constructor
  · intro hr
    rw [if_pos hr] at h
    exact countP_one _ _ h
  · intro hr c hc hin
    rw [if_neg hr] at h
    unfold covers at h
    rw [List.countP_eq_zero] at h
    exact h c hc (by simpa using hin)

example : ([0, 1, 2] : List ℝ).Pairwise (· ≤ ·) ∧ InRegion 0 2 0 1 (.fin 1, .fin 0.5) := by
  refine ⟨by norm_num, 1, 0.5, rfl, ?_⟩; norm_num

/-! the refinement loop -/

theorem run_steps (m : Nat) (pts : List Pt) : ∀ (fuel : Nat) (s : State) (mesh : List Cell), run m pts fuel s = some mesh →
    ∃ k, mesh = ((step m pts)^[k] s).mesh ∧ ∀ c ∈ ((step m pts)^[k] s).2, cellCount pts c ≤ m := by
  intro fuel
  induction fuel with
  | zero => intro s mesh h; simp [run] at h
  | succ f ih =>
    intro s mesh h
    unfold run at h
    split at h
    · next hs =>
      injection h with h
      exact ⟨0, h.symm, hs⟩
    · obtain ⟨k, h1, h2⟩ := ih _ _ h
      exact ⟨k + 1, by rw [Function.iterate_succ_apply]; exact h1, by rw [Function.iterate_succ_apply]; exact h2⟩

theorem kept_small (m : Nat) (pts : List Pt) (k : Nat) (s : State) (h : ∀ c ∈ s.1, cellCount pts c ≤ m) :
    ∀ c ∈ ((step m pts)^[k] s).1, cellCount pts c ≤ m := by
  induction k generalizing s with
  | zero => exact h
  | succ k ih =>
    rw [Function.iterate_succ_apply]
    apply ih
    intro c hc
    rcases List.mem_append.mp hc with hc | hc
    · exact h c hc
    · rw [List.mem_filter] at hc; simpa using hc.2

theorem covers_pos {mesh : List Cell} {p : Pt} : 0 < covers mesh p ↔ ∃ c ∈ mesh, inCell c p := by
  unfold covers; rw [List.countP_pos_iff]; simp

theorem inMesh_of_cell {init : List Cell} {pts : List Pt} {p : Pt} (hp : p ∈ pts) (h : ∃ c ∈ init, inCell c p) :
    p ∈ inMesh init pts := by
  obtain ⟨c, hc, hin⟩ := h
  obtain ⟨x, y, rfl⟩ := inCell_finite hin
  unfold inMesh
  rw [List.mem_filter]
  rw [inCell_fin] at hin
  refine ⟨hp, ?_⟩
  simp only [decide_eq_true_eq]
  refine ⟨trivial, trivial, ⟨c, hc, hin.1⟩, ⟨c, hc, ?_⟩, ⟨c, hc, hin.2.2.1⟩, ⟨c, hc, ?_⟩⟩
  · exact hin.2.1.le
  · exact hin.2.2.2.le

theorem cellCount_inMesh {init : List Cell} {pts : List Pt} {c : Cell} (h : ∀ p, inCell c p → ∃ c0 ∈ init, inCell c0 p) :
    cellCount (inMesh init pts) c = cellCount pts c := by
  unfold cellCount inMesh
  rw [List.countP_filter]
  apply List.countP_congr
  intro p hp
  constructor
  · intro hh; rw [Bool.and_eq_true] at hh; exact hh.1
  · intro hh
    have hin : inCell c p := by simpa using hh
    have := inMesh_of_cell hp (h p hin)
    unfold inMesh at this
    rw [List.mem_filter] at this
    rw [Bool.and_eq_true]; exact ⟨hh, this.2⟩

theorem generate_sound {m : Nat} {pts : List Pt} {init mesh : List Cell} {fuel : Nat} (h : generate m pts init fuel = some mesh) :
    (∀ p, covers mesh p = covers init p) ∧ ∀ c ∈ mesh, cellCount pts c ≤ m := by
  unfold generate at h
  obtain ⟨k, hk, hs⟩ := run_steps m _ fuel _ mesh h
  have hcov : ∀ p, covers mesh p = covers init p := by
    intro p; rw [hk, covers_steps]; rfl
  refine ⟨hcov, ?_⟩
  intro c hc
  rw [← cellCount_inMesh (init := init)]
  · have hc' := hc
    rw [hk] at hc'
    rcases List.mem_append.mp hc' with h1 | h1
    · exact kept_small m _ k ([], init) (by simp) c h1
    · exact hs c h1
  · intro p hp
    rw [← covers_pos, ← hcov p, covers_pos]
    exact ⟨c, hc, hp⟩

/-- C79/C80: a finished mesh covers the initial region exactly once and no cell holds more than `min_per_bin` of the data. -/
theorem C80_limit (xb yb : List ℝ) (hx : xb.Pairwise (· ≤ ·)) (hy : yb.Pairwise (· ≤ ·)) {ax zx ay zy : ℝ}
    (hax : xb.head? = some ax) (hzx : xb.getLast? = some zx) (hay : yb.head? = some ay) (hzy : yb.getLast? = some zy)
    (m : Nat) (pts : List Pt) (fuel : Nat) (mesh : List Cell) (h : generate m pts (initialMesh xb yb) fuel = some mesh) :
    (∀ c ∈ mesh, cellCount pts c ≤ m) ∧
    (∀ p, InRegion ax zx ay zy p → ∃! i : Nat, ∃ c, mesh[i]? = some c ∧ inCell c p) ∧
    (∀ p, ¬ InRegion ax zx ay zy p → ∀ c ∈ mesh, ¬ inCell c p) := by
  obtain ⟨h1, h2⟩ := generate_sound h
  refine ⟨h2, ?_, ?_⟩
  · intro p hp
    have := h1 p
    rw [covers_region hx hy hax hzx hay hzy, if_pos hp] at this
    exact countP_one _ _ this
  · intro p hp c hc hin
    have := h1 p
    rw [covers_region hx hy hax hzx hay hzy, if_neg hp] at this
    unfold covers at this
    rw [List.countP_eq_zero] at this
    exact this c hc (by simpa using hin)

/-! termination -/

theorem never_stops {m : Nat} {pts : List Pt} {p : Pt} (hp : m < pts.count p) : ∀ (fuel : Nat) (s : State),
    (∃ c ∈ s.2, inCell c p) → run m pts fuel s = none := by
  have hbig : ∀ c, inCell c p → m < cellCount pts c := by
    intro c hc
    have : pts.count p ≤ cellCount pts c := by
      unfold cellCount
      rw [List.count_eq_countP]
      apply List.countP_mono_left
      intro q _ hq
      have : q = p := by simpa using hq
      subst this; simpa using hc
    omega
  intro fuel
  induction fuel with
  | zero => intro s _; rfl
  | succ f ih =>
    rintro s ⟨c, hc, hin⟩
    unfold run
    rw [if_neg]
    · apply ih
      have h1 : 0 < covers ((s.2.filter (fun c => decide (m < cellCount pts c))).flatMap split) p := by
        rw [covers_flatMap_split, covers_pos]
        exact ⟨c, List.mem_filter.mpr ⟨hc, by simpa using hbig c hin⟩, hin⟩
      rwa [covers_pos] at h1
    · intro h
      have := h c hc
      have := hbig c hin
      omega

theorem exists_delta {α : Type} (f : α → ℝ) (l : List α) : ∃ δ : ℝ, 0 < δ ∧ ∀ a ∈ l, 0 < f a → δ ≤ f a := by
  induction l with
  | nil => exact ⟨1, one_pos, by simp⟩
  | cons a l ih =>
    obtain ⟨δ, h0, h⟩ := ih
    by_cases ha : 0 < f a
    · refine ⟨min δ (f a), lt_min h0 ha, ?_⟩
      intro b hb hfb
      rcases List.mem_cons.mp hb with rfl | hb
      · exact min_le_right _ _
      · exact le_trans (min_le_left _ _) (h b hb hfb)
    · refine ⟨δ, h0, ?_⟩
      intro b hb hfb
      rcases List.mem_cons.mp hb with rfl | hb
      · exact absurd hfb ha
      · exact h b hb hfb

noncomputable def fv : Fl → ℝ
  | .fin r => r
  | _ => 0

theorem active_width (m : Nat) (pts : List Pt) (k : Nat) (s : State) (W : ℝ)
    (h : ∀ c ∈ s.2, c.x1 - c.x0 ≤ W ∧ c.y1 - c.y0 ≤ W) :
    ∀ c ∈ ((step m pts)^[k] s).2, c.x1 - c.x0 ≤ W / 2 ^ k ∧ c.y1 - c.y0 ≤ W / 2 ^ k := by
  induction k generalizing s W with
  | zero => simpa using h
  | succ k ih =>
    rw [Function.iterate_succ_apply]
    have hstep : ∀ c ∈ (step m pts s).2, c.x1 - c.x0 ≤ W / 2 ∧ c.y1 - c.y0 ≤ W / 2 := by
      intro c hc
      obtain ⟨d, hd, hcd⟩ := List.mem_flatMap.mp hc
      obtain ⟨h1, h2⟩ := h d (List.mem_filter.mp hd).1
      unfold split at hcd
      simp only [List.mem_cons, List.not_mem_nil, or_false] at hcd
      rcases hcd with rfl | rfl | rfl | rfl <;> constructor <;> simp only [] <;> linarith
    have := ih (step m pts s) (W / 2) hstep
    intro c hc
    have h2 := this c hc
    rw [div_div, ← pow_succ'] at h2
    exact h2

theorem run_of_steps (m : Nat) (pts : List Pt) : ∀ (k : Nat) (s : State), (∀ c ∈ ((step m pts)^[k] s).2, cellCount pts c ≤ m) →
    ∃ fuel mesh, run m pts fuel s = some mesh := by
  intro k
  induction k with
  | zero =>
    intro s h
    have h : ∀ c ∈ s.2, cellCount pts c ≤ m := h
    exact ⟨1, s.mesh, by unfold run; rw [if_pos h]⟩
  | succ k ih =>
    intro s h
    rw [Function.iterate_succ_apply] at h
    obtain ⟨fuel, mesh, hr⟩ := ih _ h
    by_cases hs : ∀ c ∈ s.2, cellCount pts c ≤ m
    · exact ⟨1, s.mesh, by unfold run; rw [if_pos hs]⟩
    · exact ⟨fuel + 1, mesh, by unfold run; rw [if_neg hs]; exact hr⟩

/-- C80: mesh generation terminates exactly if at no place of the initial region more than `min_per_bin` data coincide; otherwise it
runs forever (in exact arithmetic). -/
theorem C80_terminates_iff (m : Nat) (pts : List Pt) (init : List Cell) :
    (∃ fuel mesh, generate m pts init fuel = some mesh) ↔ ∀ p, (∃ c ∈ init, inCell c p) → pts.count p ≤ m := by
  constructor
  · rintro ⟨fuel, mesh, h⟩ p hp
    by_contra hc
    rw [not_le] at hc
    have hcount : (inMesh init pts).count p = pts.count p := by
      by_cases hmem : p ∈ pts
      · have := inMesh_of_cell hmem hp
        unfold inMesh at this ⊢
        obtain ⟨f, hf⟩ : ∃ f : Pt → Bool, f = (fun p => decide (p.1.isFinite ∧ p.2.isFinite ∧
          (∃ c ∈ init, Fl.le (.fin c.x0) p.1) ∧ (∃ c ∈ init, Fl.le p.1 (.fin c.x1)) ∧
          (∃ c ∈ init, Fl.le (.fin c.y0) p.2) ∧ (∃ c ∈ init, Fl.le p.2 (.fin c.y1)))) := ⟨_, rfl⟩
        rw [← hf] at this ⊢
        rw [List.mem_filter] at this
        exact List.count_filter this.2
      · rw [List.count_eq_zero_of_not_mem hmem, List.count_eq_zero_of_not_mem]
        intro h'; exact hmem (List.mem_of_mem_filter h')
    unfold generate at h
    rw [never_stops (by rw [hcount]; exact hc) fuel _ hp] at h
    exact absurd h (by simp)
  · intro hall
    obtain ⟨P, hP⟩ : ∃ P, P = inMesh init pts := ⟨_, rfl⟩
    have hfin : ∀ p ∈ P, ∃ x y, p = (Fl.fin x, Fl.fin y) := by
      intro p hp
      rw [hP] at hp
      unfold inMesh at hp
      rw [List.mem_filter] at hp
      have := hp.2
      simp only [decide_eq_true_eq] at this
      obtain ⟨x, hx⟩ := Fl.isFinite_iff.mp this.1
      obtain ⟨y, hy⟩ := Fl.isFinite_iff.mp this.2.1
      exact ⟨x, y, by rw [← hx, ← hy]⟩
    -- separation of different data
    obtain ⟨δ, hδ, hsep⟩ := exists_delta (fun q : Pt × Pt => max |fv q.1.1 - fv q.2.1| |fv q.1.2 - fv q.2.2|) (List.product P P)
    -- size of the initial cells
    obtain ⟨W, hW0, hW⟩ : ∃ W : ℝ, 0 < W ∧ ∀ c ∈ init, c.x1 - c.x0 ≤ W ∧ c.y1 - c.y0 ≤ W := by
      clear hall hP
      induction init with
      | nil => exact ⟨1, one_pos, by simp⟩
      | cons c l ih =>
        obtain ⟨W, h0, h⟩ := ih
        refine ⟨max W (max (c.x1 - c.x0) (c.y1 - c.y0)), lt_of_lt_of_le h0 (le_max_left _ _), ?_⟩
        intro d hd
        rcases List.mem_cons.mp hd with rfl | hd
        · exact ⟨le_trans (le_max_left _ _) (le_max_right _ _), le_trans (le_max_right _ _) (le_max_right _ _)⟩
        · exact ⟨le_trans (h d hd).1 (le_max_left _ _), le_trans (h d hd).2 (le_max_left _ _)⟩
    obtain ⟨k, hk⟩ : ∃ k : Nat, W / 2 ^ k < δ := by
      obtain ⟨k, hk⟩ := pow_unbounded_of_one_lt (W / δ) (one_lt_two (α := ℝ))
      refine ⟨k, ?_⟩
      rw [div_lt_iff₀ hδ] at hk
      rw [div_lt_iff₀ (by positivity)]
      linarith
    have hgoal := run_of_steps m P k ([], init) ?_
    · obtain ⟨fuel, mesh, h⟩ := hgoal
      exact ⟨fuel, mesh, by unfold generate; rw [← hP]; exact h⟩
    · intro c hc
      have hw := active_width m P k ([], init) W hW c hc
      by_cases h0 : cellCount P c = 0
      · omega
      · obtain ⟨p, hpP, hpc⟩ : ∃ p ∈ P, inCell c p := by
          have : 0 < cellCount P c := by omega
          unfold cellCount at this
          rw [List.countP_pos_iff] at this
          simpa using this
        have hinit : ∃ c0 ∈ init, inCell c0 p := by
          rw [← covers_pos]
          have e1 : covers (State.mesh (([], init) : State)) p = covers init p := rfl
          rw [← e1, ← covers_steps m P k ([], init) p, covers_pos]
          exact ⟨c, List.mem_append.mpr (Or.inr hc), hpc⟩
        have hsame : ∀ q ∈ P, inCell c q → q = p := by
          intro q hq hqc
          obtain ⟨x, y, rfl⟩ := inCell_finite hpc
          obtain ⟨u, v, rfl⟩ := inCell_finite hqc
          rw [inCell_fin] at hpc hqc
          by_contra hne
          have hpos : 0 < max |u - x| |v - y| := by
            by_contra hle
            rw [not_lt] at hle
            have a1 := le_trans (le_max_left |u - x| |v - y|) hle
            have a2 := le_trans (le_max_right |u - x| |v - y|) hle
            have b1 : u - x = 0 := abs_nonpos_iff.mp a1
            have b2 : v - y = 0 := abs_nonpos_iff.mp a2
            apply hne
            rw [show u = x by linarith, show v = y by linarith]
          have hd := hsep ((.fin u, .fin v), (.fin x, .fin y)) (List.mem_product.mpr ⟨hq, hpP⟩) hpos
          have : max |u - x| |v - y| < δ := by
            refine max_lt ?_ ?_ <;> rw [abs_lt] <;> constructor <;> linarith [hw.1, hw.2]
          have hd' : δ ≤ max |u - x| |v - y| := hd
          linarith
        have hle : cellCount P c ≤ P.count p := by
          unfold cellCount
          rw [List.count_eq_countP]
          apply List.countP_mono_left
          intro q hq hqc
          have := hsame q hq (by simpa using hqc)
          simp [this]
        have hle2 : P.count p ≤ pts.count p := by
          rw [hP]; unfold inMesh
          exact List.Sublist.count_le p List.filter_sublist
        have := hall p hinit
        omega

/-- non-vacuity: three different data, limit 1 -/
example : ∃ fuel mesh, generate 1 [(.fin 0, .fin 0), (.fin 1, .fin 0), (.fin 0, .fin 1)] (initialMesh [0, 2] [0, 2]) fuel = some mesh := by
  rw [C80_terminates_iff]
  intro p _
  have hnd : ([(.fin 0, .fin 0), (.fin 1, .fin 0), (.fin 0, .fin 1)] : List Pt).Nodup := by simp
  exact List.nodup_iff_count_le_one.mp hnd p

/-! ### bin numbers -/

theorem foldl_unique {Q : Nat → Prop} {i : Nat} (hi : Q i) (hu : ∀ j, Q j → j = i) : ∀ (order : List Nat) (z : Int),
    order.foldl (fun (z : Int) (j : Nat) => if Q j then (j : Int) else z) z = if i ∈ order then (i : Int) else z := by
  intro order
  induction order with
  | nil => intro z; simp
  | cons a l ih =>
    intro z
    rw [List.foldl_cons, ih]
    by_cases hl : i ∈ l
    · simp [hl]
    · by_cases ha : Q a
      · have := hu a ha; subst this; simp [hl, ha]
      · have hne : i ≠ a := by rintro rfl; exact ha hi
        simp [hl, ha, hne]

/-- C79: the bin number of a datum is the index of the one cell containing it, whatever the order in which the parallel loop visits the
cells; a datum in no cell (or missing or infinite) gets the fill value. -/
theorem C79_bin_number (mesh : List Cell) (order : List Nat) (hord : order.Perm (List.range mesh.length)) (p : Pt)
    (hone : covers mesh p ≤ 1) :
    (∀ (i : Nat) (c : Cell), mesh[i]? = some c → inCell c p → binNumber mesh order p = i) ∧
    ((∀ c ∈ mesh, ¬ inCell c p) → binNumber mesh order p = fillBin) ∧
    (∀ order', order'.Perm (List.range mesh.length) → binNumber mesh order' p = binNumber mesh order p) := by
  have key : ∀ order, order.Perm (List.range mesh.length) →
      (∀ (i : Nat) (c : Cell), mesh[i]? = some c → inCell c p → binNumber mesh order p = i) ∧
      ((∀ c ∈ mesh, ¬ inCell c p) → binNumber mesh order p = fillBin) := by
    intro order hord
    constructor
    · intro i c hc hin
      have h1 : covers mesh p = 1 := by
        have : 0 < covers mesh p := covers_pos.mpr ⟨c, List.mem_of_getElem? hc, hin⟩
        omega
      obtain ⟨k, _, hu⟩ := countP_one _ _ h1
      unfold binNumber
      have hfu := foldl_unique (Q := fun i => ∃ c, mesh[i]? = some c ∧ inCell c p) (i := i) ⟨c, hc, hin⟩
        (fun j hj => by rw [hu j hj, ← hu i ⟨c, hc, hin⟩]) order fillBin
      have hmem : i ∈ order := by
        rw [hord.mem_iff, List.mem_range]
        exact (List.getElem?_eq_some_iff.mp hc).1
      rw [if_pos hmem] at hfu
      convert hfu
    · intro hno
      unfold binNumber
      clear hord
      generalize fillBin = z
      induction order generalizing z with
      | nil => rfl
      | cons a l ih =>
        rw [List.foldl_cons, if_neg, ih]
        rintro ⟨c, hc, hin⟩
        exact hno c (List.mem_of_getElem? hc) hin
  refine ⟨(key order hord).1, (key order hord).2, ?_⟩
  intro order' hord'
  by_cases h : ∃ c ∈ mesh, inCell c p
  · obtain ⟨c, hc, hin⟩ := h
    obtain ⟨i, hi, he⟩ := List.getElem_of_mem hc
    have hg : mesh[i]? = some c := by rw [List.getElem?_eq_getElem hi, he]
    rw [(key order hord).1 i c hg hin, (key order' hord').1 i c hg hin]
  · push Not at h
    rw [(key order hord).2 h, (key order' hord').2 h]

theorem active_some {q : ℝ} (hq : q ≠ 0) : active (some q) = some q := by
  unfold active
  simp [Option.filter, hq]

theorem active_none : active none = none := rfl

theorem active_zero : active (some 0) = none := by
  unfold active
  simp [Option.filter]

theorem bad_none : ¬ badQuantile none := by rintro ⟨v, h, _⟩; simp [active] at h
theorem bad_zero : ¬ badQuantile (some 0) := by rintro ⟨v, h, _⟩; rw [active_zero] at h; simp at h
theorem bad_some {q : ℝ} (h0 : 0 < q) (h1 : q ≤ 1) : ¬ badQuantile (some q) := by
  rintro ⟨v, h, hn⟩; rw [active_some h0.ne'] at h; cases h; exact hn ⟨h0.le, h1⟩

/-- C131 (violated: "They will be replaced by NaNs and excluded"): one datum outside the mesh (for example an infinite one: log10(0) on a
logarithmic axis) makes `initialize_mesh` raise TypeError, and `cell_filter` with a density threshold ValueError. -/
theorem C131_outside_fails (mesh : List Cell) (order : List Nat) (hord : order.Perm (List.range mesh.length)) (pts : List Pt)
    (hone : ∀ p, covers mesh p ≤ 1) (p : Pt) (hp : p ∈ pts) (hout : ∀ c ∈ mesh, ¬ inCell c p) (size : Option ℝ) (q : ℝ) (hq : q ≠ 0) :
    buildCat (pts.map (binNumber mesh order)) = .error .typeError ∧
    cellFilter mesh (pts.map (binNumber mesh order)) size (some q) = .error .valueError := by
  have hmem : fillBin ∈ pts.map (binNumber mesh order) :=
    List.mem_map.mpr ⟨p, hp, (C79_bin_number mesh order hord p (hone p)).2.1 hout⟩
  constructor
  · unfold buildCat; rw [if_pos hmem]
  · unfold cellFilter
    split
    · rfl
    simp only [active_some hq]
    rw [if_pos ⟨fillBin, hmem, by unfold fillBin; norm_num⟩]

/-- C131: infinite and missing data are outside every mesh. -/
theorem C131_nonfinite (mesh : List Cell) (p : Pt) (h : ¬ p.1.isFinite ∨ ¬ p.2.isFinite) : ∀ c ∈ mesh, ¬ inCell c p := by
  intro c _ hin
  obtain ⟨x, y, rfl⟩ := inCell_finite hin
  rcases h with h | h <;> exact h trivial

/-- C131: if every datum lies in the mesh the categories are the bin numbers, all valid cell indices. -/
theorem C131_inside (mesh : List Cell) (order : List Nat) (hord : order.Perm (List.range mesh.length)) (pts : List Pt)
    (hone : ∀ p, covers mesh p ≤ 1) (hin : ∀ p ∈ pts, ∃ c ∈ mesh, inCell c p) :
    buildCat (pts.map (binNumber mesh order)) = .ok (pts.map (binNumber mesh order)) ∧
    ∀ z ∈ pts.map (binNumber mesh order), 0 ≤ z ∧ z < mesh.length := by
  have hz : ∀ z ∈ pts.map (binNumber mesh order), 0 ≤ z ∧ z < mesh.length := by
    intro z hz
    obtain ⟨p, hp, rfl⟩ := List.mem_map.mp hz
    obtain ⟨c, hc, hcp⟩ := hin p hp
    obtain ⟨i, hi, he⟩ := List.getElem_of_mem hc
    rw [(C79_bin_number mesh order hord p (hone p)).1 i c (by rw [List.getElem?_eq_getElem hi, he]) hcp]
    omega
  refine ⟨?_, hz⟩
  unfold buildCat
  rw [if_neg]
  intro h
  have := (hz _ h).1
  unfold fillBin at this
  omega

/-! ### C81: initial edges -/

theorem foldl_max_mem : ∀ (l : List ℝ) (a : ℝ), l.foldl max a ∈ a :: l ∧ ∀ x ∈ a :: l, x ≤ l.foldl max a := by
  intro l
  induction l with
  | nil => intro a; simp
  | cons c l ih =>
    intro a
    obtain ⟨h1, h2⟩ := ih (max a c)
    simp only [List.foldl_cons]
    constructor
    · rcases List.mem_cons.mp h1 with h | h
      · rw [h]; rcases max_choice a c with e | e <;> rw [e] <;> simp
      · simp [h]
    · intro x hx
      have hm := h2 (max a c) (by simp)
      rcases List.mem_cons.mp hx with rfl | hx
      · exact le_trans (le_max_left _ _) hm
      · rcases List.mem_cons.mp hx with rfl | hx
        · exact le_trans (le_max_right _ _) hm
        · exact h2 x (by simp [hx])

theorem npMax_spec {b : List ℝ} (hb : b ≠ []) : npMax b ∈ b ∧ ∀ x ∈ b, x ≤ npMax b := by
  cases b with
  | nil => exact absurd rfl hb
  | cons a l => exact foldl_max_mem l a

theorem extend_gt (M : ℝ) : M < max 0.01 (1.01 * M) := by
  rcases le_or_gt M 0 with h | h
  · exact lt_of_lt_of_le (by linarith) (le_max_left _ _)
  · exact lt_of_lt_of_le (by linarith) (le_max_right _ _)

/-- C81: the last edge is moved strictly above every edge (whatever the signs); the other edges are kept and ascending edges stay
ascending. -/
theorem C81_extend (b : List ℝ) (hb : b ≠ []) :
    (extendLast b).length = b.length ∧ (extendLast b).dropLast = b.dropLast ∧
    (∃ z, (extendLast b).getLast? = some z ∧ (∀ x ∈ b, x < z) ∧ 0.01 ≤ z) ∧
    (b.Pairwise (· ≤ ·) → (extendLast b).Pairwise (· ≤ ·)) := by
  obtain ⟨h1, h2⟩ := npMax_spec hb
  have hlen : 0 < b.length := List.length_pos_iff.mpr hb
  have hlt : ∀ x ∈ b, x < max 0.01 (1.01 * npMax b) := fun x hx => lt_of_le_of_lt (h2 x hx) (extend_gt _)
  refine ⟨?_, ?_, ⟨_, ?_, hlt, le_max_left _ _⟩, ?_⟩
  · unfold extendLast; simp; omega
  · unfold extendLast; simp
  · unfold extendLast; simp
  · intro hm
    unfold extendLast
    rw [List.pairwise_append]
    refine ⟨List.Pairwise.sublist (List.dropLast_sublist b) hm, by simp, ?_⟩
    intro x hx y hy
    simp only [List.mem_singleton] at hy
    subst hy
    exact (hlt x (List.dropLast_subset b hx)).le

theorem getD_mono {s : List ℝ} (hs : s.Pairwise (· ≤ ·)) {i j : Nat} (hij : i ≤ j) (hj : j < s.length) :
    s.getD i 0 ≤ s.getD j 0 := by
  rw [List.getD_eq_getElem?_getD, List.getD_eq_getElem?_getD, List.getElem?_eq_getElem hj, List.getElem?_eq_getElem (by omega)]
  rcases Nat.eq_or_lt_of_le hij with rfl | h
  · exact le_refl _
  · exact List.pairwise_iff_getElem.mp hs i j (by omega) hj h

theorem quantile_bounds {s : List ℝ} (hs : s.Pairwise (· ≤ ·)) (hne : s ≠ []) {q : ℝ} (h0 : 0 ≤ q) (h1 : q ≤ 1) :
    ∃ k : Nat, k = ⌊q * ((s.length : ℝ) - 1)⌋₊ ∧ k < s.length ∧ s.getD k 0 ≤ quantile s q ∧
      quantile s q ≤ s.getD (k + 1) (s.getD k 0) ∧ (k + 1 < s.length → s.getD (k + 1) (s.getD k 0) = s.getD (k + 1) 0) ∧
      (¬ k + 1 < s.length → s.getD (k + 1) (s.getD k 0) = s.getD k 0) := by
  have hlen : 0 < s.length := List.length_pos_iff.mpr hne
  have hlen' : (1 : ℝ) ≤ s.length := by exact_mod_cast hlen
  have hh0 : 0 ≤ q * ((s.length : ℝ) - 1) := mul_nonneg h0 (by linarith)
  have hh1 : q * ((s.length : ℝ) - 1) ≤ (s.length : ℝ) - 1 := by nlinarith
  obtain ⟨k, hk⟩ : ∃ k, k = ⌊q * ((s.length : ℝ) - 1)⌋₊ := ⟨_, rfl⟩
  have hk1 : (k : ℝ) ≤ q * ((s.length : ℝ) - 1) := by rw [hk]; exact Nat.floor_le hh0
  have hk2 : q * ((s.length : ℝ) - 1) < k + 1 := by rw [hk]; exact Nat.lt_floor_add_one _
  have hkl : k < s.length := by
    have : (k : ℝ) < s.length := by linarith
    exact_mod_cast this
  have hA : k + 1 < s.length → s.getD (k + 1) (s.getD k 0) = s.getD (k + 1) 0 := by
    intro h; simp [List.getD_eq_getElem?_getD, h]
  have hB : ¬ k + 1 < s.length → s.getD (k + 1) (s.getD k 0) = s.getD k 0 := by
    intro h; rw [List.getD_eq_getElem?_getD (i := k + 1), List.getElem?_eq_none (by omega)]; rfl
  have hstep : s.getD k 0 ≤ s.getD (k + 1) (s.getD k 0) := by
    by_cases h : k + 1 < s.length
    · rw [hA h]; exact getD_mono hs (by omega) h
    · rw [hB h]
  have hq : quantile s q = s.getD k 0 + (q * ((s.length : ℝ) - 1) - k) * (s.getD (k + 1) (s.getD k 0) - s.getD k 0) := by
    unfold quantile; simp only []; rw [← hk]
  refine ⟨k, hk, hkl, ?_, ?_, hA, hB⟩
  · rw [hq]
    have : 0 ≤ (q * ((s.length : ℝ) - 1) - k) * (s.getD (k + 1) (s.getD k 0) - s.getD k 0) :=
      mul_nonneg (by linarith) (by linarith)
    linarith
  · rw [hq]
    have : (q * ((s.length : ℝ) - 1) - k) * (s.getD (k + 1) (s.getD k 0) - s.getD k 0) ≤
        1 * (s.getD (k + 1) (s.getD k 0) - s.getD k 0) :=
      mul_le_mul_of_nonneg_right (by linarith) (by linarith)
    linarith

theorem quantile_mono {s : List ℝ} (hs : s.Pairwise (· ≤ ·)) (hne : s ≠ []) {q r : ℝ} (h0 : 0 ≤ q) (hqr : q ≤ r) (h1 : r ≤ 1) :
    quantile s q ≤ quantile s r := by
  obtain ⟨k, hk, hkl, k1, k2, kA, kB⟩ := quantile_bounds hs hne h0 (le_trans hqr h1)
  obtain ⟨j, hj, hjl, j1, j2, jA, jB⟩ := quantile_bounds hs hne (le_trans h0 hqr) h1
  have hlen : 0 < s.length := List.length_pos_iff.mpr hne
  have hlen' : (1 : ℝ) ≤ s.length := by exact_mod_cast hlen
  have hmul : q * ((s.length : ℝ) - 1) ≤ r * ((s.length : ℝ) - 1) := mul_le_mul_of_nonneg_right hqr (by linarith)
  have hkj : k ≤ j := by rw [hk, hj]; exact Nat.floor_le_floor hmul
  rcases Nat.eq_or_lt_of_le hkj with h | h
  · have eq1 : quantile s q = s.getD k 0 + (q * ((s.length : ℝ) - 1) - k) * (s.getD (k + 1) (s.getD k 0) - s.getD k 0) := by
      unfold quantile; simp only []; rw [← hk]
    have eq2 : quantile s r = s.getD k 0 + (r * ((s.length : ℝ) - 1) - k) * (s.getD (k + 1) (s.getD k 0) - s.getD k 0) := by
      unfold quantile; simp only []; rw [← hj, ← h]
    rw [eq1, eq2]
    have hd : 0 ≤ s.getD (k + 1) (s.getD k 0) - s.getD k 0 := by linarith
    have := mul_le_mul_of_nonneg_right (show q * ((s.length : ℝ) - 1) - k ≤ r * ((s.length : ℝ) - 1) - k by linarith) hd
    linarith
  · have hk1 : k + 1 < s.length := by omega
    rw [kA hk1] at k2
    have := getD_mono hs (show k + 1 ≤ j by omega) hjl
    linarith

theorem quantile_zero {s : List ℝ} : quantile s 0 = s.getD 0 0 := by
  unfold quantile; simp

theorem quantile_one {s : List ℝ} (hne : s ≠ []) : quantile s 1 = s.getD (s.length - 1) 0 := by
  have hlen : 0 < s.length := List.length_pos_iff.mpr hne
  have : ((s.length : ℝ) - 1) = ((s.length - 1 : ℕ) : ℝ) := by rw [Nat.cast_sub (by omega)]; simp
  unfold quantile
  simp only [one_mul, this, Nat.floor_natCast, sub_self, zero_mul, add_zero]

/-- C81: for an integer number of initial bins the edges are ascending and every finite datum satisfies `first ≤ d < last`: nothing is
lost at either end. -/
theorem C81_all_data_inside (d : List ℝ) (hd : d ≠ []) (n : Nat) (hn : 0 < n) :
    (initialBins d n).length = n + 1 ∧ (initialBins d n).Pairwise (· ≤ ·) ∧
    ∃ a z, (initialBins d n).head? = some a ∧ (initialBins d n).getLast? = some z ∧ ∀ x ∈ d, a ≤ x ∧ x < z := by
  obtain ⟨s, hs⟩ : ∃ s, s = d.insertionSort (· ≤ ·) := ⟨_, rfl⟩
  have hperm : s.Perm d := by rw [hs]; exact List.perm_insertionSort _ _
  have hsort : s.Pairwise (· ≤ ·) := by rw [hs]; exact List.pairwise_insertionSort (· ≤ ·) _
  have hsne : s ≠ [] := by
    intro h; rw [h] at hperm; exact hd (List.nil_perm.mp hperm)
  have hslen : 0 < s.length := List.length_pos_iff.mpr hsne
  obtain ⟨b, hb⟩ : ∃ b, b = (List.range (n + 1)).map (fun i : Nat => quantile s ((i : ℝ) / n)) := ⟨_, rfl⟩
  have hbdef : initialBins d n = extendLast b := by rw [hb, hs]; rfl
  have hbne : b ≠ [] := by rw [hb]; simp
  have hn' : (0 : ℝ) < n := by exact_mod_cast hn
  have hbm : b.Pairwise (· ≤ ·) := by
    rw [hb, List.pairwise_map]
    refine List.Pairwise.imp_of_mem ?_ (List.pairwise_lt_range (n := n + 1))
    intro i j hi hj hij
    have hj' := List.mem_range.mp hj
    refine quantile_mono hsort hsne (by positivity) ?_ ?_
    · exact div_le_div_of_nonneg_right (by exact_mod_cast hij.le) hn'.le
    · rw [div_le_one hn']; exact_mod_cast (by omega : j ≤ n)
  obtain ⟨e1, e2, ⟨z, e3, e4, _⟩, e5⟩ := C81_extend b hbne
  rw [hbdef]
  refine ⟨by rw [e1, hb]; simp, e5 hbm, s.getD 0 0, z, ?_, e3, ?_⟩
  · have hh : b.head? = some (s.getD 0 0) := by
      rw [hb, List.range_succ_eq_map]; simp [quantile_zero]
    have hblen : b.length = n + 1 := by rw [hb]; simp
    unfold extendLast
    rw [List.head?_append]
    have : b.dropLast.head? = some (s.getD 0 0) := by
      cases hbb : b with
      | nil => exact absurd hbb hbne
      | cons u l =>
        rw [hbb] at hh hblen
        cases l with
        | nil => simp at hblen; omega
        | cons v l => simpa using hh
    rw [this]; rfl
  · intro x hx
    have hx' : x ∈ s := hperm.mem_iff.mpr hx
    obtain ⟨i, hi, rfl⟩ := List.getElem_of_mem hx'
    have hge : s[i] = s.getD i 0 := by rw [List.getD_eq_getElem?_getD, List.getElem?_eq_getElem hi]; rfl
    rw [hge]
    refine ⟨getD_mono hsort (Nat.zero_le _) hi, ?_⟩
    have hlast : quantile s 1 ∈ b := by
      rw [hb]
      refine List.mem_map.mpr ⟨n, by simp, ?_⟩
      rw [div_self hn'.ne']
    have := e4 _ hlast
    rw [quantile_one hsne] at this
    exact lt_of_le_of_lt (getD_mono hsort (by omega) (by omega)) this

/-- C81/C79: with integer bins on both axes every finite datum is in exactly one cell of the finished mesh. -/
theorem C81_every_datum_binned (xs ys : List ℝ) (hxs : xs ≠ []) (hys : ys ≠ []) (nx ny : Nat) (hnx : 0 < nx) (hny : 0 < ny) (m : Nat)
    (pts : List Pt) (fuel : Nat) (mesh : List Cell)
    (h : generate m pts (initialMesh (initialBins xs nx) (initialBins ys ny)) fuel = some mesh) (x y : ℝ) (hx : x ∈ xs) (hy : y ∈ ys) :
    ∃! i : Nat, ∃ c, mesh[i]? = some c ∧ inCell c (.fin x, .fin y) := by
  obtain ⟨_, hmx, ax, zx, hax, hzx, hix⟩ := C81_all_data_inside xs hxs nx hnx
  obtain ⟨_, hmy, ay, zy, hay, hzy, hiy⟩ := C81_all_data_inside ys hys ny hny
  refine (C80_limit _ _ hmx hmy hax hzx hay hzy m pts fuel mesh h).2.1 _ ?_
  exact ⟨x, y, rfl, (hix x hx).1, (hix x hx).2, (hiy y hy).1, (hiy y hy).2⟩

/-- C132 (violated): edges given as an array are changed in the caller's array, so building a second plot with the same array uses a
larger last edge: by another 1 % for a positive one (at least 0.01). -/
theorem C132_caller_array (b : List ℝ) (hb : b ≠ []) (L : ℝ) (hl : npMax b = L) (hpos : 0.01 ≤ 1.01 * L) :
    (initialBinsArray b).2 = (initialBinsArray b).1 ∧ (initialBinsArray b).2 ≠ b ∧
    (extendLast (initialBinsArray b).2).getLast? = some (1.01 * (1.01 * L)) ∧
    (initialBinsArray b).1.getLast? = some (1.01 * L) := by
  have hval : max 0.01 (1.01 * npMax b) = 1.01 * L := by rw [hl]; exact max_eq_right hpos
  have e1 : extendLast b = b.dropLast ++ [1.01 * L] := by unfold extendLast; rw [hval]
  have hL : 0 < L := by linarith
  obtain ⟨_, h2⟩ := npMax_spec hb
  have hne : (initialBinsArray b).2 ≠ b := by
    intro h
    have : extendLast b = b := h
    have hmem : 1.01 * L ∈ b := by rw [← this, e1]; simp
    have := h2 _ hmem
    rw [hl] at this
    linarith
  have hmax : npMax (extendLast b) = 1.01 * L := by
    obtain ⟨m1, m2⟩ := npMax_spec (b := extendLast b) (by rw [e1]; simp)
    apply le_antisymm
    · rw [e1] at m1
      rw [e1]
      rcases List.mem_append.mp m1 with h | h
      · have := h2 _ (List.dropLast_subset b h)
        rw [hl] at this
        linarith
      · simp at h; rw [h]
    · exact m2 _ (by rw [e1]; simp)
  refine ⟨rfl, hne, ?_, ?_⟩
  · show (extendLast (extendLast b)).getLast? = _
    have : extendLast (extendLast b) = (extendLast b).dropLast ++ [1.01 * (1.01 * L)] := by
      conv_lhs => unfold extendLast
      have e : max 0.01 (1.01 * npMax (extendLast b)) = 1.01 * (1.01 * L) := by
        rw [hmax]; apply max_eq_right; linarith
      have e' : max 0.01 (1.01 * npMax (b.dropLast ++ [max 0.01 (1.01 * npMax b)])) = 1.01 * (1.01 * L) := e
      rw [e']
      rfl
    rw [this]; simp
  · show (extendLast b).getLast? = _
    rw [e1]; simp

/-! ### C133: cell filter -/

theorem quantile_le_max {s : List ℝ} (hs : s.Pairwise (· ≤ ·)) (hne : s ≠ []) {q : ℝ} (h0 : 0 ≤ q) (h1 : q ≤ 1) {M : ℝ}
    (hM : ∀ x ∈ s, x ≤ M) : quantile s q ≤ M := by
  have := quantile_mono hs hne h0 h1 (le_refl 1)
  rw [quantile_one hne] at this
  have hlen : 0 < s.length := List.length_pos_iff.mpr hne
  have hmem : s.getD (s.length - 1) 0 ∈ s := by
    rw [List.getD_eq_getElem?_getD, List.getElem?_eq_getElem (by omega)]; exact List.getElem_mem _
  exact le_trans this (hM _ hmem)

theorem min_le_quantile {s : List ℝ} (hs : s.Pairwise (· ≤ ·)) (hne : s ≠ []) {q : ℝ} (h0 : 0 ≤ q) (h1 : q ≤ 1) {m : ℝ}
    (hm : ∀ x ∈ s, m ≤ x) : m ≤ quantile s q := by
  have := quantile_mono hs hne (le_refl 0) h0 h1
  rw [quantile_zero] at this
  have hlen : 0 < s.length := List.length_pos_iff.mpr hne
  have hmem : s.getD 0 0 ∈ s := by
    rw [List.getD_eq_getElem?_getD, List.getElem?_eq_getElem (by omega)]; exact List.getElem_mem _
  exact le_trans (hm _ hmem) this

/-- the area of a cell -/
noncomputable def Cell.area (c : Cell) : ℝ := (c.x1 - c.x0) * (c.y1 - c.y0)

/-- C133: without thresholds every cell passes the filter; a size threshold (any quantile in (0,1], even 1; 0 is off) always removes the largest
cells, hence all cells when they have equal area; what it keeps is smaller than everything of at least threshold size. -/
theorem C133_size_filter (mesh : List Cell) (ids : List Int) (q : ℝ) (h0 : 0 < q) (h1 : q ≤ 1) :
    cellFilter mesh ids none none = .ok (mesh.map (fun _ => true)) ∧
    cellFilter mesh ids (some 0) (some 0) = .ok (mesh.map (fun _ => true)) ∧
    ∃ out, cellFilter mesh ids (some q) none = .ok out ∧ out.length = mesh.length ∧
      (∀ (i : Nat) (c : Cell), mesh[i]? = some c → (∀ d ∈ mesh, d.area ≤ c.area) → out[i]? = some false) ∧
      ((∀ c ∈ mesh, ∀ d ∈ mesh, c.area = d.area) → ∀ b ∈ out, b = false) ∧
      (∀ (i j : Nat) (c d : Cell), mesh[i]? = some c → mesh[j]? = some d → out[i]? = some true → out[j]? = some false →
        c.area < d.area) := by
  refine ⟨?_, ?_, ?_⟩
  · unfold cellFilter; rw [if_neg (by simp [bad_none])]; simp only [active_none]; rw [List.map_map]; rfl
  · unfold cellFilter; rw [if_neg (by simp [bad_zero])]; simp only [active_zero]; rw [List.map_map]; rfl
  · obtain ⟨Q, hQ⟩ : ∃ Q, Q = quantile ((mesh.map Cell.area).insertionSort (· ≤ ·)) q := ⟨_, rfl⟩
    have hout : cellFilter mesh ids (some q) none = .ok (mesh.map (fun c => decide (c.area < Q))) := by
      unfold cellFilter; rw [if_neg (by simp [bad_none, bad_some h0 h1])]; simp only [active_some h0.ne', active_none]; rw [List.map_map, hQ]; rfl
    have hget : ∀ (i : Nat) (c : Cell), mesh[i]? = some c →
        (mesh.map (fun c => decide (c.area < Q)))[i]? = some (decide (c.area < Q)) := by
      intro i c hc; rw [List.getElem?_map, hc]; rfl
    have hbig : ∀ c ∈ mesh, (∀ d ∈ mesh, d.area ≤ c.area) → ¬ c.area < Q := by
      intro c hc hmax
      rw [not_lt, hQ]
      have hperm : ((mesh.map Cell.area).insertionSort (· ≤ ·)).Perm (mesh.map Cell.area) := List.perm_insertionSort _ _
      apply quantile_le_max (List.pairwise_insertionSort (· ≤ ·) _) _ h0.le h1
      · intro x hx
        obtain ⟨d, hd, rfl⟩ := List.mem_map.mp (hperm.mem_iff.mp hx)
        exact hmax d hd
      · intro h
        rw [h] at hperm
        have hn := List.nil_perm.mp hperm
        rw [List.map_eq_nil_iff] at hn
        rw [hn] at hc; simp at hc
    refine ⟨_, hout, by simp, ?_, ?_, ?_⟩
    · intro i c hc hmax
      rw [hget i c hc]
      simp [hbig c (List.mem_of_getElem? hc) hmax]
    · intro heq b hb
      obtain ⟨c, hc, rfl⟩ := List.mem_map.mp hb
      simp [hbig c hc (fun d hd => (heq d hd c hc).le)]
    · intro i j c d hc hd h1 h2
      rw [hget i c hc] at h1
      rw [hget j d hd] at h2
      simp at h1 h2
      linarith

/-- the density of cell number `i`: data in it per area -/
noncomputable def cellDensity (ids : List Int) (i : Nat) (c : Cell) : ℝ := ((ids.count (i : Int) : ℕ) : ℝ) / c.area

/-- C133: a density threshold in (0,1] always removes the cells of least density; every cell it keeps is denser than every cell it
removes; with both thresholds a cell is kept iff each filter alone keeps it. -/
theorem C133_density_filter (mesh : List Cell) (ids : List Int) (q : ℝ) (h0 : 0 < q) (h1 : q ≤ 1) (hids : ∀ z ∈ ids, 0 ≤ z) :
    ∃ out, cellFilter mesh ids none (some q) = .ok out ∧ out.length = mesh.length ∧
      (∀ (i : Nat) (c : Cell), mesh[i]? = some c →
        (∀ (j : Nat) (d : Cell), mesh[j]? = some d → cellDensity ids i c ≤ cellDensity ids j d) → out[i]? = some false) ∧
      (∀ (i j : Nat) (c d : Cell), mesh[i]? = some c → mesh[j]? = some d → out[i]? = some true → out[j]? = some false →
        cellDensity ids j d < cellDensity ids i c) ∧
      (∀ r sz, cellFilter mesh ids (some r) none = .ok sz →
        cellFilter mesh ids (some r) (some q) = .ok (List.zipWith (fun a b => a && b) sz out)) := by
  have hneg : ¬ ∃ z ∈ ids, z < 0 := by rintro ⟨z, hz, h⟩; exact absurd (hids z hz) (by omega)
  obtain ⟨dens, hd⟩ : ∃ dens, dens = (List.range mesh.length).map (fun i : Nat =>
    ((ids.count (i : Int) : ℕ) : ℝ) / (mesh.map (fun c => (c.x1 - c.x0) * (c.y1 - c.y0))).getD i 0) := ⟨_, rfl⟩
  have hlen : dens.length = mesh.length := by rw [hd]; simp
  have hdget : ∀ (i : Nat) (c : Cell), mesh[i]? = some c → dens[i]? = some (cellDensity ids i c) := by
    intro i c hc
    have hi : i < mesh.length := (List.getElem?_eq_some_iff.mp hc).1
    rw [hd, List.getElem?_map, List.getElem?_range hi]
    simp only [Option.map_some, Option.some.injEq, cellDensity, Cell.area]
    rw [List.getD_eq_getElem?_getD, List.getElem?_map, hc]
    rfl
  obtain ⟨Q, hQ⟩ : ∃ Q, Q = quantile (dens.insertionSort (· ≤ ·)) q := ⟨_, rfl⟩
  have hmain : ∀ tk : List Bool, tk.length = mesh.length →
      List.zipWith (fun b d => b && decide (Q < d)) tk dens =
        List.zipWith (fun a b => a && b) tk (dens.map (fun d => decide (Q < d))) := by
    intro tk _
    rw [List.zipWith_map_right]
  have hout : cellFilter mesh ids none (some q) = .ok (dens.map (fun d => decide (Q < d))) := by
    unfold cellFilter
    rw [if_neg (by simp [bad_none, bad_some h0 h1])]
    simp only [active_none, active_some h0.ne']
    rw [if_neg hneg, ← hd, ← hQ]
    congr 1
    apply List.ext_getElem
    · simp [hlen]
    · intro i h1 h2
      simp
  have hget : ∀ (i : Nat) (c : Cell), mesh[i]? = some c →
      (dens.map (fun d => decide (Q < d)))[i]? = some (decide (Q < cellDensity ids i c)) := by
    intro i c hc; rw [List.getElem?_map, hdget i c hc]; rfl
  refine ⟨_, hout, by simp [hlen], ?_, ?_, ?_⟩
  · intro i c hc hmin
    rw [hget i c hc]
    have hi : i < mesh.length := (List.getElem?_eq_some_iff.mp hc).1
    have hperm : (dens.insertionSort (· ≤ ·)).Perm dens := List.perm_insertionSort _ _
    have : cellDensity ids i c ≤ Q := by
      rw [hQ]
      apply min_le_quantile (List.pairwise_insertionSort (· ≤ ·) _) _ h0.le h1
      · intro x hx
        obtain ⟨j, hj, rfl⟩ := List.getElem_of_mem (hperm.mem_iff.mp hx)
        have hj' : j < mesh.length := by omega
        have e := hdget j mesh[j] (List.getElem?_eq_getElem hj')
        rw [List.getElem?_eq_getElem hj] at e
        rw [Option.some.inj e]
        exact hmin j _ (List.getElem?_eq_getElem hj')
      · intro h
        have := hperm.length_eq
        rw [h] at this
        simp at this
        omega
    simp [not_lt.mpr this]
  · intro i j c d hc hd h1 h2
    rw [hget i c hc] at h1
    rw [hget j d hd] at h2
    simp at h1 h2
    linarith
  · intro r sz hsz
    have hr : ¬ badQuantile (some r) := by
      intro h
      unfold cellFilter at hsz
      rw [if_pos (Or.inl h)] at hsz
      cases hsz
    have hsz' : sz = mesh.map (fun c => match active (some r) with
        | none => true
        | some v => decide (c.area < quantile ((mesh.map Cell.area).insertionSort (· ≤ ·)) v)) := by
      unfold cellFilter at hsz
      rw [if_neg (by simp [bad_none, hr])] at hsz
      simp only [active_none] at hsz
      rw [List.map_map] at hsz
      exact (Except.ok.inj hsz).symm
    unfold cellFilter
    rw [if_neg (by simp [hr, bad_some h0 h1])]
    simp only [active_some h0.ne']
    rw [if_neg hneg, ← hd, ← hQ, hmain _ (by simp), hsz', List.map_map]
    rfl

/-- C133: a threshold outside [0,1] is refused with ValueError. -/
theorem C133_refused (mesh : List Cell) (ids : List Int) (q : ℝ) (hq : q < 0 ∨ 1 < q) (other : Option ℝ) :
    cellFilter mesh ids (some q) other = .error .valueError ∧ cellFilter mesh ids other (some q) = .error .valueError := by
  have hb : badQuantile (some q) := by
    refine ⟨q, active_some ?_, ?_⟩
    · rintro rfl; rcases hq with h | h <;> linarith
    · rintro ⟨h0, h1⟩; rcases hq with h | h <;> linarith
  unfold cellFilter
  exact ⟨by rw [if_pos (Or.inl hb)], by rw [if_pos (Or.inr hb)]⟩

end Spiral
end SW
