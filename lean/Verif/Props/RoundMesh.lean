import Verif.RoundMesh
import Verif.Props.Rounded
import Verif.Props.Spiral

/-!
# Property C256: the adaptive mesh with rounded midpoints
-/

namespace SW
namespace Rnd

open Spiral
open Classical

/-- the edges of a cell are numbers of the format, in order -/
structure Proper (p : ℕ) (c : Cell) : Prop where
  x0 : Digits p c.x0
  x1 : Digits p c.x1
  y0 : Digits p c.y0
  y1 : Digits p c.y1
  x : c.x0 ≤ c.x1
  y : c.y0 ≤ c.y1

theorem midpoint_eq {p : ℕ} (hp : 1 ≤ p) (a b : ℝ) : midpoint (fmt p hp) a b = binary p ((a + b) / 2) := by
  have h1 : (fmt p hp).r (1 / 2 * (fmt p hp).r (a + b)) = 1 / 2 * (fmt p hp).r ((fmt p hp).r (a + b)) := half_exact _
  have h2 : binary p (1 / 2 * (a + b)) = 1 / 2 * binary p (a + b) := half_exact _
  unfold midpoint
  rw [h1, (fmt p hp).idem, show (a + b) / 2 = 1 / 2 * (a + b) by ring, h2]
  rfl

/-- the computed midpoint lies between the edges -/
theorem midpoint_between {p : ℕ} (hp : 1 ≤ p) {a b : ℝ} (ha : Digits p a) (hb : Digits p b) (h : a ≤ b) :
    a ≤ midpoint (fmt p hp) a b ∧ midpoint (fmt p hp) a b ≤ b := by
  rw [midpoint_eq]
  have h1 := binary_mono hp (show a ≤ (a + b) / 2 by linarith)
  have h2 := binary_mono hp (show (a + b) / 2 ≤ b by linarith)
  rw [binary_rep ha] at h1
  rw [binary_rep hb] at h2
  exact ⟨h1, h2⟩

theorem proper_split {p : ℕ} (hp : 1 ≤ p) {c : Cell} (h : Proper p c) : ∀ d ∈ splitR (fmt p hp) c, Proper p d := by
  have mx := midpoint_between hp h.x0 h.x1 h.x
  have my := midpoint_between hp h.y0 h.y1 h.y
  have dx : Digits p (midpoint (fmt p hp) c.x0 c.x1) := binary_digits hp _
  have dy : Digits p (midpoint (fmt p hp) c.y0 c.y1) := binary_digits hp _
  intro d hd
  unfold splitR at hd
  simp only [List.mem_cons, List.not_mem_nil, or_false] at hd
  rcases hd with rfl | rfl | rfl | rfl
  · exact ⟨h.x0, dx, h.y0, dy, mx.1, my.1⟩
  · exact ⟨dx, h.x1, h.y0, dy, mx.2, my.1⟩
  · exact ⟨dx, h.x1, dy, h.y1, mx.2, my.2⟩
  · exact ⟨h.x0, dx, dy, h.y1, mx.1, my.2⟩

/-- the four parts of a cell cover it exactly once -/
theorem covers_splitR {p : ℕ} (hp : 1 ≤ p) {c : Cell} (h : Proper p c) (q : Pt) : covers (splitR (fmt p hp) c) q = covers [c] q := by
  have mx := midpoint_between hp h.x0 h.x1 h.x
  have my := midpoint_between hp h.y0 h.y1 h.y
  by_cases hf : ∃ x y, q = (Fl.fin x, Fl.fin y)
  · obtain ⟨x, y, rfl⟩ := hf
    unfold covers splitR
    simp only [List.countP_cons, List.countP_nil, inCell_fin, decide_eq_true_eq]
    generalize midpoint (fmt p hp) c.x0 c.x1 = xh at mx
    generalize midpoint (fmt p hp) c.y0 c.y1 = yh at my
    obtain ⟨x0, x1, y0, y1⟩ := c
    simp only [] at mx my ⊢
    by_cases hx : x < xh <;> by_cases hy : y < yh
    · have hx' : ¬ xh ≤ x := by linarith
      have hy' : ¬ yh ≤ y := by linarith
      have hx1 : x < x1 := by linarith
      have hy1 : y < y1 := by linarith
      simp only [hx, hy, hx', hy', hx1, hy1, false_and, and_false, and_true, true_and, if_false, add_zero, zero_add]
    · have hx' : ¬ xh ≤ x := by linarith
      have hy' : yh ≤ y := by linarith
      have hx1 : x < x1 := by linarith
      have hy0 : y0 ≤ y := by linarith
      simp only [hx, hy, hx', hy', hx1, hy0, false_and, and_false, true_and, if_false, add_zero, zero_add]
    · have hx' : xh ≤ x := by linarith
      have hy' : ¬ yh ≤ y := by linarith
      have hx0 : x0 ≤ x := by linarith
      have hy1 : y < y1 := by linarith
      simp only [hx, hy, hx', hy', hx0, hy1, false_and, and_false, and_true, true_and, if_false, add_zero, zero_add]
    · have hx' : xh ≤ x := by linarith
      have hy' : yh ≤ y := by linarith
      have hx0 : x0 ≤ x := by linarith
      have hy0 : y0 ≤ y := by linarith
      simp only [hx, hy, hx', hy', hx0, hy0, false_and, and_false, true_and, if_false, add_zero, zero_add]
  · have hno : ∀ c, ¬ inCell c q := fun c h => hf (inCell_finite h)
    unfold covers
    have z : ∀ l : List Cell, l.countP (fun c => decide (inCell c q)) = 0 := fun l => by
      rw [List.countP_eq_zero]
      intro d _
      simp [hno d]
    rw [z, z]

theorem covers_cons (c : Cell) (l : List Cell) (q : Pt) : covers (c :: l) q = covers [c] q + covers l q := covers_append [c] l q

theorem covers_flatMap_splitR {p : ℕ} (hp : 1 ≤ p) (l : List Cell) (h : ∀ c ∈ l, Proper p c) (q : Pt) :
    covers (l.flatMap (splitR (fmt p hp))) q = covers l q := by
  induction l with
  | nil => rfl
  | cons c l ih =>
    rw [List.flatMap_cons, covers_append, ih fun d hd => h d (List.mem_cons_of_mem _ hd), covers_splitR hp (h c List.mem_cons_self), ← covers_cons]

theorem proper_step {p : ℕ} (hp : 1 ≤ p) (m : ℕ) (pts : List Pt) (s : State) (h : ∀ c ∈ s.mesh, Proper p c) :
    ∀ c ∈ (stepR (fmt p hp) m pts s).mesh, Proper p c := by
  intro c hc
  unfold stepR State.mesh at hc
  rcases List.mem_append.mp hc with hc | hc
  · rcases List.mem_append.mp hc with hc | hc
    · exact h c (List.mem_append.mpr (Or.inl hc))
    · exact h c (List.mem_append.mpr (Or.inr (List.mem_filter.mp hc).1))
  · obtain ⟨d, hd, hcd⟩ := List.mem_flatMap.mp hc
    exact proper_split hp (h d (List.mem_append.mpr (Or.inr (List.mem_filter.mp hd).1))) c hcd

theorem proper_steps {p : ℕ} (hp : 1 ≤ p) (m : ℕ) (pts : List Pt) (k : ℕ) (s : State) (h : ∀ c ∈ s.mesh, Proper p c) :
    ∀ c ∈ ((stepR (fmt p hp) m pts)^[k] s).mesh, Proper p c := by
  induction k generalizing s with
  | zero => exact h
  | succ k ih =>
    rw [Function.iterate_succ_apply]
    exact ih _ (proper_step hp m pts s h)

theorem covers_stepR {p : ℕ} (hp : 1 ≤ p) (m : ℕ) (pts : List Pt) (s : State) (h : ∀ c ∈ s.mesh, Proper p c) (q : Pt) :
    covers (stepR (fmt p hp) m pts s).mesh q = covers s.mesh q := by
  unfold stepR State.mesh
  simp only []
  rw [covers_append, covers_append, covers_append,
    covers_flatMap_splitR hp _ (fun c hc => h c (List.mem_append.mpr (Or.inr (List.mem_filter.mp hc).1))), add_assoc, covers_filter]

theorem covers_stepsR {p : ℕ} (hp : 1 ≤ p) (m : ℕ) (pts : List Pt) (k : ℕ) (s : State) (h : ∀ c ∈ s.mesh, Proper p c) (q : Pt) :
    covers ((stepR (fmt p hp) m pts)^[k] s).mesh q = covers s.mesh q := by
  induction k generalizing s with
  | zero => rfl
  | succ k ih => rw [Function.iterate_succ_apply, ih _ (proper_step hp m pts s h), covers_stepR hp m pts s h]

theorem runR_steps (R : Rounding) (m : ℕ) (pts : List Pt) : ∀ (fuel : ℕ) (s : State) (mesh : List Cell), runR R m pts fuel s = some mesh →
    ∃ k, mesh = ((stepR R m pts)^[k] s).mesh ∧ ∀ c ∈ ((stepR R m pts)^[k] s).2, cellCount pts c ≤ m := by
  intro fuel
  induction fuel with
  | zero => intro s mesh h; simp [runR] at h
  | succ f ih =>
    intro s mesh h
    unfold runR at h
    split at h
    · next hs =>
      injection h with h
      exact ⟨0, h.symm, hs⟩
    · obtain ⟨k, h1, h2⟩ := ih _ _ h
      exact ⟨k + 1, by rw [Function.iterate_succ_apply]; exact h1, by rw [Function.iterate_succ_apply]; exact h2⟩

theorem kept_smallR (R : Rounding) (m : ℕ) (pts : List Pt) (k : ℕ) (s : State) (h : ∀ c ∈ s.1, cellCount pts c ≤ m) :
    ∀ c ∈ ((stepR R m pts)^[k] s).1, cellCount pts c ≤ m := by
  induction k generalizing s with
  | zero => exact h
  | succ k ih =>
    rw [Function.iterate_succ_apply]
    apply ih
    intro c hc
    rcases List.mem_append.mp hc with hc | hc
    · exact h c hc
    · rw [List.mem_filter] at hc; simpa using hc.2

/-- a mesh whose edges are rows of numbers of the format -/
theorem proper_initial {p : ℕ} {xb yb : List ℝ} (hx : xb.Pairwise (· ≤ ·)) (hy : yb.Pairwise (· ≤ ·)) (dx : ∀ x ∈ xb, Digits p x)
    (dy : ∀ y ∈ yb, Digits p y) : ∀ c ∈ initialMesh xb yb, Proper p c := by
  have pair : ∀ l : List ℝ, l.Pairwise (· ≤ ·) → ∀ a ∈ l.zip l.tail, a.1 ∈ l ∧ a.2 ∈ l ∧ a.1 ≤ a.2 := by
    intro l hl
    induction l with
    | nil => simp
    | cons u l ih =>
      cases l with
      | nil => simp
      | cons w l =>
        intro a ha
        simp only [List.tail_cons, List.zip_cons_cons, List.mem_cons] at ha
        rcases ha with rfl | ha
        · refine ⟨by simp, by simp, ?_⟩
          exact (List.pairwise_cons.mp hl).1 w (by simp)
        · have := ih (List.pairwise_cons.mp hl).2 a (by simpa using ha)
          exact ⟨List.mem_cons_of_mem _ this.1, List.mem_cons_of_mem _ this.2.1, this.2.2⟩
  intro c hc
  unfold initialMesh at hc
  obtain ⟨a, ha, hc⟩ := List.mem_flatMap.mp hc
  obtain ⟨b, hb, rfl⟩ := List.mem_map.mp hc
  obtain ⟨a1, a2, a3⟩ := pair xb hx a ha
  obtain ⟨b1, b2, b3⟩ := pair yb hy b hb
  exact ⟨dx _ a1, dx _ a2, dy _ b1, dy _ b2, a3, b3⟩

/-- C256: with rounded midpoints, in any precision, after any number of steps every point of the initial region lies in exactly one cell
and every other point in none -/
theorem C256_partition {p : ℕ} (hp : 1 ≤ p) (xb yb : List ℝ) (hx : xb.Pairwise (· ≤ ·)) (hy : yb.Pairwise (· ≤ ·))
    (dx : ∀ x ∈ xb, Digits p x) (dy : ∀ y ∈ yb, Digits p y) {ax zx ay zy : ℝ}
    (hax : xb.head? = some ax) (hzx : xb.getLast? = some zx) (hay : yb.head? = some ay) (hzy : yb.getLast? = some zy)
    (m : ℕ) (pts : List Pt) (k : ℕ) (q : Pt) :
    (InRegion ax zx ay zy q →
      ∃! i : ℕ, ∃ c, ((stepR (fmt p hp) m pts)^[k] ([], initialMesh xb yb)).mesh[i]? = some c ∧ inCell c q) ∧
    (¬ InRegion ax zx ay zy q → ∀ c ∈ ((stepR (fmt p hp) m pts)^[k] ([], initialMesh xb yb)).mesh, ¬ inCell c q) := by
  have h := covers_stepsR hp m pts k ([], initialMesh xb yb) (by simpa [State.mesh] using proper_initial hx hy dx dy) q
  have h2 : State.mesh (([], initialMesh xb yb) : State) = initialMesh xb yb := rfl
  rw [h2, covers_region hx hy hax hzx hay hzy] at h
  constructor
  · intro hr
    rw [if_pos hr] at h
    exact countP_one _ _ h
  · intro hr c hc hin
    rw [if_neg hr] at h
    unfold covers at h
    rw [List.countP_eq_zero] at h
    exact h c hc (by simpa using hin)

/-- C256: no cell of a finished mesh holds more than the limit, and the mesh covers what the initial cells cover, as often -/
theorem C256_limit {p : ℕ} (hp : 1 ≤ p) (m : ℕ) (pts : List Pt) (init mesh : List Cell) (hi : ∀ c ∈ init, Proper p c) (fuel : ℕ)
    (h : generateR (fmt p hp) m pts init fuel = some mesh) :
    (∀ c ∈ mesh, cellCount pts c ≤ m) ∧
    (∀ q, mesh.countP (fun c => decide (inCell c q)) = init.countP (fun c => decide (inCell c q))) ∧ ∀ c ∈ mesh, Proper p c := by
  unfold generateR at h
  obtain ⟨k, hk, hs⟩ := runR_steps _ m _ fuel _ mesh h
  have hi' : ∀ c ∈ State.mesh (([], init) : State), Proper p c := by simpa [State.mesh] using hi
  have hcov : ∀ q, covers mesh q = covers init q := by
    intro q
    rw [hk, covers_stepsR hp m _ k _ hi']
    rfl
  refine ⟨?_, hcov, ?_⟩
  · intro c hc
    rw [← cellCount_inMesh (init := init)]
    · have hc' := hc
      rw [hk] at hc'
      rcases List.mem_append.mp hc' with h1 | h1
      · exact kept_smallR _ m _ k ([], init) (by simp) c h1
      · exact hs c h1
    · intro q hq
      rw [← covers_pos, ← hcov q, covers_pos]
      exact ⟨c, hc, hq⟩
  · rw [hk]
    exact proper_steps hp m _ k _ hi'

/-! ### termination -/

/-- One halving of an interval that holds the numbers a < b: the part that holds both is narrower by at least `b - a`, or begins at `a`
while the interval did not. -/
theorem halve {p : ℕ} (hp : 1 ≤ p) {a b x0 x1 : ℝ} (ha : Digits p a) (hb : Digits p b) (hab : a < b) (h0 : x0 ≤ a) (h1 : b < x1) :
    let m := midpoint (fmt p hp) x0 x1
    (m ≤ a → m - x0 ≥ b - a ∧ x0 ≠ a ∨ m = a ∧ x0 < a) ∧ (b < m → x1 - m ≥ b - a) := by
  intro m
  have hm : m = binary p ((x0 + x1) / 2) := midpoint_eq hp x0 x1
  have na := (binary_nearest hp ((x0 + x1) / 2)).2 a ha
  have nb := (binary_nearest hp ((x0 + x1) / 2)).2 b hb
  rw [← hm] at na nb
  obtain ⟨c, hc⟩ : ∃ c, c = (x0 + x1) / 2 := ⟨_, rfl⟩
  rw [← hc] at na nb
  have hcs : 2 * c = x0 + x1 := by linarith
  constructor
  · intro hma
    -- the midpoint lies left of b
    have hcb : c < b := by
      by_contra hcon
      push Not at hcon
      rw [abs_of_nonpos (by linarith : m - c ≤ 0), abs_of_nonpos (by linarith : b - c ≤ 0)] at nb
      linarith
    rw [abs_of_pos (by linarith : 0 < b - c)] at nb
    have hmx : x0 < m := by
      have := (abs_le.mp nb).1
      linarith
    by_cases hca : a ≤ c
    · right
      rw [abs_of_nonpos (by linarith : m - c ≤ 0), abs_of_nonpos (by linarith : a - c ≤ 0)] at na
      have hm' : m = a := by linarith
      exact ⟨hm', by linarith⟩
    · left
      push Not at hca
      rw [abs_of_pos (by linarith : 0 < a - c)] at na
      have := (abs_le.mp na).1
      exact ⟨by linarith, by intro hx; linarith⟩
  · intro hbm
    have hcb : b < c := by
      by_contra hcon
      push Not at hcon
      rw [abs_of_pos (by linarith : 0 < m - c), abs_of_nonneg (by linarith : 0 ≤ b - c)] at nb
      linarith
    rw [abs_of_neg (by linarith : b - c < 0)] at nb
    have := (abs_le.mp nb).2
    linarith

/-- an axis of the cells: its two edges, halved by every split -/
structure Axis (R : Rounding) (p : ℕ) (f0 f1 : Cell → ℝ) : Prop where
  proper : ∀ c, Proper p c → Digits p (f0 c) ∧ Digits p (f1 c) ∧ f0 c ≤ f1 c
  split : ∀ d, ∀ c ∈ splitR R d,
    (f0 c = f0 d ∧ f1 c = midpoint R (f0 d) (f1 d)) ∨ (f0 c = midpoint R (f0 d) (f1 d) ∧ f1 c = f1 d)

theorem axis_x (R : Rounding) (p : ℕ) : Axis R p Cell.x0 Cell.x1 where
  proper := fun _ h => ⟨h.x0, h.x1, h.x⟩
  split := by
    intro d c hc
    unfold splitR at hc
    simp only [List.mem_cons, List.not_mem_nil, or_false] at hc
    rcases hc with rfl | rfl | rfl | rfl <;> simp

theorem axis_y (R : Rounding) (p : ℕ) : Axis R p Cell.y0 Cell.y1 where
  proper := fun _ h => ⟨h.y0, h.y1, h.y⟩
  split := by
    intro d c hc
    unfold splitR at hc
    simp only [List.mem_cons, List.not_mem_nil, or_false] at hc
    rcases hc with rfl | rfl | rfl | rfl <;> simp

/-- cells still active after k steps that hold a < b on an axis: each step cost `b - a` of the width -/
theorem depth {p : ℕ} (hp : 1 ≤ p) {f0 f1 : Cell → ℝ} (ax : Axis (fmt p hp) p f0 f1) {a b : ℝ} (ha : Digits p a) (hb : Digits p b) (hab : a < b) (W : ℝ)
    (m : ℕ) (pts : List Pt) (s : State) (hs : ∀ c ∈ s.mesh, Proper p c) (hW : ∀ c ∈ s.2, f1 c - f0 c ≤ W) (k : ℕ) :
    ∀ c ∈ ((stepR (fmt p hp) m pts)^[k] s).2, f0 c ≤ a → b < f1 c →
      (k : ℝ) * (b - a) ≤ W - (f1 c - f0 c) + if f0 c = a then b - a else 0 := by
  induction k with
  | zero =>
    intro c hc _ _
    have := hW c hc
    have : (0 : ℝ) ≤ if f0 c = a then b - a else 0 := by split_ifs <;> linarith
    push_cast
    linarith
  | succ k ih =>
    intro c hc h0 h1
    rw [Function.iterate_succ_apply'] at hc
    obtain ⟨d, hd, hcd⟩ := List.mem_flatMap.mp hc
    have hd' := (List.mem_filter.mp hd).1
    obtain ⟨g0, g1, gl⟩ := ax.proper d (proper_steps hp m pts k s hs d (List.mem_append.mpr (Or.inr hd')))
    obtain ⟨b0, b1⟩ := midpoint_between hp g0 g1 gl
    rcases ax.split d c hcd with ⟨e0, e1⟩ | ⟨e0, e1⟩
    · rw [e0] at h0 ⊢
      rw [e1] at h1 ⊢
      have hi := ih d hd' h0 (by linarith)
      have := (halve hp ha hb hab h0 (by linarith : b < f1 d)).2 h1
      push_cast
      linarith
    · rw [e0] at h0 ⊢
      rw [e1] at h1 ⊢
      have hi := ih d hd' (by linarith) h1
      rcases (halve hp ha hb hab (by linarith : f0 d ≤ a) h1).1 h0 with ⟨g, hne⟩ | ⟨g, hlt⟩
      · rw [if_neg hne] at hi
        have : (0 : ℝ) ≤ if midpoint (fmt p hp) (f0 d) (f1 d) = a then b - a else 0 := by split_ifs <;> linarith
        push_cast
        linarith
      · rw [if_neg hlt.ne] at hi
        rw [if_pos g, g]
        push_cast
        linarith

theorem runR_of_steps (R : Rounding) (m : ℕ) (pts : List Pt) : ∀ (k : ℕ) (s : State), (∀ c ∈ ((stepR R m pts)^[k] s).2, cellCount pts c ≤ m) →
    ∃ fuel mesh, runR R m pts fuel s = some mesh := by
  intro k
  induction k with
  | zero =>
    intro s h
    have h : ∀ c ∈ s.2, cellCount pts c ≤ m := h
    exact ⟨1, s.mesh, by unfold runR; rw [if_pos h]⟩
  | succ k ih =>
    intro s h
    rw [Function.iterate_succ_apply] at h
    obtain ⟨fuel, mesh, hr⟩ := ih _ h
    by_cases hs : ∀ c ∈ s.2, cellCount pts c ≤ m
    · exact ⟨1, s.mesh, by unfold runR; rw [if_pos hs]⟩
    · exact ⟨fuel + 1, mesh, by unfold runR; rw [if_neg hs]; exact hr⟩

theorem never_stopsR {p : ℕ} (hp : 1 ≤ p) {m : ℕ} {pts : List Pt} {q : Pt} (hq : m < pts.count q) : ∀ (fuel : ℕ) (s : State),
    (∀ c ∈ s.mesh, Proper p c) → (∃ c ∈ s.2, inCell c q) → runR (fmt p hp) m pts fuel s = none := by
  have hbig : ∀ c, inCell c q → m < cellCount pts c := by
    intro c hc
    have : pts.count q ≤ cellCount pts c := by
      unfold cellCount
      rw [List.count_eq_countP]
      apply List.countP_mono_left
      intro r _ hr
      have : r = q := by simpa using hr
      subst this
      simpa using hc
    omega
  intro fuel
  induction fuel with
  | zero => intro s _ _; rfl
  | succ f ih =>
    rintro s hs ⟨c, hc, hin⟩
    unfold runR
    rw [if_neg]
    · apply ih _ (proper_step hp m pts s hs)
      have h1 : 0 < covers ((s.2.filter (fun c => decide (m < cellCount pts c))).flatMap (splitR (fmt p hp))) q := by
        rw [covers_flatMap_splitR hp _ (fun c hc => hs c (List.mem_append.mpr (Or.inr (List.mem_filter.mp hc).1))), covers_pos]
        exact ⟨c, List.mem_filter.mpr ⟨hc, by simpa using hbig c hin⟩, hin⟩
      rwa [covers_pos] at h1
    · intro h
      have := h c hc
      have := hbig c hin
      omega

/-- a datum whose coordinates are numbers of the format (or missing or infinite) -/
def PtRep (p : ℕ) (q : Pt) : Prop := (∀ x, q.1 = .fin x → Digits p x) ∧ ∀ y, q.2 = .fin y → Digits p y

/-- C256: with rounded midpoints, in any precision, mesh generation ends exactly if at no point of the initial region more than
`min_per_bin` data coincide -/
theorem C256_terminates_iff {p : ℕ} (hp : 1 ≤ p) (m : ℕ) (pts : List Pt) (init : List Cell) (hi : ∀ c ∈ init, Proper p c)
    (hpts : ∀ q ∈ pts, PtRep p q) :
    (∃ fuel mesh, generateR (fmt p hp) m pts init fuel = some mesh) ↔ ∀ q, (∃ c ∈ init, inCell c q) → pts.count q ≤ m := by
  have hi' : ∀ c ∈ State.mesh (([], init) : State), Proper p c := by simpa [State.mesh] using hi
  constructor
  · rintro ⟨fuel, mesh, h⟩ q hq
    by_contra hc
    rw [not_le] at hc
    have hcount : (inMesh init pts).count q = pts.count q := by
      have hmem : q ∈ pts := by
        by_contra hn
        rw [List.count_eq_zero_of_not_mem hn] at hc
        omega
      have := inMesh_of_cell hmem hq
      unfold inMesh at this ⊢
      obtain ⟨f, hf⟩ : ∃ f : Pt → Bool, f = (fun p => decide (p.1.isFinite ∧ p.2.isFinite ∧
        (∃ c ∈ init, Fl.le (.fin c.x0) p.1) ∧ (∃ c ∈ init, Fl.le p.1 (.fin c.x1)) ∧
        (∃ c ∈ init, Fl.le (.fin c.y0) p.2) ∧ (∃ c ∈ init, Fl.le p.2 (.fin c.y1)))) := ⟨_, rfl⟩
      rw [← hf] at this ⊢
      rw [List.mem_filter] at this
      exact List.count_filter this.2
    unfold generateR at h
    rw [never_stopsR hp (by rw [hcount]; exact hc) fuel _ hi' hq] at h
    exact absurd h (by simp)
  · intro hall
    obtain ⟨P, hP⟩ : ∃ P, P = inMesh init pts := ⟨_, rfl⟩
    have hsub : ∀ q ∈ P, q ∈ pts := by
      intro q hq
      rw [hP] at hq
      exact List.mem_of_mem_filter hq
    obtain ⟨dx, hdx, sepx⟩ := exists_delta (fun q : Pt × Pt => fv q.1.1 - fv q.2.1) (List.product P P)
    obtain ⟨dy, hdy, sepy⟩ := exists_delta (fun q : Pt × Pt => fv q.1.2 - fv q.2.2) (List.product P P)
    obtain ⟨W, hW0, hW⟩ : ∃ W : ℝ, 0 < W ∧ ∀ c ∈ init, c.x1 - c.x0 ≤ W ∧ c.y1 - c.y0 ≤ W := by
      clear hall hP hi hi'
      induction init with
      | nil => exact ⟨1, one_pos, by simp⟩
      | cons c l ih =>
        obtain ⟨W, h0, h⟩ := ih
        refine ⟨max W (max (c.x1 - c.x0) (c.y1 - c.y0)), lt_of_lt_of_le h0 (le_max_left _ _), ?_⟩
        intro d hd
        rcases List.mem_cons.mp hd with rfl | hd
        · exact ⟨le_trans (le_max_left _ _) (le_max_right _ _), le_trans (le_max_right _ _) (le_max_right _ _)⟩
        · exact ⟨le_trans (h d hd).1 (le_max_left _ _), le_trans (h d hd).2 (le_max_left _ _)⟩
    obtain ⟨k, hk⟩ := exists_nat_gt (max (W / dx) (W / dy))
    have hkx : W < k * dx := by
      have := (le_max_left (W / dx) (W / dy)).trans_lt hk
      rwa [div_lt_iff₀ hdx] at this
    have hky : W < k * dy := by
      have := (le_max_right (W / dx) (W / dy)).trans_lt hk
      rwa [div_lt_iff₀ hdy] at this
    have hgoal := runR_of_steps (fmt p hp) m P k ([], init) ?_
    · obtain ⟨fuel, mesh, h⟩ := hgoal
      exact ⟨fuel, mesh, by unfold generateR; rw [← hP]; exact h⟩
    · intro c hc
      by_cases h0 : cellCount P c = 0
      · omega
      obtain ⟨q, hqP, hqc⟩ : ∃ q ∈ P, inCell c q := by
        have : 0 < cellCount P c := by omega
        unfold cellCount at this
        rw [List.countP_pos_iff] at this
        simpa using this
      have hinit : ∃ c0 ∈ init, inCell c0 q := by
        rw [← covers_pos]
        have e1 : covers (State.mesh (([], init) : State)) q = covers init q := rfl
        rw [← e1, ← covers_stepsR hp m P k ([], init) hi' q, covers_pos]
        exact ⟨c, List.mem_append.mpr (Or.inr hc), hqc⟩
      -- two data of the cell agree on an axis
      have agree : ∀ (f0 f1 : Cell → ℝ) (d : ℝ), Axis (fmt p hp) p f0 f1 → 0 < d → W < k * d → (∀ c ∈ init, f1 c - f0 c ≤ W) →
          ∀ a b : ℝ, Digits p a → Digits p b → (0 < b - a → d ≤ b - a) → f0 c ≤ a → b < f1 c → b ≤ a := by
        intro f0 f1 d ax hd0 hkd hWf a b ha hb hsep g0 g1
        by_contra hcon
        push Not at hcon
        have := depth hp ax ha hb hcon W m P ([], init) hi' hWf k c hc g0 g1
        have h2 := hsep (by linarith)
        have h3 : (k : ℝ) * d ≤ k * (b - a) := mul_le_mul_of_nonneg_left h2 (Nat.cast_nonneg _)
        split_ifs at this <;> linarith
      have hsame : ∀ r ∈ P, inCell c r → r = q := by
        intro r hr hrc
        obtain ⟨x, y, rfl⟩ := inCell_finite hqc
        obtain ⟨u, v, rfl⟩ := inCell_finite hrc
        have rq := hpts _ (hsub _ hqP)
        have rr := hpts _ (hsub _ hr)
        rw [inCell_fin] at hqc hrc
        have e1 := agree _ _ dx (axis_x _ p) hdx hkx (fun c hc => (hW c hc).1) x u (rq.1 x rfl) (rr.1 u rfl)
          (fun h => sepx ((.fin u, .fin v), (.fin x, .fin y)) (List.mem_product.mpr ⟨hr, hqP⟩) h) hqc.1 hrc.2.1
        have e2 := agree _ _ dx (axis_x _ p) hdx hkx (fun c hc => (hW c hc).1) u x (rr.1 u rfl) (rq.1 x rfl)
          (fun h => sepx ((.fin x, .fin y), (.fin u, .fin v)) (List.mem_product.mpr ⟨hqP, hr⟩) h) hrc.1 hqc.2.1
        have e3 := agree _ _ dy (axis_y _ p) hdy hky (fun c hc => (hW c hc).2) y v (rq.2 y rfl) (rr.2 v rfl)
          (fun h => sepy ((.fin u, .fin v), (.fin x, .fin y)) (List.mem_product.mpr ⟨hr, hqP⟩) h) hqc.2.2.1 hrc.2.2.2
        have e4 := agree _ _ dy (axis_y _ p) hdy hky (fun c hc => (hW c hc).2) v y (rr.2 v rfl) (rq.2 y rfl)
          (fun h => sepy ((.fin x, .fin y), (.fin u, .fin v)) (List.mem_product.mpr ⟨hqP, hr⟩) h) hrc.2.2.1 hqc.2.2.2
        rw [le_antisymm e1 e2, le_antisymm e3 e4]
      have hle : cellCount P c ≤ P.count q := by
        unfold cellCount
        rw [List.count_eq_countP]
        apply List.countP_mono_left
        intro r hr hrc
        have := hsame r hr (by simpa using hrc)
        simp [this]
      have hle2 : P.count q ≤ pts.count q := by
        rw [hP]
        unfold inMesh
        exact List.Sublist.count_le q List.filter_sublist
      have := hall q hinit
      omega

/-- C256: with eight or more binary digits the computed last edge lies beyond every edge, so the largest datum is inside -/
theorem C256_last_edge {p : ℕ} (hp : 8 ≤ p) (M : ℝ) : M < lastEdge (fmt p (by omega)) M := by
  have hp1 : 1 ≤ p := by omega
  have u0 := (ulp_range hp1).1
  have u1 : ulp p ≤ 1 / 256 := by
    have : (2 : ℝ) ^ (-(p : ℤ)) ≤ 2 ^ (-8 : ℤ) := zpow_le_zpow_right₀ (by norm_num) (by omega)
    unfold ulp
    refine this.trans ?_
    norm_num
  have rel : ∀ x : ℝ, 0 ≤ x → (1 - ulp p) * x ≤ binary p x := by
    intro x hx
    have := (abs_le.mp (binary_rel p x)).1
    rw [abs_of_nonneg hx] at this
    change -(ulp p * x) ≤ _ at this
    linarith
  unfold lastEdge
  rcases le_or_gt M 0 with h | h
  · refine lt_of_le_of_lt h (lt_max_of_lt_left ?_)
    have := rel (1 / 100) (by norm_num)
    change 0 < binary p (1 / 100)
    nlinarith
  · apply lt_max_of_lt_right
    change M < binary p (binary p (101 / 100) * M)
    have h1 := rel (101 / 100) (by norm_num)
    have h2 : 1 + 1 / 200 ≤ binary p (101 / 100) := by nlinarith
    have h3 := rel (binary p (101 / 100) * M) (by nlinarith)
    have h4 : (1 + 1 / 200) * M ≤ binary p (101 / 100) * M := mul_le_mul_of_nonneg_right h2 h.le
    have h5 : (1 - 1 / 256) * ((1 + 1 / 200) * M) ≤ (1 - ulp p) * (binary p (101 / 100) * M) :=
      mul_le_mul (by linarith) h4 (by nlinarith) (by linarith)
    nlinarith

/-- small integers in double precision -/
theorem digits_nat (n : ℕ) (h : n < 2 ^ 53) : Digits 53 (n : ℝ) := ⟨n, 0, by rw [abs_of_nonneg (by positivity)]; exact_mod_cast h, by simp⟩

/-- three different data in double precision, limit 1: the refinement ends -/
example : (∀ c ∈ initialMesh [0, 2] [0, 2], Proper 53 c) ∧
    ∃ fuel mesh, generateR double 1 [(.fin 0, .fin 0), (.fin 1, .fin 0), (.fin 0, .fin 1)] (initialMesh [0, 2] [0, 2]) fuel = some mesh := by
  have d0 : Digits 53 (0 : ℝ) := by simpa using digits_nat 0 (by norm_num)
  have d1 : Digits 53 (1 : ℝ) := by simpa using digits_nat 1 (by norm_num)
  have d2 : Digits 53 (2 : ℝ) := by simpa using digits_nat 2 (by norm_num)
  have hd : ∀ x ∈ ([0, 2] : List ℝ), Digits 53 x := by
    intro x hx
    simp only [List.mem_cons, List.not_mem_nil, or_false] at hx
    rcases hx with rfl | rfl
    · exact d0
    · exact d2
  have hpr := proper_initial (p := 53) (xb := [0, 2]) (yb := [0, 2]) (by norm_num) (by norm_num) hd hd
  refine ⟨hpr, ?_⟩
  refine (C256_terminates_iff (by norm_num) 1 _ _ hpr ?_).mpr ?_
  · intro q hq
    simp only [List.mem_cons, List.not_mem_nil, or_false] at hq
    rcases hq with rfl | rfl | rfl <;> constructor <;> intro x hx <;> injection hx with hx <;> subst hx <;> assumption
  · intro q _
    have hnd : ([(.fin 0, .fin 0), (.fin 1, .fin 0), (.fin 0, .fin 1)] : List Pt).Nodup := by simp
    exact List.nodup_iff_count_le_one.mp hnd q

end Rnd
end SW
