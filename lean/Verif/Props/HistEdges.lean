import Verif.HistEdges
import Verif.Props.Hist2

/-!
# C261: the drawn borders of a 2-D histogram
-/

namespace SW
namespace Hist

open Classical

/-! ### Specification -/

/-- column `i` displays something -/
def HasData (ny : Nat) (g : Grid) (i : Nat) : Prop := ∃ j, j < ny ∧ ¬ (g i j).isNaN

/-- the highest displayed cell of column `i` is `j` -/
def TopCell (ny : Nat) (g : Grid) (i j : Nat) : Prop := j < ny ∧ ¬ (g i j).isNaN ∧ ∀ j', j < j' → j' < ny → (g i j').isNaN

/-- the lowest displayed cell of column `i` is `j` -/
def BottomCell (ny : Nat) (g : Grid) (i j : Nat) : Prop := j < ny ∧ ¬ (g i j).isNaN ∧ ∀ j', j' < j → (g i j').isNaN

/-- the columns with data, from left to right -/
noncomputable def dataCols (nx ny : Nat) (g : Grid) : List Nat := (List.range nx).filter fun i => decide (HasData ny g i)

/-- `v` is the centre of bin `i` as drawn: the middle of its edges, or 10 to that on a logarithmic axis -/
def Centre (log : Bool) (e : List ℝ) (i : Nat) (v : ℝ) : Prop :=
  v = if log then (10 : ℝ) ^ ((e.getD i 0 + e.getD (i + 1) 0) / 2) else (e.getD i 0 + e.getD (i + 1) 0) / 2

/-- no limits -/
def Frame2.free (f : Frame2) : Frame2 := { f with x0 := none, x1 := none, y0 := none, y1 := none }

/-- a point within the limits, both ends included -/
def Frame2.Within (f : Frame2) (q : ℝ × ℝ) : Prop :=
  (∀ l, f.x0 = some l → l ≤ q.1) ∧ (∀ h, f.x1 = some h → q.1 ≤ h) ∧ (∀ l, f.y0 = some l → l ≤ q.2) ∧ (∀ h, f.y1 = some h → q.2 ≤ h)

/-! ### Lemmas -/

theorem hasData_iff (ny : Nat) (g : Grid) (i : Nat) :
    (HasData ny g i ↔ ∃ c, (borderCol ny (g i)).1 = some c) ∧ (HasData ny g i ↔ ∃ c, (borderCol ny (g i)).2 = some c) := by
  obtain ⟨-, -, h3, h4⟩ := C126_border ny (g i)
  constructor
  · rw [← Option.isSome_iff_exists, ← Option.ne_none_iff_isSome, ne_eq, h3]
    unfold HasData; push Not; rfl
  · rw [← Option.isSome_iff_exists, ← Option.ne_none_iff_isSome, ne_eq, h4]
    unfold HasData; push Not; rfl

noncomputable def topOf (ny : Nat) (g : Grid) (i : Nat) : Nat := ((borderCol ny (g i)).1.map Prod.fst).getD 0
noncomputable def bottomOf (ny : Nat) (g : Grid) (i : Nat) : Nat := ((borderCol ny (g i)).2.map Prod.fst).getD 0

theorem topOf_spec {ny : Nat} {g : Grid} {i : Nat} (h : HasData ny g i) : TopCell ny g i (topOf ny g i) := by
  obtain ⟨⟨j, v⟩, hc⟩ := (hasData_iff ny g i).1.mp h
  obtain ⟨a, rfl, b, c⟩ := ((C126_border ny (g i)).1 j v).mp hc
  unfold topOf; rw [hc]
  exact ⟨a, b, c⟩

theorem bottomOf_spec {ny : Nat} {g : Grid} {i : Nat} (h : HasData ny g i) : BottomCell ny g i (bottomOf ny g i) := by
  obtain ⟨⟨j, v⟩, hc⟩ := (hasData_iff ny g i).2.mp h
  obtain ⟨a, rfl, b, c⟩ := ((C126_border ny (g i)).2.1 j v).mp hc
  unfold bottomOf; rw [hc]
  exact ⟨a, b, c⟩

theorem top_list (ny : Nat) (g : Grid) (l : List Nat) :
    (l.filterMap fun i => (borderCol ny (g i)).1.map fun c => (i, c.1)) = (l.filter fun i => decide (HasData ny g i)).map fun i => (i, topOf ny g i) := by
  induction l with
  | nil => rfl
  | cons i l ih =>
    rcases h : (borderCol ny (g i)).1 with _ | c
    · have : ¬ HasData ny g i := by rw [(hasData_iff ny g i).1, h]; simp
      rw [List.filterMap_cons_none (by rw [h]; rfl), List.filter_cons_of_neg (by simpa using this), ih]
    · have : HasData ny g i := by rw [(hasData_iff ny g i).1, h]; exact ⟨c, rfl⟩
      rw [List.filterMap_cons_some (b := (i, c.1)) (by rw [h]; rfl), List.filter_cons_of_pos (by simpa using this), ih, List.map_cons]
      congr 2
      unfold topOf; rw [h]; rfl

theorem bottom_list (ny : Nat) (g : Grid) (l : List Nat) :
    (l.filterMap fun i => (borderCol ny (g i)).2.map fun c => (i, c.1)) = (l.filter fun i => decide (HasData ny g i)).map fun i => (i, bottomOf ny g i) := by
  induction l with
  | nil => rfl
  | cons i l ih =>
    rcases h : (borderCol ny (g i)).2 with _ | c
    · have : ¬ HasData ny g i := by rw [(hasData_iff ny g i).2, h]; simp
      rw [List.filterMap_cons_none (by rw [h]; rfl), List.filter_cons_of_neg (by simpa using this), ih]
    · have : HasData ny g i := by rw [(hasData_iff ny g i).2, h]; exact ⟨c, rfl⟩
      rw [List.filterMap_cons_some (b := (i, c.1)) (by rw [h]; rfl), List.filter_cons_of_pos (by simpa using this), ih, List.map_cons]
      congr 2
      unfold bottomOf; rw [h]; rfl

theorem border_eq (nx ny : Nat) (g : Grid) : border nx ny g =
    if dataCols nx ny g = [] then .error .valueError
    else .ok ((dataCols nx ny g).map fun i => (i, topOf ny g i), (dataCols nx ny g).map fun i => (i, bottomOf ny g i)) := by
  simp only [border]
  rw [top_list, bottom_list]
  simp only [List.map_eq_nil_iff]
  rfl

theorem within_iff (f : Frame2) (q : ℝ × ℝ) : (above f.x0 q.1 ∧ below f.x1 q.1 ∧ above f.y0 q.2 ∧ below f.y1 q.2) ↔ f.Within q := Iff.rfl

theorem free_points (f : Frame2) (xs ys : List ℝ) : edgePoints f.free xs ys = (xs.map (unlog f.logx)).zip (ys.map (unlog f.logy)) := by
  unfold edgePoints
  rw [List.filter_eq_self.mpr]
  · rfl
  · intro q _
    have : f.free.Within q := ⟨by simp [Frame2.free], by simp [Frame2.free], by simp [Frame2.free], by simp [Frame2.free]⟩
    exact decide_eq_true this

theorem limited (f : Frame2) (xs ys : List ℝ) : edgePoints f xs ys = (edgePoints f.free xs ys).filter fun q => decide (f.Within q) := by
  rw [free_points]
  unfold edgePoints
  refine List.filter_congr fun q _ => decide_eq_decide.mpr (within_iff f q)

/-- the heights handed to the filter -/
noncomputable def heights (ey : List ℝ) (cell : Nat → Nat) (cols : List Nat) : List ℝ := cols.map fun i => mid ey (cell i)

theorem oneEdge_eq (F : ℤ → ℤ → List ℝ → List ℝ) (smooth : Bool) (kw : SgKw) (f : Frame2) (cell : Nat → Nat) (cols : List Nat) :
    oneEdge F smooth kw f (cols.map fun i => (i, cell i)) =
      ((smoothEdge F smooth kw (heights f.ey cell cols)).1.map (edgePoints f (cols.map (mid f.ex))), (smoothEdge F smooth kw (heights f.ey cell cols)).2) := by
  simp only [oneEdge, heights, List.map_map]
  rfl

theorem plot_plain (F : ℤ → ℤ → List ℝ → List ℝ) (kw : SgKw) (f : Frame2) (nx ny : Nat) (g : Grid) (hne : dataCols nx ny g ≠ []) :
    plotEdges F false kw f nx ny g = (.ok (edgePoints f ((dataCols nx ny g).map (mid f.ex)) (heights f.ey (topOf ny g) (dataCols nx ny g)),
      edgePoints f ((dataCols nx ny g).map (mid f.ex)) (heights f.ey (bottomOf ny g) (dataCols nx ny g))), kw) := by
  simp only [plotEdges]
  rw [border_eq, if_neg hne]
  simp only []
  rw [oneEdge_eq]
  simp only [smoothEdge, Bool.false_eq_true, if_false, Except.map]
  rw [oneEdge_eq]
  simp only [smoothEdge, Bool.false_eq_true, if_false, Except.map]

/-! ### C261 -/

/-- without smoothing and limits: ValueError if nothing is displayed; otherwise one point per column with data, from left to right, at the centres of the column and of
its highest (lowest) displayed cell; the dictionary is left alone -/
theorem C261_borders (F : ℤ → ℤ → List ℝ → List ℝ) (kw : SgKw) (f : Frame2) (nx ny : Nat) (g : Grid) :
    ((∀ i < nx, ¬ HasData ny g i) → plotEdges F false kw f.free nx ny g = (.error .valueError, kw)) ∧
    ((∃ i < nx, HasData ny g i) → ∃ t l, plotEdges F false kw f.free nx ny g = (.ok (t, l), kw) ∧
      t.length = (dataCols nx ny g).length ∧ l.length = (dataCols nx ny g).length ∧
      ∀ (k i : Nat), (dataCols nx ny g)[k]? = some i → ∃ j j' x y y', TopCell ny g i j ∧ BottomCell ny g i j' ∧
        Centre f.logx f.ex i x ∧ Centre f.logy f.ey j y ∧ Centre f.logy f.ey j' y' ∧ t[k]? = some (x, y) ∧ l[k]? = some (x, y')) := by
  constructor
  · intro h
    have : dataCols nx ny g = [] := by
      unfold dataCols; rw [List.filter_eq_nil_iff]
      intro i hi
      simpa using h i (List.mem_range.mp hi)
    simp only [plotEdges]
    rw [border_eq, if_pos this]
  · rintro ⟨i0, hi0, hd0⟩
    have hne : dataCols nx ny g ≠ [] := by
      have : i0 ∈ dataCols nx ny g := by unfold dataCols; rw [List.mem_filter]; exact ⟨List.mem_range.mpr hi0, decide_eq_true hd0⟩
      exact List.ne_nil_of_mem this
    have hmem : ∀ i ∈ dataCols nx ny g, HasData ny g i := fun i hi => of_decide_eq_true (List.mem_filter.mp hi).2
    rw [plot_plain F kw _ nx ny g hne]
    refine ⟨_, _, rfl, ?_, ?_, ?_⟩
    · rw [free_points]; simp [heights]
    · rw [free_points]; simp [heights]
    · intro k i hk
      have hi := hmem i (List.mem_of_getElem? hk)
      refine ⟨topOf ny g i, bottomOf ny g i, _, _, _, topOf_spec hi, bottomOf_spec hi, rfl, rfl, rfl, ?_, ?_⟩
      · rw [free_points]
        simp only [List.getElem?_zip_eq_some, List.getElem?_map, heights, hk, Option.map_some]
        exact ⟨rfl, rfl⟩
      · rw [free_points]
        simp only [List.getElem?_zip_eq_some, List.getElem?_map, heights, hk, Option.map_some]
        exact ⟨rfl, rfl⟩

/-- limits keep exactly the points within them, of either curve, smoothed or not -/
theorem C261_limits (F : ℤ → ℤ → List ℝ → List ℝ) (smooth : Bool) (kw : SgKw) (f : Frame2) (nx ny : Nat) (g : Grid) :
    plotEdges F smooth kw f nx ny g =
      ((plotEdges F smooth kw f.free nx ny g).1.map (fun c => (c.1.filter (fun q => decide (f.Within q)), c.2.filter (fun q => decide (f.Within q)))),
       (plotEdges F smooth kw f.free nx ny g).2) := by
  have key : ∀ kw e, oneEdge F smooth kw f e = ((oneEdge F smooth kw f.free e).1.map (fun c => c.filter (fun q => decide (f.Within q))), (oneEdge F smooth kw f.free e).2) := by
    intro kw e
    simp only [oneEdge]
    have hf : f.free.ey = f.ey ∧ f.free.ex = f.ex := ⟨rfl, rfl⟩
    rw [hf.1, hf.2]
    generalize smoothEdge F smooth kw (List.map (fun c => mid f.ey c.2) e) = s
    rcases s with ⟨er | ys, k⟩
    · rfl
    · simp only [Except.map]
      rw [limited]
  simp only [plotEdges]
  rcases border nx ny g with er | b
  · rfl
  · simp only []
    rw [key]
    rcases h1 : oneEdge F smooth kw f.free b.1 with ⟨er | t, kw1⟩
    · rfl
    · simp only [Except.map]
      rw [key]
      rcases h2 : oneEdge F smooth kw1 f.free b.2 with ⟨er | l, kw2⟩ <;> rfl

/-- without smoothing the lower curve is nowhere above the upper one, at the same abscissae -/
theorem C261_below (F : ℤ → ℤ → List ℝ → List ℝ) (kw : SgKw) (f : Frame2) (nx ny : Nat) (g : Grid) (hy : f.ey.Pairwise (· ≤ ·)) (hl : f.ey.length = ny + 1)
    {t l : List (ℝ × ℝ)} {kw' : SgKw} (h : plotEdges F false kw f.free nx ny g = (.ok (t, l), kw')) :
    List.Forall₂ (fun p q : ℝ × ℝ => p.1 = q.1 ∧ q.2 ≤ p.2) t l := by
  have hmem : ∀ i ∈ dataCols nx ny g, HasData ny g i := fun i hi => of_decide_eq_true (List.mem_filter.mp hi).2
  by_cases hne : dataCols nx ny g = []
  · simp only [plotEdges] at h
    rw [border_eq, if_pos hne] at h; simp at h
  rw [plot_plain F kw _ nx ny g hne] at h
  simp only [Prod.mk.injEq, Except.ok.injEq] at h
  obtain ⟨⟨rfl, rfl⟩, -⟩ := h
  rw [free_points, free_points]
  have mono : ∀ a b : Nat, a ≤ b → b < ny → mid f.ey a ≤ mid f.ey b := by
    have g1 : ∀ a b : Nat, a ≤ b → b ≤ ny → f.ey.getD a 0 ≤ f.ey.getD b 0 := by
      intro a b hab hb
      rcases Nat.eq_or_lt_of_le hab with rfl | hlt
      · exact le_rfl
      · have ha : a < f.ey.length := by omega
        have hb' : b < f.ey.length := by omega
        rw [List.getD_eq_getElem?_getD, List.getD_eq_getElem?_getD, List.getElem?_eq_getElem ha, List.getElem?_eq_getElem hb']
        exact List.pairwise_iff_getElem.mp hy a b (by omega) (by omega) hlt
    intro a b hab hb
    unfold mid
    have := g1 a b hab (by omega)
    have := g1 (a + 1) (b + 1) (by omega) (by omega)
    linarith
  have order : ∀ i, HasData ny g i → bottomOf ny g i ≤ topOf ny g i ∧ topOf ny g i < ny := by
    intro i hi
    have a := topOf_spec hi
    have b := bottomOf_spec hi
    refine ⟨?_, a.1⟩
    by_contra hc
    exact b.2.1 (a.2.2 _ (by omega) b.1)
  clear hne
  generalize dataCols nx ny g = cols at hmem
  induction cols with
  | nil => exact .nil
  | cons i cols ih =>
    simp only [heights, List.map_cons, List.zip_cons_cons]
    refine .cons ⟨rfl, ?_⟩ (ih (fun j hj => hmem j (List.mem_cons_of_mem _ hj)))
    obtain ⟨o1, o2⟩ := order i (hmem i List.mem_cons_self)
    have := mono _ _ o1 o2
    simp only [unlog, Frame2.free]
    split
    · exact Real.rpow_le_rpow_of_exponent_le (by norm_num) this
    · exact this

theorem plot_smooth (F : ℤ → ℤ → List ℝ → List ℝ) (kw : SgKw) (f : Frame2) (nx ny : Nat) (g : Grid) (hne : dataCols nx ny g ≠ []) :
    plotEdges F true kw f nx ny g =
      match savgol F kw.interp (oddWindow (kw.window.getD (((dataCols nx ny g).length / 10 : Nat) : ℤ))) (kw.order.getD 3) (heights f.ey (topOf ny g) (dataCols nx ny g)),
        savgol F kw.interp (oddWindow (((dataCols nx ny g).length / 10 : Nat) : ℤ)) 3 (heights f.ey (bottomOf ny g) (dataCols nx ny g)) with
      | .ok t, .ok l => (.ok (edgePoints f ((dataCols nx ny g).map (mid f.ex)) t, edgePoints f ((dataCols nx ny g).map (mid f.ex)) l), ⟨none, none, kw.interp⟩)
      | .error e, _ => (.error e, ⟨none, none, kw.interp⟩)
      | .ok _, .error e => (.error e, ⟨none, none, kw.interp⟩) := by
  simp only [plotEdges]
  rw [border_eq, if_neg hne]
  simp only []
  rw [oneEdge_eq]
  have len : ∀ c : Nat → Nat, (heights f.ey c (dataCols nx ny g)).length = (dataCols nx ny g).length := fun c => by simp [heights]
  simp only [smoothEdge, if_true, len]
  rcases savgol F kw.interp (oddWindow (kw.window.getD (((dataCols nx ny g).length / 10 : Nat) : ℤ))) (kw.order.getD 3) (heights f.ey (topOf ny g) (dataCols nx ny g)) with e | t
  · rfl
  · simp only [Except.map]
    rw [oneEdge_eq]
    simp only [smoothEdge, if_true, len, Option.getD_none]
    rcases savgol F kw.interp (oddWindow (((dataCols nx ny g).length / 10 : Nat) : ℤ)) 3 (heights f.ey (bottomOf ny g) (dataCols nx ny g)) with e | l <;> rfl

theorem odd_default (n : Nat) : oddWindow ((n / 10 : Nat) : ℤ) ≤ 3 ↔ n < 50 := by
  unfold oddWindow
  split <;> omega

/-- violated (the keywords of the caller): with fewer than 50 columns with data, smoothing raises ValueError whatever window and order are given -/
theorem C261_few_columns (F : ℤ → ℤ → List ℝ → List ℝ) (kw : SgKw) (f : Frame2) (nx ny : Nat) (g : Grid) (h : (dataCols nx ny g).length < 50) :
    ∃ kw', plotEdges F true kw f nx ny g = (.error .valueError, kw') := by
  by_cases hne : dataCols nx ny g = []
  · simp only [plotEdges]
    rw [border_eq, if_pos hne]
    exact ⟨kw, rfl⟩
  rw [plot_smooth F kw f nx ny g hne]
  have e2 : savgol F kw.interp (oddWindow (((dataCols nx ny g).length / 10 : Nat) : ℤ)) 3 (heights f.ey (bottomOf ny g) (dataCols nx ny g)) = .error .valueError := by
    unfold savgol; rw [if_pos ((odd_default _).mpr h)]
  rw [e2]
  rcases h1 : savgol F kw.interp (oddWindow (kw.window.getD (((dataCols nx ny g).length / 10 : Nat) : ℤ))) (kw.order.getD 3) (heights f.ey (topOf ny g) (dataCols nx ny g)) with e | t
  · unfold savgol at h1
    split at h1
    · cases h1; exact ⟨_, rfl⟩
    · split at h1
      · cases h1; exact ⟨_, rfl⟩
      · cases h1
  · exact ⟨_, rfl⟩

/-- with the default options smoothing succeeds iff at least 50 columns have data -/
theorem C261_default (F : ℤ → ℤ → List ℝ → List ℝ) (interp : Bool) (f : Frame2) (nx ny : Nat) (g : Grid) :
    (∃ c kw', plotEdges F true ⟨none, none, interp⟩ f nx ny g = (.ok c, kw')) ↔ 50 ≤ (dataCols nx ny g).length := by
  constructor
  · rintro ⟨c, kw', h⟩
    by_contra hc
    obtain ⟨k, hk⟩ := C261_few_columns F ⟨none, none, interp⟩ f nx ny g (by omega)
    rw [hk] at h; simp at h
  · intro h
    rw [plot_smooth F _ f nx ny g (by intro h0; rw [h0] at h; simp at h)]
    have ok : ∀ c : Nat → Nat, savgol F interp (oddWindow (((dataCols nx ny g).length / 10 : Nat) : ℤ)) 3 (heights f.ey c (dataCols nx ny g)) =
        .ok (F (oddWindow (((dataCols nx ny g).length / 10 : Nat) : ℤ)) 3 (heights f.ey c (dataCols nx ny g))) := by
      intro c
      unfold savgol
      rw [if_neg (by rw [odd_default]; omega), if_neg]
      rintro ⟨-, hl⟩
      have hlen : (heights f.ey c (dataCols nx ny g)).length = (dataCols nx ny g).length := by simp [heights]
      rw [hlen] at hl
      unfold oddWindow at hl
      split at hl <;> omega
    simp only [Option.getD_none, ok]
    exact ⟨_, _, rfl⟩

/-- violated (both borders smoothed alike): a given window and order smooth the top border only; the bottom border is smoothed with the defaults, and the dictionary
comes back without them, so that a second call with it is a call with the defaults -/
theorem C261_consumed (F : ℤ → ℤ → List ℝ → List ℝ) (w k : ℤ) (interp : Bool) (f : Frame2) (nx ny : Nat) (g : Grid)
    (hn : 50 ≤ (dataCols nx ny g).length) (hw : w % 2 = 1) (hk : k < w) (hl : w ≤ (dataCols nx ny g).length) :
    (∃ t l, plotEdges F true ⟨some w, some k, interp⟩ f nx ny g = (.ok (t, l), ⟨none, none, interp⟩) ∧
      t = edgePoints f ((dataCols nx ny g).map (mid f.ex)) (F w k (heights f.ey (topOf ny g) (dataCols nx ny g))) ∧
      ∃ t', plotEdges F true ⟨none, none, interp⟩ f nx ny g = (.ok (t', l), ⟨none, none, interp⟩)) := by
  have hne : dataCols nx ny g ≠ [] := by intro h0; rw [h0] at hn; simp at hn
  have len : ∀ c : Nat → Nat, (heights f.ey c (dataCols nx ny g)).length = (dataCols nx ny g).length := fun c => by simp [heights]
  have ok : ∀ c : Nat → Nat, savgol F interp (oddWindow (((dataCols nx ny g).length / 10 : Nat) : ℤ)) 3 (heights f.ey c (dataCols nx ny g)) =
      .ok (F (oddWindow (((dataCols nx ny g).length / 10 : Nat) : ℤ)) 3 (heights f.ey c (dataCols nx ny g))) := by
    intro c
    unfold savgol
    rw [if_neg (by rw [odd_default]; omega), if_neg]
    rintro ⟨-, hl⟩
    rw [len] at hl
    unfold oddWindow at hl
    split at hl <;> omega
  have top : savgol F interp (oddWindow w) k (heights f.ey (topOf ny g) (dataCols nx ny g)) = .ok (F w k (heights f.ey (topOf ny g) (dataCols nx ny g))) := by
    have : oddWindow w = w := by unfold oddWindow; rw [if_neg (by omega)]
    unfold savgol
    rw [this, if_neg (by omega), if_neg]
    rintro ⟨-, hl⟩
    rw [len] at hl
    omega
  rw [plot_smooth F _ f nx ny g hne, plot_smooth F _ f nx ny g hne]
  simp only [Option.getD_some, Option.getD_none, ok, top]
  exact ⟨_, _, rfl, rfl, _, rfl⟩

/-- so in a histogram of one row, whose borders coincide, they are drawn apart, by a filter that differs in its window -/
theorem C261_apart : ∃ (F : ℤ → ℤ → List ℝ → List ℝ) (f : Frame2) (nx ny : Nat) (g : Grid) (t l : List (ℝ × ℝ)) (kw : SgKw),
    (∀ i < nx, ∀ j, TopCell ny g i j ↔ BottomCell ny g i j) ∧ (∀ w k y, (F w k y).length = y.length) ∧
    plotEdges F true ⟨some 7, some 2, true⟩ f nx ny g = (.ok (t, l), kw) ∧ t ≠ l := by
  have hcols : dataCols 50 1 (fun _ _ => Fl.fin 1) = List.range 50 := by
    unfold dataCols
    rw [List.filter_eq_self]
    intro i _
    exact decide_eq_true ⟨0, by norm_num, by simp [Fl.isNaN]⟩
  obtain ⟨t, l, h1, h2, t', h3⟩ := C261_consumed (fun w _ y => y.map (fun v => v + w)) 7 2 true
    ⟨[], [], false, false, none, none, none, none⟩ 50 1 (fun _ _ => Fl.fin 1) (by rw [hcols]; simp) (by norm_num) (by norm_num) (by rw [hcols]; simp)
  refine ⟨_, _, 50, 1, _, t, l, _, ?_, fun w k y => by simp, h1, ?_⟩
  · intro i _ j
    simp only [TopCell, BottomCell, Fl.isNaN]
    constructor
    · rintro ⟨a, b, -⟩; exact ⟨a, b, fun j' hj => by omega⟩
    · rintro ⟨a, b, -⟩; exact ⟨a, b, fun j' hj hj' => by omega⟩
  · rw [plot_smooth _ _ _ _ _ _ (by rw [hcols]; simp)] at h1
    simp only [savgol, hcols, heights, oddWindow, List.length_map, List.length_range, Option.getD_some] at h1
    norm_num at h1
    obtain ⟨rfl, rfl⟩ := h1
    intro hc
    have := congrArg List.head? hc
    have fr : ∀ xs ys : List ℝ, edgePoints ⟨[], [], false, false, none, none, none, none⟩ xs ys = (xs.map (unlog false)).zip (ys.map (unlog false)) :=
      fun xs ys => free_points ⟨[], [], false, false, none, none, none, none⟩ xs ys
    rw [fr, fr] at this
    simp [unlog, mid, List.range_succ_eq_map (n := 49)] at this

end Hist
end SW
