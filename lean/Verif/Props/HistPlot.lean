import Verif.HistPlot
import Verif.Props.Hist2
import Mathlib.Analysis.SpecialFunctions.Log.Base

/-!
# Properties C182 - C184: binning argument, projection to one axis, drawn geometry
-/

namespace SW
namespace Hist

noncomputable section
open Classical

/-! ### C182: the binning argument -/

/-- the numbers of a sequence, read as edges -/
def numbers : List BinItem → Option (List ℝ)
  | [] => some []
  | .int n :: l => (numbers l).map ((n : ℝ) :: ·)
  | .float r :: l => (numbers l).map (r :: ·)
  | .edges _ :: _ => none

theorem seqEdges_eq (l : List BinItem) : seqEdges l = match numbers l with | some e => .ok e | none => .error .valueError := by
  induction l with
  | nil => rfl
  | cons a l ih =>
    cases a with
    | int n =>
      simp only [seqEdges, numbers, ih]
      cases numbers l <;> rfl
    | float r =>
      simp only [seqEdges, numbers, ih]
      cases numbers l <;> rfl
    | edges e => rfl

/-- C182: one positive number means that many bins on every axis, a smaller one ValueError; a sequence of edges whose length differs from
the number of axes gives every axis these edges; one entry per axis gives each axis its own -/
theorem C182_axes (k : Nat) :
    (∀ n : ℤ, 1 ≤ n → axisSpecs k (.int n) = .ok (List.replicate k (.num n.toNat))) ∧
    (∀ n : ℤ, n < 1 → axisSpecs k (.int n) = .error .valueError) ∧
    (∀ l e, l.length ≠ k → numbers l = some e → axisSpecs k (.seq l) = .ok (List.replicate k (.edges e))) ∧
    (∀ l, l.length ≠ k → numbers l = none → axisSpecs k (.seq l) = .error .valueError) ∧
    (∀ es : List (List ℝ), es.length = k → axisSpecs k (.seq (es.map .edges)) = .ok (es.map .edges)) ∧
    (∀ ns : List ℤ, ns.length = k → (∀ n ∈ ns, 1 ≤ n) → axisSpecs k (.seq (ns.map .int)) = .ok (ns.map (fun n => .num n.toNat))) := by
  refine ⟨?_, ?_, ?_, ?_, ?_, ?_⟩
  · intro n hn; simp only [axisSpecs, itemSpec]; rw [if_neg (by omega)]; rfl
  · intro n hn; simp only [axisSpecs, itemSpec]; rw [if_pos hn]; rfl
  · intro l e hl he; simp only [axisSpecs]; rw [if_pos hl, seqEdges_eq, he]; rfl
  · intro l hl he; simp only [axisSpecs]; rw [if_pos hl, seqEdges_eq, he]; rfl
  · intro es hl
    simp only [axisSpecs]; rw [if_neg (by simp [hl])]
    clear hl
    induction es with
    | nil => rfl
    | cons e es ih => simp only [List.map_cons, List.mapM_cons, ih]; rfl
  · intro ns hl hn
    simp only [axisSpecs]; rw [if_neg (by simp [hl])]
    clear hl
    induction ns with
    | nil => rfl
    | cons n ns ih =>
      simp only [List.map_cons, List.mapM_cons, ih (fun m hm => hn m (by simp [hm])), itemSpec]
      rw [if_neg (by have := hn n (by simp); omega)]; rfl

/-- C182 (violated): a sequence is not always edges. In two dimensions two edges (a single bin) are taken for numbers of bins: TypeError if
they are floats, ValueError if the first integer is below one, else a grid of that many bins; in one dimension the single number in a
sequence is a number of bins -/
theorem C182_two_edges (rnd : ℝ → ℝ) (xs ys : List Fl) :
    (∀ a b : ℝ, calcAll rnd (.seq [.float a, .float b]) [xs, ys] = .error .typeError) ∧
    (∀ a b : ℤ, a < 1 → calcAll rnd (.seq [.int a, .int b]) [xs, ys] = .error .valueError) ∧
    (∀ a b : ℤ, 1 ≤ a → a < b → ∀ ex ey, calcEdges rnd (.num a.toNat) xs = .ok ex → calcEdges rnd (.num b.toNat) ys = .ok ey →
      calcAll rnd (.seq [.int a, .int b]) [xs, ys] = .ok [ex, ey]) ∧
    (∀ n : ℤ, calcAll rnd (.seq [.int n]) [xs] = calcAll rnd (.int n) [xs]) := by
  refine ⟨fun a b => rfl, ?_, ?_, ?_⟩
  · intro a b ha
    have : axisSpecs 2 (.seq [.int a, .int b]) = .error .valueError := by
      simp only [axisSpecs]; rw [if_neg (by simp)]
      simp only [List.mapM_cons, itemSpec]; rw [if_pos ha]; rfl
    unfold calcAll
    rw [show [xs, ys].length = 2 from rfl, this]; rfl
  · intro a b ha hb ex ey h1 h2
    have := (C182_axes 2).2.2.2.2.2 [a, b] rfl (by intro n hn; simp at hn; rcases hn with rfl | rfl <;> omega)
    unfold calcAll
    rw [show [xs, ys].length = 2 from rfl]
    simp only [List.map_cons, List.map_nil] at this
    rw [this]
    show ([(BinSpec.num a.toNat, xs), (BinSpec.num b.toNat, ys)].mapM (fun p => calcEdges rnd p.1 p.2)) = _
    simp only [List.mapM_cons, List.mapM_nil, h1, h2]; rfl
  · intro n
    unfold calcAll axisSpecs
    simp only [List.length_cons, List.length_nil, ne_eq, not_true_eq_false, if_false, List.mapM_cons, List.mapM_nil]
    cases itemSpec (.int n) <;> rfl

/-- C182: with one entry per axis every axis has the edges its entry gives with its own data -/
theorem C182_own (rnd : ℝ → ℝ) (xs ys : List Fl) (ex ey : List ℝ) (hx : ex.Pairwise (· < ·)) (hy : ey.Pairwise (· < ·))
    (hdx : (ivls (ex.map rnd)).Nodup) (hdy : (ivls (ey.map rnd)).Nodup) :
    calcAll rnd (.seq [.edges ex, .edges ey]) [xs, ys] = .ok [ex.map rnd, ey.map rnd] ∧
    (∀ l, numbers l = some ex → l.length ≠ 2 → calcAll rnd (.seq l) [xs, ys] = .ok [ex.map rnd, ex.map rnd]) := by
  have h1 := (C73_explicit_edges rnd ex xs).2.2.1 hx hdx
  have h2 := (C73_explicit_edges rnd ey ys).2.2.1 hy hdy
  have h3 := (C73_explicit_edges rnd ex ys).2.2.1 hx hdx
  constructor
  · show ([(BinSpec.edges ex, xs), (BinSpec.edges ey, ys)].mapM (fun p => calcEdges rnd p.1 p.2)) = _
    simp only [List.mapM_cons, List.mapM_nil, h1, h2]; rfl
  · intro l hl hlen
    unfold calcAll
    rw [show [xs, ys].length = 2 from rfl, (C182_axes 2).2.2.1 l ex hlen hl]
    show ([(BinSpec.edges ex, xs), (BinSpec.edges ex, ys)].mapM (fun p => calcEdges rnd p.1 p.2)) = _
    simp only [List.mapM_cons, List.mapM_nil, h1, h3]; rfl

/-- non-vacuity -/
example : numbers [.float 0, .int 1, .float 2] = some [0, 1, 2] ∧ [BinItem.float 0, .int 1, .float 2].length ≠ 2 ∧
    ([0, 1, 2] : List ℝ).Pairwise (· < ·) ∧ (ivls (([0, 1, 2] : List ℝ).map id)).Nodup := by
  refine ⟨by simp [numbers], by simp, by norm_num, ?_⟩
  norm_num [ivls]

/-! ### C183: projection -/

theorem log10abs_pow10 (v : Fl) : log10abs (pow10 v) = v := by
  have hl : 0 < Real.log 10 := Real.log_pos (by norm_num)
  cases v with
  | nan => rfl
  | pinf =>
    show (Fl.pinf / Fl.fin (Real.log 10)) = .pinf
    show (if Real.log 10 < 0 then _ else _) = _
    rw [if_neg (by linarith)]
  | ninf =>
    unfold log10abs
    have e1 : Fl.log (Fl.abs (.fin 0)) = .ninf := by
      show Fl.log (.fin |0|) = _
      rw [abs_zero]
      show (if (0 : ℝ) < 0 then _ else if (0 : ℝ) = 0 then _ else _) = _
      simp
    show Fl.log (Fl.abs (.fin 0)) / _ = _
    rw [e1]
    show (if Real.log 10 < 0 then _ else _) = _
    rw [if_neg (by linarith)]
  | fin a =>
    have hp : (0 : ℝ) < 10 ^ a := Real.rpow_pos_of_pos (by norm_num) _
    show Fl.log (.fin |(10 : ℝ) ^ a|) / _ = _
    rw [abs_of_pos hp, Fl.log_fin _ hp, Fl.fin_div _ _ hl.ne', Real.log_rpow (by norm_num)]
    congr 1; field_simp

theorem projX_eq (h : H2) (a : Ax) (r : Fl × Fl × Fl) : projX h a r = H2.coord a r := by
  unfold projX; split
  · exact log10abs_pow10 _
  · rfl

/-- the bin of a row along an axis -/
def binOf (h : H2) (a : Ax) (r : Fl × Fl × Fl) : Option Nat := cutIdx (h.edges a) (H2.coord a r)

/-- strictly ascending edges unchanged by rounding -/
def GoodEdges (rnd : ℝ → ℝ) (e : List ℝ) : Prop := e.Pairwise (· < ·) ∧ ∀ t ∈ e, rnd t = t

theorem ivls_nodup {e : List ℝ} (h : e.Pairwise (· < ·)) : (ivls e).Nodup := by
  have : (ivls e).map Prod.fst <+: e := by
    unfold ivls
    have hg : ∀ l m : List ℝ, (l.zip m).map Prod.fst <+: l := by
      intro l
      induction l with
      | nil => intro m; simp
      | cons a l ih =>
        intro m
        cases m with
        | nil => simp
        | cons b m => simpa using ih m
    exact hg _ _
  have hn : ((ivls e).map Prod.fst).Nodup := (List.Nodup.sublist this.sublist (h.imp (fun h => ne_of_lt h)))
  exact List.Nodup.of_map _ hn

theorem goodEdges_calc {rnd : ℝ → ℝ} {e : List ℝ} (h : GoodEdges rnd e) (xs : List Fl) : calcEdges rnd (.edges e) xs = .ok e := by
  have hm : e.map rnd = e := by conv_rhs => rw [← List.map_id e]
                                exact List.map_congr_left (fun t ht => h.2 t ht)
  have := (C73_explicit_edges rnd e xs).2.2.1 h.1 (by rw [hm]; exact ivls_nodup h.1)
  rw [this, hm]

/-- the rows used -/
def usedRows (h : H2) : Option (List Bool) → List (Fl × Fl × Fl)
  | none => h.rows
  | some m => ((h.rows.zip m).filter (fun (p : (Fl × Fl × Fl) × Bool) => p.2)).map Prod.fst

theorem dedup_const (l : List Fl) (c : Fl) (h : ∀ v ∈ l, v = c) (hl : l ≠ []) : l.dedup.length = 1 := by
  have : l.dedup = [c] := by
    apply List.perm_singleton.mp
    rw [List.perm_ext_iff_of_nodup (List.nodup_dedup l) (List.nodup_singleton c)]
    intro a
    simp only [List.mem_dedup, List.mem_singleton]
    constructor
    · exact h a
    · rintro rfl
      obtain ⟨v, hv⟩ := List.exists_mem_of_ne_nil _ hl
      exact h v hv ▸ hv
  rw [this]; rfl

theorem binVal_ones {κ : Type} (zs : List Fl) (hz : ∀ v ∈ zs, v = .fin 1) (cuts : List κ) (c0 c1 : Option ℝ) (k : κ) :
    binVal zs cuts none c0 c1 k = binVal zs cuts (some .count) c0 c1 k := by
  unfold binVal
  by_cases hg : grp zs cuts k = []
  · rw [if_pos hg, if_pos hg]
  · have hne : zs ≠ [] := by rintro rfl; exact hg (by simp [grp])
    have hf : zs.filter (fun v => decide (¬ v.isNaN)) = zs := by
      rw [List.filter_eq_self]; intro v hv; rw [hz v hv]; simp
    have : chooseFcn none zs = chooseFcn (some .count) zs := by
      unfold chooseFcn
      simp only []
      rw [if_pos (by rw [hf]; exact dedup_const zs _ hz hne)]
    rw [this]

/-- the projected counts -/
theorem project_counts (rnd : ℝ → ℝ) (h : H2) (a : Ax) (he : GoodEdges rnd (h.edges a)) (mark : Option (List Bool)) :
    ∃ c, project1d rnd h a true mark = .ok (h.edges a, c) ∧ c.length = (h.edges a).length - 1 ∧
      ∀ i < (h.edges a).length - 1, ∃ v, c[i]? = some v ∧
        rv v = ((usedRows h mark).countP (fun r => decide (binOf h a r = some i)) : ℕ) := by
  have hrows : projRows h a true mark = (usedRows h mark).map (fun r => (H2.coord a r, .fin 1)) := by
    unfold projRows usedRows
    cases mark <;> simp [projX_eq]
  unfold project1d
  simp only [hrows]
  rw [goodEdges_calc he]
  refine ⟨_, rfl, by simp, ?_⟩
  intro i hi
  rw [List.getElem?_map, List.getElem?_range hi]
  refine ⟨_, rfl, ?_⟩
  show rv (binVal _ _ none none none (some i)) = _
  rw [binVal_ones _ (by intro v hv; simp at hv; exact hv.2.symm), binVal_count, grp_eq]
  rw [List.map_map, List.map_map, List.zip_map', List.countP_map]
  congr 1
  apply List.countP_congr
  intro r _
  simp only [binOf, Function.comp_apply, Fl.isNaN, not_false_eq_true, and_true, true_and, decide_eq_true_eq]
  exact (@decide_eq_true_iff _ _).symm

/-- the cells displayed by a count histogram with limits -/
def shownVal (h : H2) (c0 c1 a0 a1 : Option ℝ) (k : Option Nat × Option Nat) : Fl :=
  alimMask a0 a1 (binVal (h.rows.map (fun r => r.2.2)) h.cuts none c0 c1 k)

theorem alimMask_nan (a0 a1 : Option ℝ) (v : Fl) : alimMask a0 a1 v = v ∨ alimMask a0 a1 v = .nan := by
  unfold alimMask; split
  · left; rfl
  · right; rfl

theorem alimMask_none (v : Fl) : alimMask none none v = v := by unfold alimMask; rw [if_pos (by simp)]

theorem shownVal_rv (h : H2) (hz : ∀ r ∈ h.rows, r.2.2 = .fin 1) (c0 c1 a0 a1 : Option ℝ) (k : Option Nat × Option Nat) :
    rv (shownVal h c0 c1 a0 a1 k) = if (shownVal h c0 c1 a0 a1 k).isNaN then 0 else (count (grp (h.rows.map (fun r => r.2.2)) h.cuts k) : ℝ) := by
  have hz' : ∀ v ∈ h.rows.map (fun r => r.2.2), v = .fin 1 := by
    intro v hv
    obtain ⟨r, hr, rfl⟩ := List.mem_map.mp hv
    exact hz r hr
  unfold shownVal
  rw [binVal_ones _ hz']
  rcases alimMask_nan a0 a1 (binVal (h.rows.map (fun r => r.2.2)) h.cuts (some .count) c0 c1 k) with e | e
  · rw [e]
    unfold binVal
    split
    · simp [Fl.isNaN]
    · split
      · show rv (.fin _) = _
        simp [Fl.isNaN, aggVal, chooseFcn]
      · simp [Fl.isNaN]
  · rw [e]; simp [Fl.isNaN]

/-- the sum of displayed cells counts the rows in displayed cells -/
theorem shown_sum (h : H2) (hz : ∀ r ∈ h.rows, r.2.2 = .fin 1) (c0 c1 a0 a1 : Option ℝ) (K : List (Option Nat × Option Nat)) (hK : K.Nodup) :
    Fl.sumSkip (K.map (shownVal h c0 c1 a0 a1)) =
      .fin ((h.rows.countP (fun r => decide ((cutIdx h.ex r.1, cutIdx h.ey r.2.1) ∈ K ∧
        ¬ (shownVal h c0 c1 a0 a1 (cutIdx h.ex r.1, cutIdx h.ey r.2.1)).isNaN)) : ℕ) : ℝ) := by
  have hmeas : ∀ k ∈ K, shownVal h c0 c1 a0 a1 k = .nan ∨ ∃ r, shownVal h c0 c1 a0 a1 k = .fin r := by
    intro k _
    unfold shownVal
    rcases alimMask_nan a0 a1 (binVal (h.rows.map (fun r => r.2.2)) h.cuts none c0 c1 k) with e | e
    · rw [e]; exact binVal_measured _ _ _ _ _ _
    · left; exact e
  rw [sumSkip_rv _ _ hmeas]
  have h1 := sum_counts (h.rows.map (fun r => r.2.2)) h.cuts (K.filter (fun k => decide (¬ (shownVal h c0 c1 a0 a1 k).isNaN))) (hK.filter _)
  have h2 : (K.map (fun k => rv (shownVal h c0 c1 a0 a1 k))).sum =
      (((K.filter (fun k => decide (¬ (shownVal h c0 c1 a0 a1 k).isNaN))).map (fun k => count (grp (h.rows.map (fun r => r.2.2)) h.cuts k))).sum : ℕ) := by
    clear h1 hmeas hK
    induction K with
    | nil => simp
    | cons k K ih =>
      rw [List.map_cons, List.sum_cons, ih, shownVal_rv h hz]
      by_cases hn : (shownVal h c0 c1 a0 a1 k).isNaN
      · simp [hn]
      · rw [List.filter_cons_of_pos (by simpa using hn)]
        simp [hn]
  rw [h2, h1]
  congr 2
  unfold H2.cuts
  rw [List.zip_map', List.countP_map]
  apply List.countP_congr
  intro r hr
  simp only [Function.comp_apply, decide_eq_true_eq, List.mem_filter]
  rw [hz r hr]
  simp [Fl.isNaN]

/-- the cells of one column / row -/
def line (h : H2) (a : Ax) (i : Nat) : List (Option Nat × Option Nat) :=
  match a with
  | .x => (List.range (h.ey.length - 1)).map (fun j => (some i, some j))
  | .y => (List.range (h.ex.length - 1)).map (fun j => (some j, some i))

theorem line_nodup (h : H2) (a : Ax) (i : Nat) : (line h a i).Nodup := by
  cases a
  · exact List.Nodup.map (by intro a b h; simpa using h) List.nodup_range
  · exact List.Nodup.map (by intro a b h; simpa using h) List.nodup_range

theorem cutIdx_lt : ∀ (e : List ℝ) (v : Fl) (i : Nat), cutIdx e v = some i → i < e.length - 1
  | [], _, _, h => by simp [cutIdx] at h
  | [_], _, _, h => by simp [cutIdx] at h
  | l :: r :: e, v, i, h => by
    unfold cutIdx at h
    split at h
    · simp only [Option.some.injEq] at h; subst h; simp
    · cases hc : cutIdx (r :: e) v with
      | none => rw [hc] at h; simp at h
      | some j =>
        rw [hc] at h
        simp only [Option.map_some, Option.some.injEq] at h
        have := cutIdx_lt (r :: e) v j hc
        simp only [List.length_cons] at this ⊢
        omega

theorem mem_line (h : H2) (a : Ax) (i : Nat) (r : Fl × Fl × Fl) :
    (cutIdx h.ex r.1, cutIdx h.ey r.2.1) ∈ line h a i ↔ binOf h a r = some i ∧ cutIdx h.ex r.1 ≠ none ∧ cutIdx h.ey r.2.1 ≠ none := by
  cases a
  · unfold line binOf H2.edges H2.coord
    simp only [List.mem_map, List.mem_range, Prod.mk.injEq]
    constructor
    · rintro ⟨j, hj, h1, h2⟩; exact ⟨h1.symm, by rw [← h1]; simp, by rw [← h2]; simp⟩
    · rintro ⟨h1, -, h3⟩
      obtain ⟨j, hj⟩ := Option.ne_none_iff_exists'.mp h3
      exact ⟨j, cutIdx_lt _ _ _ hj, h1.symm, hj.symm⟩
  · unfold line binOf H2.edges H2.coord
    simp only [List.mem_map, List.mem_range, Prod.mk.injEq]
    constructor
    · rintro ⟨j, hj, h1, h2⟩; exact ⟨h2.symm, by rw [← h1]; simp, by rw [← h2]; simp⟩
    · rintro ⟨h1, h2, -⟩
      obtain ⟨j, hj⟩ := Option.ne_none_iff_exists'.mp h2
      exact ⟨j, cutIdx_lt _ _ _ hj, hj.symm, h1.symm⟩

/-- `get_plotted_data_boolean_series` of the 2-D histogram -/
def marks (h : H2) (c0 c1 a0 a1 : Option ℝ) : List Bool :=
  plotted2 (h.ex.length - 1) (h.ey.length - 1) (fun i j => shownVal h c0 c1 a0 a1 (some i, some j)) h.cuts

/-- a row is marked: its column and its row show something -/
def Marked (h : H2) (c0 c1 a0 a1 : Option ℝ) (r : Fl × Fl × Fl) : Prop :=
  (∃ i, cutIdx h.ex r.1 = some i ∧ i < h.ex.length - 1 ∧ ∃ j', j' < h.ey.length - 1 ∧ ¬ (shownVal h c0 c1 a0 a1 (some i, some j')).isNaN) ∧
  (∃ j, cutIdx h.ey r.2.1 = some j ∧ j < h.ey.length - 1 ∧ ∃ i', i' < h.ex.length - 1 ∧ ¬ (shownVal h c0 c1 a0 a1 (some i', some j)).isNaN)

theorem countP_zip_map {α : Type} (l : List α) (f : α → Bool) (q : α → Bool) :
    (((l.zip (l.map f)).filter (fun (p : α × Bool) => p.2)).map Prod.fst).countP q = l.countP (fun a => f a && q a) := by
  induction l with
  | nil => rfl
  | cons a l ih =>
    simp only [List.map_cons, List.zip_cons_cons, List.countP_cons]
    by_cases hf : f a
    · rw [List.filter_cons_of_pos (by simpa using hf), List.map_cons, List.countP_cons, ih]; simp [hf]
    · rw [List.filter_cons_of_neg (by simpa using hf), ih]; simp [hf]

theorem used_marks (h : H2) (c0 c1 a0 a1 : Option ℝ) (q : (Fl × Fl × Fl) → Bool) :
    (usedRows h (some (marks h c0 c1 a0 a1))).countP q = h.rows.countP (fun r => decide (Marked h c0 c1 a0 a1 r ∧ q r = true)) := by
  have hm : marks h c0 c1 a0 a1 = h.rows.map (fun r => decide (Marked h c0 c1 a0 a1 r)) := by
    unfold marks plotted2 H2.cuts
    rw [List.map_map]
    apply List.map_congr_left
    intro r _
    unfold Marked
    simp only [Function.comp_apply, Bool.decide_and]
  unfold usedRows
  rw [hm, countP_zip_map]
  apply List.countP_congr
  intro r _
  simp

/-- C183: the projected counts of a count histogram without limits are the sums of its columns (rows): the marginal counts; missing cells
count as zero -/
theorem C183_marginal (rnd : ℝ → ℝ) (h : H2) (a : Ax) (he : GoodEdges rnd (h.edges a)) (hz : ∀ r ∈ h.rows, r.2.2 = .fin 1) :
    ∃ c, project1d rnd h a true (some (marks h none none none none)) = .ok (h.edges a, c) ∧ c.length = (h.edges a).length - 1 ∧
      ∀ i < (h.edges a).length - 1, ∃ v, c[i]? = some v ∧ .fin (rv v) = Fl.sumSkip ((line h a i).map (shownVal h none none none none)) := by
  obtain ⟨c, h1, h2, h3⟩ := project_counts rnd h a he (some (marks h none none none none))
  refine ⟨c, h1, h2, fun i hi => ?_⟩
  obtain ⟨v, hv, hv2⟩ := h3 i hi
  refine ⟨v, hv, ?_⟩
  rw [hv2, shown_sum h hz _ _ _ _ _ (line_nodup h a i), used_marks]
  congr 2
  apply List.countP_congr
  intro r hr
  simp only [decide_eq_true_eq, mem_line]
  -- without limits the cell of a row is shown
  have hsh : ¬ (shownVal h none none none none (cutIdx h.ex r.1, cutIdx h.ey r.2.1)).isNaN := by
    unfold shownVal
    rw [binVal_ones _ (by intro v hv; obtain ⟨r', hr', rfl⟩ := List.mem_map.mp hv; exact hz r' hr')]
    have hg : grp (h.rows.map (fun r => r.2.2)) h.cuts (cutIdx h.ex r.1, cutIdx h.ey r.2.1) ≠ [] := by
      have : r.2.2 ∈ grp (h.rows.map (fun r => r.2.2)) h.cuts (cutIdx h.ex r.1, cutIdx h.ey r.2.1) := by
        unfold grp H2.cuts
        rw [List.zip_map', List.mem_map]
        exact ⟨(r.2.2, (cutIdx h.ex r.1, cutIdx h.ey r.2.1)), by
          rw [List.mem_filter]; exact ⟨List.mem_map.mpr ⟨r, hr, rfl⟩, by simp⟩, rfl⟩
      intro h0; rw [h0] at this; simp at this
    unfold binVal
    rw [if_neg hg, if_pos (by simp [climKeep])]
    simp [alimMask, aggVal, chooseFcn, Fl.isNaN]
  constructor
  · rintro ⟨⟨⟨i', e1, _⟩, ⟨j', e2, _⟩⟩, hb⟩
    exact ⟨⟨hb, by rw [e1]; simp, by rw [e2]; simp⟩, hsh⟩
  · rintro ⟨⟨hb, e1, e2⟩, _⟩
    obtain ⟨i', hi'⟩ := Option.ne_none_iff_exists'.mp e1
    obtain ⟨j', hj'⟩ := Option.ne_none_iff_exists'.mp e2
    have hsh' : ¬ (shownVal h none none none none (some i', some j')).isNaN := by rw [← hi', ← hj']; exact hsh
    exact ⟨⟨⟨i', hi', cutIdx_lt _ _ _ hi', j', cutIdx_lt _ _ _ hj', hsh'⟩, ⟨j', hj', cutIdx_lt _ _ _ hj', i', cutIdx_lt _ _ _ hi', hsh'⟩⟩, hb⟩

/-- C183 (violated): with limits on the counts or values the projection shows more than the plot: a datum in a hidden cell is counted as
soon as its column and its row show anything, so the projected count exceeds the sum of the displayed cells -/
theorem C183_hidden (rnd : ℝ → ℝ) (h : H2) (a : Ax) (he : GoodEdges rnd (h.edges a)) (hz : ∀ r ∈ h.rows, r.2.2 = .fin 1) (c0 c1 a0 a1 : Option ℝ)
    (r0 : Fl × Fl × Fl) (hr0 : r0 ∈ h.rows) (i j : Nat) (hi : cutIdx h.ex r0.1 = some i) (hj : cutIdx h.ey r0.2.1 = some j)
    (hhid : shownVal h c0 c1 a0 a1 (some i, some j) = .nan)
    (hcol : ∃ j' < h.ey.length - 1, ¬ (shownVal h c0 c1 a0 a1 (some i, some j')).isNaN)
    (hrow : ∃ i' < h.ex.length - 1, ¬ (shownVal h c0 c1 a0 a1 (some i', some j)).isNaN) :
    ∃ c k v s, project1d rnd h a true (some (marks h c0 c1 a0 a1)) = .ok (h.edges a, c) ∧ binOf h a r0 = some k ∧ c[k]? = some v ∧
      Fl.sumSkip ((line h a k).map (shownVal h c0 c1 a0 a1)) = .fin s ∧ s < rv v := by
  obtain ⟨c, h1, h2, h3⟩ := project_counts rnd h a he (some (marks h c0 c1 a0 a1))
  obtain ⟨k, hk⟩ : ∃ k, binOf h a r0 = some k := by cases a; exacts [⟨i, hi⟩, ⟨j, hj⟩]
  obtain ⟨v, hv, hv2⟩ := h3 k (cutIdx_lt _ _ _ hk)
  refine ⟨c, k, v, _, h1, hk, hv, shown_sum h hz _ _ _ _ _ (line_nodup h a k), ?_⟩
  rw [hv2, used_marks]
  norm_cast
  -- every counted row is marked, and `r0` in addition
  have hmono : ∀ l : List (Fl × Fl × Fl), (∀ r ∈ l, r ∈ h.rows) → r0 ∈ l →
      l.countP (fun r => decide ((cutIdx h.ex r.1, cutIdx h.ey r.2.1) ∈ line h a k ∧ ¬ (shownVal h c0 c1 a0 a1 (cutIdx h.ex r.1, cutIdx h.ey r.2.1)).isNaN)) <
      l.countP (fun r => decide (Marked h c0 c1 a0 a1 r ∧ binOf h a r = some k)) := by
    have himp : ∀ r : Fl × Fl × Fl, ((cutIdx h.ex r.1, cutIdx h.ey r.2.1) ∈ line h a k ∧ ¬ (shownVal h c0 c1 a0 a1 (cutIdx h.ex r.1, cutIdx h.ey r.2.1)).isNaN) →
        Marked h c0 c1 a0 a1 r ∧ binOf h a r = some k := by
      rintro r ⟨hm, hs⟩
      obtain ⟨hb, e1, e2⟩ := (mem_line h a k r).mp hm
      obtain ⟨i', hi'⟩ := Option.ne_none_iff_exists'.mp e1
      obtain ⟨j', hj'⟩ := Option.ne_none_iff_exists'.mp e2
      rw [hi', hj'] at hs
      exact ⟨⟨⟨i', hi', cutIdx_lt _ _ _ hi', j', cutIdx_lt _ _ _ hj', hs⟩, ⟨j', hj', cutIdx_lt _ _ _ hj', i', cutIdx_lt _ _ _ hi', hs⟩⟩, hb⟩
    intro l
    induction l with
    | nil => intro _ h0; simp at h0
    | cons r l ih =>
      intro hl h0
      rw [List.countP_cons, List.countP_cons]
      by_cases hr : r0 = r
      · subst hr
        have hn : ¬ ((cutIdx h.ex r0.1, cutIdx h.ey r0.2.1) ∈ line h a k ∧ ¬ (shownVal h c0 c1 a0 a1 (cutIdx h.ex r0.1, cutIdx h.ey r0.2.1)).isNaN) := by
          rintro ⟨-, hs⟩; rw [hi, hj, hhid] at hs; exact hs (by simp [Fl.isNaN])
        have hy : Marked h c0 c1 a0 a1 r0 ∧ binOf h a r0 = some k := by
          obtain ⟨j', hj', hs1⟩ := hcol
          obtain ⟨i', hi', hs2⟩ := hrow
          exact ⟨⟨⟨i, hi, cutIdx_lt _ _ _ hi, j', hj', hs1⟩, ⟨j, hj, cutIdx_lt _ _ _ hj, i', hi', hs2⟩⟩, hk⟩
        have hle : l.countP (fun r => decide ((cutIdx h.ex r.1, cutIdx h.ey r.2.1) ∈ line h a k ∧ ¬ (shownVal h c0 c1 a0 a1 (cutIdx h.ex r.1, cutIdx h.ey r.2.1)).isNaN)) ≤
            l.countP (fun r => decide (Marked h c0 c1 a0 a1 r ∧ binOf h a r = some k)) :=
          List.countP_mono_left (fun r _ hr => by simpa using himp r (by simpa using hr))
        rw [if_neg (by simpa using hn), if_pos (by simpa using hy)]
        omega
      · have h0' : r0 ∈ l := by
          rcases List.mem_cons.mp h0 with h' | h'
          · exact absurd h' hr
          · exact h'
        have := ih (fun r hr => hl r (by simp [hr])) h0'
        by_cases hq : ((cutIdx h.ex r.1, cutIdx h.ey r.2.1) ∈ line h a k ∧ ¬ (shownVal h c0 c1 a0 a1 (cutIdx h.ex r.1, cutIdx h.ey r.2.1)).isNaN)
        · rw [if_pos (by simpa using hq), if_pos (by simpa using himp r hq)]; omega
        · rw [if_neg (by simpa using hq)]; omega
  simpa only [decide_eq_true_eq] using hmono h.rows (fun r hr => hr) hr0

/-- C183 (violated): the dependent values differ in kind between the axes. Projecting onto x gives the y values inside the binned range, as
measured; projecting onto y gives log10 of the x values on a logarithmic axis, inside the binned range or not. (Unless z takes two values:
then z is projected.) -/
theorem C183_dependent (h : H2) (x y : ℝ) (z : Fl) (hx : 0 < x) (hy : 0 < y)
    (hz : (h.rows.map (fun r => r.2.2)).dedup.length < 2) (hlx : h.logx = true) (hly : h.logy = true) (e0 e1 : ℝ) (he0 : h.ey.head? = some e0)
    (he1 : h.ey.getLast? = some e1) :
    ((10 : ℝ) ^ e0 ≤ y → y ≤ 10 ^ e1 → projY h .x (stored h.logx (.fin x), stored h.logy (.fin y), z) = .fin y) ∧
    (¬ ((10 : ℝ) ^ e0 ≤ y ∧ y ≤ 10 ^ e1) → projY h .x (stored h.logx (.fin x), stored h.logy (.fin y), z) = .nan) ∧
    projY h .y (stored h.logx (.fin x), stored h.logy (.fin y), z) = .fin (Real.logb 10 x) := by
  have hst : ∀ t : ℝ, 0 < t → stored true (.fin t) = .fin (Real.logb 10 t) := by
    intro t ht
    have hl : 0 < Real.log 10 := Real.log_pos (by norm_num)
    show Fl.log (.fin |t|) / _ = _
    rw [abs_of_pos ht, Fl.log_fin _ ht, Fl.fin_div _ _ hl.ne']; rfl
  have hh : h.ey.headD 0 = e0 := by
    rw [List.headD_eq_head?_getD, he0]; rfl
  have hl : h.ey.getLastD 0 = e1 := by
    rw [List.getLastD_eq_getLast?, he1]; rfl
  have hle : ∀ e : ℝ, e ≤ Real.logb 10 y ↔ (10 : ℝ) ^ e ≤ y := fun e => Real.le_logb_iff_rpow_le (by norm_num) hy
  have hge : ∀ e : ℝ, Real.logb 10 y ≤ e ↔ y ≤ (10 : ℝ) ^ e := fun e => Real.logb_le_iff_le_rpow (by norm_num) hy
  have hcond : (Fl.le (.fin (h.ey.headD 0)) (.fin (Real.logb 10 y)) ∧ Fl.le (.fin (Real.logb 10 y)) (.fin (h.ey.getLastD 0))) ↔ ((10 : ℝ) ^ e0 ≤ y ∧ y ≤ 10 ^ e1) := by
    rw [hh, hl, Fl.le_fin, Fl.le_fin, hle, hge]
  refine ⟨fun h1 h2 => ?_, fun hn => ?_, ?_⟩
  · unfold projY
    rw [if_neg (by omega), hlx, hly, hst x hx, hst y hy]
    simp only [if_true]
    rw [if_pos (hcond.mpr ⟨h1, h2⟩)]
    show Fl.fin ((10 : ℝ) ^ Real.logb 10 y) = _
    rw [Real.rpow_logb (by norm_num) (by norm_num) hy]
  · unfold projY
    rw [if_neg (by omega), hlx, hly, hst x hx, hst y hy]
    simp only [if_true]
    rw [if_neg (fun hc => hn (hcond.mp hc))]; rfl
  · unfold projY
    rw [if_neg (by omega), hlx, hst x hx]

/-- C183: the bins of the projection are those of the axis, the rows are the marked ones, and the axis must be x or y -/
theorem C183_axis (s : String) : (projAxis s = .ok .x ↔ s.toLower = "x") ∧ (projAxis s = .ok .y ↔ s.toLower = "y") ∧
    (projAxis s = .error .assertionError ↔ s.toLower ≠ "x" ∧ s.toLower ≠ "y") := by
  unfold projAxis
  by_cases h1 : s.toLower = "x"
  · simp [h1]
  · by_cases h2 : s.toLower = "y"
    · simp [h2]
    · simp [h1, h2]

/-- non-vacuity: five data with a lower count limit of two; the single datum of cell (0,1) is hidden, its column and row are not empty -/
example : ∃ (h : H2) (r0 : Fl × Fl × Fl) (c0 : Option ℝ), r0 ∈ h.rows ∧ (∀ r ∈ h.rows, r.2.2 = .fin 1) ∧ GoodEdges id (h.edges .x) ∧
    cutIdx h.ex r0.1 = some 0 ∧ cutIdx h.ey r0.2.1 = some 1 ∧ shownVal h c0 none none none (some 0, some 1) = .nan ∧
    (∃ j' < h.ey.length - 1, ¬ (shownVal h c0 none none none (some 0, some j')).isNaN) ∧
    (∃ i' < h.ex.length - 1, ¬ (shownVal h c0 none none none (some i', some 1)).isNaN) := by
  let h0 : H2 := ⟨[(.fin 0.5, .fin 0.5, .fin 1), (.fin 0.5, .fin 0.5, .fin 1), (.fin 0.5, .fin 1.5, .fin 1), (.fin 1.5, .fin 1.5, .fin 1),
    (.fin 1.5, .fin 1.5, .fin 1)], [0, 1, 2], [0, 1, 2], false, false⟩
  have hc : h0.cuts = [(some 0, some 0), (some 0, some 0), (some 0, some 1), (some 1, some 1), (some 1, some 1)] := by
    norm_num [h0, H2.cuts, cutIdx, inIvl, Fl.le_fin, Fl.lt_fin]
  have hr : h0.rows.map (fun r => r.2.2) = [.fin 1, .fin 1, .fin 1, .fin 1, .fin 1] := rfl
  refine ⟨h0, (.fin 0.5, .fin 1.5, .fin 1), some 2, by simp [h0], by simp [h0], ⟨by norm_num [h0, H2.edges], by simp⟩,
    by norm_num [h0, cutIdx, inIvl, Fl.le_fin, Fl.lt_fin], by norm_num [h0, cutIdx, inIvl, Fl.le_fin, Fl.lt_fin], ?_, ⟨0, by simp [h0], ?_⟩, ⟨1, by simp [h0], ?_⟩⟩ <;>
  · unfold shownVal
    rw [hc, hr, binVal_ones _ (by simp)]
    simp only [alimMask_none]
    have hcl : ∀ q : ℝ, (∀ b ∈ (none : Option ℝ), q ≤ b) := by intro q b hb; cases hb
    simp only [binVal, climKeep, hcl, and_true]
    norm_num [grp, count, aggVal, chooseFcn, Fl.isNaN]
    try rw [if_neg (by simp)]
    try simp

/-! ### C184: what is drawn -/

/-- C184: the drawn rectangle of a bin holds exactly the data counted in it: lower edge excluded, upper edge included; on a logarithmic axis
in terms of the modulus, zero being in no bin -/
theorem C184_rectangle (e : List ℝ) (he : e.Pairwise (· < ·)) (log : Bool) (t : ℝ) (i : Nat) :
    cutIdx e (stored log (.fin t)) = some i ↔
      ∃ l r, (drawnEdges log e)[i]? = some l ∧ (drawnEdges log e)[i + 1]? = some r ∧ (log = false → l < t ∧ t ≤ r) ∧
        (log = true → l < |t| ∧ |t| ≤ r) := by
  have hle := he.imp (fun {a b} (h : a < b) => h.le)
  unfold drawnEdges
  simp only [List.getElem?_map]
  cases log with
  | false =>
    rw [show stored false (.fin t) = .fin t from rfl, cutIdx_iff e hle]
    unfold InBin
    simp
  | true =>
    by_cases ht : t = 0
    · subst ht
      have h0 : stored true (.fin 0) = .ninf := by
        have := log10abs_pow10 .ninf
        simpa [pow10, stored] using this
      rw [h0, cutIdx_nonfinite e _ (by simp [Fl.isFinite])]
      simp only [reduceCtorEq, false_iff, abs_zero]
      rintro ⟨l, r, h1, -, -, h2⟩
      cases hq : e[i]? with
      | none => rw [hq] at h1; simp at h1
      | some q =>
        rw [hq] at h1
        simp only [Option.map_some, if_true, Option.some.injEq] at h1
        have : (0 : ℝ) < 10 ^ q := Real.rpow_pos_of_pos (by norm_num) _
        have := (h2 trivial).1
        linarith
    · have hp : 0 < |t| := abs_pos.mpr ht
      have hst : stored true (.fin t) = .fin (Real.logb 10 |t|) := by
        have hl : 0 < Real.log 10 := Real.log_pos (by norm_num)
        show Fl.log (.fin |t|) / _ = _
        rw [Fl.log_fin _ hp, Fl.fin_div _ _ hl.ne']; rfl
      have h1 : ∀ a : ℝ, a < Real.logb 10 |t| ↔ (10 : ℝ) ^ a < |t| := fun a => Real.lt_logb_iff_rpow_lt (by norm_num) hp
      have h2 : ∀ a : ℝ, Real.logb 10 |t| ≤ a ↔ |t| ≤ (10 : ℝ) ^ a := fun a => Real.logb_le_iff_le_rpow (by norm_num) hp
      rw [hst, cutIdx_iff e hle]
      unfold InBin
      constructor
      · rintro ⟨l, r, e1, e2, e3, e4⟩
        exact ⟨10 ^ l, 10 ^ r, by simp [e1], by simp [e2], by simp, fun _ => ⟨(h1 _).mp e3, (h2 _).mp e4⟩⟩
      · rintro ⟨l, r, e1, e2, -, e4⟩
        simp only [if_true, Option.map_eq_some_iff] at e1 e2
        obtain ⟨l', e1, rfl⟩ := e1
        obtain ⟨r', e2, rfl⟩ := e2
        exact ⟨l', r', e1, e2, (h1 _).mpr (e4 rfl).1, (h2 _).mpr (e4 rfl).2⟩

/-- C184: there is one drawn centre per bin; it lies strictly inside the drawn rectangle: the midpoint, on a logarithmic axis the geometric mean -/
theorem C184_centre (e : List ℝ) (he : e.Pairwise (· < ·)) (log : Bool) :
    (drawnCentres log e).length = e.length - 1 ∧
    ∀ i l r, (drawnEdges log e)[i]? = some l → (drawnEdges log e)[i + 1]? = some r →
      ∃ c, (drawnCentres log e)[i]? = some c ∧ l < c ∧ c < r ∧ (log = false → c = (l + r) / 2) ∧ (log = true → 0 < c ∧ c ^ 2 = l * r) := by
  unfold drawnCentres drawnEdges ivls
  constructor
  · simp
  · intro i l r hl hr
    rw [List.getElem?_map, Option.map_eq_some_iff] at hl hr
    obtain ⟨l', hl', rfl⟩ := hl
    obtain ⟨r', hr', rfl⟩ := hr
    have hlt : l' < r' := by
      obtain ⟨h1, e1⟩ := List.getElem?_eq_some_iff.mp hl'
      obtain ⟨h2, e2⟩ := List.getElem?_eq_some_iff.mp hr'
      rw [← e1, ← e2]
      exact List.pairwise_iff_getElem.mp he i (i + 1) h1 h2 (by omega)
    have hz : (e.zip e.tail)[i]? = some (l', r') := by
      rw [List.getElem?_zip_eq_some]
      exact ⟨hl', by rw [List.getElem?_tail]; exact hr'⟩
    rw [List.getElem?_map, hz]
    refine ⟨_, rfl, ?_⟩
    cases log with
    | false => simp only [Bool.false_eq_true, if_false]; exact ⟨by linarith, by linarith, by simp, by simp⟩
    | true =>
      simp only [if_true]
      refine ⟨Real.rpow_lt_rpow_of_exponent_lt (by norm_num) (by linarith), Real.rpow_lt_rpow_of_exponent_lt (by norm_num) (by linarith), by simp,
        fun _ => ⟨Real.rpow_pos_of_pos (by norm_num) _, ?_⟩⟩
      rw [sq, ← Real.rpow_add (by norm_num), ← Real.rpow_add (by norm_num)]
      congr 1; ring

/-- C184: the drawn array has one line per y bin and one entry per x bin, holding that cell's value; a missing cell is masked -/
theorem C184_grid (nx ny : Nat) (g : Grid) :
    (drawnGrid nx ny g).length = ny ∧ (∀ q ∈ drawnGrid nx ny g, q.length = nx) ∧
    (∀ i < nx, ∀ j < ny, ∃ q, (drawnGrid nx ny g)[j]? = some q ∧ q[i]? = some (g i j)) ∧
    (∀ v : Fl, masked v = none ↔ ¬ v.isFinite) ∧ (∀ r : ℝ, masked (.fin r) = some r) := by
  refine ⟨by simp [drawnGrid], ?_, ?_, ?_, fun r => rfl⟩
  · intro q hq
    obtain ⟨j, -, rfl⟩ := List.mem_map.mp hq
    simp
  · intro i hi j hj
    refine ⟨(List.range nx).map (fun i => g i j), ?_, ?_⟩
    · unfold drawnGrid; rw [List.getElem?_map, List.getElem?_range hj]; rfl
    · rw [List.getElem?_map, List.getElem?_range hi]; rfl
  · intro v; cases v <;> simp [masked, Fl.isFinite]

/-- C184: given contour levels are used; the default levels exist or are left to matplotlib for every normalisation a histogram can have,
and ascend; those of column, row and total normalisation lie in the interval of the normalised values -/
theorem C184_levels (a k : Option String) (hk : setAxnorm2 a = .ok k) :
    (∀ l, contourLevels k (some l) = .ok (some l)) ∧
    (∃ o, contourLevels k none = .ok o ∧ ∀ l, o = some l → l.Pairwise (· < ·) ∧ 5 ≤ l.length ∧
      (k = some "c" ∨ k = some "r" ∨ k = some "t" → ∀ v ∈ l, 0 ≤ v ∧ v ≤ 1)) ∧
    (k = some "c" ∨ k = some "r" ∨ k = some "t" ∨ k = some "d" → contourLevels k none ≠ .ok none) := by
  refine ⟨fun l => by cases k <;> rfl, ?_⟩
  cases a with
  | none =>
    simp only [setAxnorm2, Except.ok.injEq] at hk
    subst hk
    exact ⟨⟨none, rfl, by simp⟩, by simp⟩
  | some s =>
    simp only [setAxnorm2] at hk
    split at hk
    · rename_i hs
      simp only [Except.ok.injEq] at hk
      subst hk
      generalize s.toLower = q at hs ⊢
      simp only [List.mem_cons, List.not_mem_nil, or_false] at hs
      rcases hs with rfl | rfl | rfl | rfl | rfl | rfl
      · constructor
        · refine ⟨some _, rfl, ?_⟩
          rintro l ⟨⟩
          norm_num
        · simp [contourLevels]
      · constructor
        · refine ⟨some _, rfl, ?_⟩
          rintro l ⟨⟩
          norm_num
        · simp [contourLevels]
      · constructor
        · refine ⟨some _, rfl, ?_⟩
          rintro l ⟨⟩
          norm_num
        · simp [contourLevels]
      · constructor
        · refine ⟨some _, rfl, ?_⟩
          rintro l ⟨⟩
          norm_num
        · simp [contourLevels]
      · exact ⟨⟨none, rfl, by simp⟩, by simp⟩
      · exact ⟨⟨none, rfl, by simp⟩, by simp⟩
    · cases hk

theorem grid_bound (nx ny : Nat) (f : Nat → Nat → ℝ) : ∃ B : ℝ, 0 < B ∧ ∀ i < nx, ∀ j < ny, f i j ≤ B := by
  refine ⟨1 + ∑ i ∈ Finset.range nx, ∑ j ∈ Finset.range ny, |f i j|, ?_, ?_⟩
  · have : 0 ≤ ∑ i ∈ Finset.range nx, ∑ j ∈ Finset.range ny, |f i j| := Finset.sum_nonneg (fun i _ => Finset.sum_nonneg (fun j _ => abs_nonneg _))
    linarith
  · intro i hi j hj
    have h1 : |f i j| ≤ ∑ j ∈ Finset.range ny, |f i j| :=
      Finset.single_le_sum (f := fun j => |f i j|) (fun j _ => abs_nonneg _) (Finset.mem_range.mpr hj)
    have h2 : ∑ j ∈ Finset.range ny, |f i j| ≤ ∑ i ∈ Finset.range nx, ∑ j ∈ Finset.range ny, |f i j| :=
      Finset.single_le_sum (f := fun i => ∑ j ∈ Finset.range ny, |f i j|) (fun i _ => Finset.sum_nonneg (fun j _ => abs_nonneg _)) (Finset.mem_range.mpr hi)
    have := le_abs_self (f i j)
    linarith

/-- C184 (violated): the default levels of a density depend on the unit of the axes: measuring x in a unit smaller by `c` divides every density by
`c`; for all large `c` every cell lies below the lowest default level, for all small `c` every populated cell lies above the highest, so that
no default contour separates anything -/
theorem C184_density_levels (ex ey : List ℝ) (hex : ex.Pairwise (· < ·)) (hey : ey.Pairwise (· < ·)) (g : Grid) (n : Nat → Nat → ℝ)
    (hg : ∀ i j, g i j = .nan ∨ g i j = .fin (n i j)) (s : ℝ) (hs : 0 < s)
    (htot : Fl.sumSkip (cells g (ex.length - 1) (ey.length - 1)) = .fin s) :
    ∃ D : ℝ → Grid, (∀ c : ℝ, norm2 (ex.map (c * ·)) ey false false (some "d") g = .ok (D c)) ∧
      (∀ c > 0, ∀ i < ex.length - 1, ∀ j < ey.length - 1, ∀ v, D 1 i j = .fin v → D c i j = .fin (v / c)) ∧
      ∃ l lo hi, contourLevels (some "d") none = .ok (some l) ∧ lo ∈ l ∧ hi ∈ l ∧ (∀ q ∈ l, lo ≤ q ∧ q ≤ hi) ∧
        (∃ C > 0, ∀ c ≥ C, ∀ i < ex.length - 1, ∀ j < ey.length - 1, ∀ v, D c i j = .fin v → v < lo) ∧
        (∃ C > 0, ∀ c > 0, c ≤ C → ∀ i < ex.length - 1, ∀ j < ey.length - 1, ∀ v, D c i j = .fin v → 0 < v → hi < v) := by
  have hw : ∀ (c : ℝ) i, i < ex.length - 1 → width (ex.map (c * ·)) i = c * width ex i := by
    intro c i hi
    unfold width
    have h1 : i < ex.length := by omega
    have h2 : i + 1 < ex.length := by omega
    simp only [List.getD_eq_getElem?_getD, List.getElem?_map, List.getElem?_eq_getElem h1, List.getElem?_eq_getElem h2]
    simp; ring
  have hval : ∀ (c : ℝ), 0 < c → ∀ i < ex.length - 1, ∀ j < ey.length - 1, ∀ r : ℝ,
      (Fl.fin r / .fin (dens false (width (ex.map (c * ·)) i)) / .fin (dens false (width ey j)) / Fl.fin s : Fl) =
        .fin (r / (width ex i * width ey j * s) / c) := by
    intro c hc i hi j hj r
    have p1 := width_pos hex (i := i) (by omega)
    have p2 := width_pos hey (i := j) (by omega)
    simp only [dens, Bool.false_eq_true, if_false]
    rw [hw c i hi, Fl.fin_div _ _ (by positivity), Fl.fin_div _ _ (by positivity), Fl.fin_div _ _ (by positivity)]
    congr 1; field_simp
  have hlen : ∀ c : ℝ, (ex.map (c * ·)).length = ex.length := by simp
  obtain ⟨D, hD⟩ : ∃ D : ℝ → Grid, D = fun c i j => g i j / .fin (dens false (width (ex.map (c * ·)) i)) / .fin (dens false (width ey j)) / Fl.fin s := ⟨_, rfl⟩
  have hDv : ∀ c > 0, ∀ i < ex.length - 1, ∀ j < ey.length - 1, ∀ v, D c i j = .fin v → v = n i j / (width ex i * width ey j * s) / c := by
    intro c hc i hi j hj v hv
    rw [hD] at hv
    simp only [] at hv
    rcases hg i j with e | e
    · rw [e] at hv; simp at hv
    · rw [e, hval c hc i hi j hj] at hv; simpa using hv.symm
  refine ⟨D, ?_, ?_, ?_⟩
  · intro c
    unfold norm2
    simp only [hlen, htot]
    rw [hD]; rfl
  · intro c hc i hi j hj v hv
    have h1 := hDv 1 one_pos i hi j hj v hv
    rw [hD] at hv ⊢
    simp only [] at hv ⊢
    rcases hg i j with e | e
    · rw [e] at hv; simp at hv
    · rw [e, hval c hc i hi j hj, h1]; simp
  · refine ⟨_, 3e-5, 2.3e-3, rfl, by simp, by simp, by norm_num, ?_, ?_⟩
    · obtain ⟨B, hB, hb⟩ := grid_bound (ex.length - 1) (ey.length - 1) (fun i j => n i j / (width ex i * width ey j * s))
      refine ⟨2 * B / 3e-5, by positivity, ?_⟩
      intro c hc i hi j hj v hv
      have hc0 : 0 < c := lt_of_lt_of_le (by positivity) hc
      rw [hDv c hc0 i hi j hj v hv, div_lt_iff₀ hc0]
      have := hb i hi j hj
      have h2 : 2 * B ≤ c * 3e-5 := by rwa [ge_iff_le, div_le_iff₀ (by norm_num)] at hc
      linarith
    · obtain ⟨B, hB, hb⟩ := grid_bound (ex.length - 1) (ey.length - 1) (fun i j => (n i j / (width ex i * width ey j * s))⁻¹)
      refine ⟨1 / (B * 2.4e-3), by positivity, ?_⟩
      intro c hc0 hc i hi j hj v hv hpos
      have hv' := hDv c hc0 i hi j hj v hv
      have h1 := hb i hi j hj
      generalize n i j / (width ex i * width ey j * s) = q at hv' h1
      subst hv'
      have hq : 0 < q := by
        rcases (div_pos_iff).mp hpos with h | h
        · exact h.1
        · linarith [h.2]
      have h2 : 1 ≤ B * q := by
        have := mul_le_mul_of_nonneg_right h1 hq.le
        rwa [inv_mul_cancel₀ hq.ne'] at this
      have h3 : c * (B * 2.4e-3) ≤ 1 := by rwa [le_div_iff₀ (by positivity)] at hc
      rw [lt_div_iff₀ hc0]
      have h4 : c * (B * 2.4e-3) ≤ B * q := le_trans h3 h2
      have h5 : c * 2.4e-3 ≤ q := by
        have : B * (c * 2.4e-3) ≤ B * q := by linarith
        exact le_of_mul_le_mul_left this hB
      nlinarith

/-- C184: the points of the drawn curve: one per bin, at the bin's centre and value; transposed, the two are exchanged -/
theorem C184_curve (log : Bool) (e : List ℝ) (y : List Fl) (hy : y.length = e.length - 1) :
    (curve1 log false e y).length = e.length - 1 ∧
    curve1 log true e y = (curve1 log false e y).map Prod.swap ∧
    ∀ (i : Nat) (c : ℝ) (v : Fl), (drawnCentres log e)[i]? = some c → y[i]? = some v → (curve1 log false e y)[i]? = some (Fl.fin c, v) := by
  unfold curve1
  refine ⟨?_, ?_, ?_⟩
  · have : (drawnCentres log e).length = e.length - 1 := by simp [drawnCentres, ivls]
    simp [this, hy]
  · rw [List.map_map]
    apply List.map_congr_left
    rintro ⟨a, b⟩ _
    rfl
  · intro i c v hc hv
    rw [List.getElem?_map, List.getElem?_zip_eq_some (z := (c, v)) |>.mpr ⟨hc, hv⟩]; rfl

/-- non-vacuity -/
example : ([0, 1, 3] : List ℝ).Pairwise (· < ·) ∧ ([0, 1] : List ℝ).Pairwise (· < ·) ∧
    Fl.sumSkip (cells (fun i _ => if i = 0 then Fl.nan else .fin 2) (([0, 1, 3] : List ℝ).length - 1) (([0, 1] : List ℝ).length - 1)) = .fin 2 := by
  refine ⟨by norm_num, by norm_num, ?_⟩
  simp [cells, col, List.range_succ, Fl.sumSkip, Fl.sumAll]
  show Fl.fin (2 + 0) = _
  norm_num

end
end Hist
end SW
