import Verif.SpiralAgg
import Verif.Props.Spiral
import Verif.Props.Hist
import Verif.Props.HistPlot
import Verif.Props.Orbit

/-!
# C190, C191: values and drawing of adaptive mesh plots
-/

namespace SW
namespace Spiral
open Classical

/-- the rows whose point lies in a cell -/
noncomputable def content (rows : List Row) (c : Cell) : List Row := rows.filter (fun r => decide (inCell c (r.x, r.y)))

/-- the categories of the rows -/
noncomputable def idsOf (mesh : List Cell) (order : List Nat) (rows : List Row) : List Int :=
  rows.map (fun r => binNumber mesh order (r.x, r.y))

theorem bin_iff {mesh : List Cell} {order : List Nat} (hord : order.Perm (List.range mesh.length)) {p : Pt} (hone : covers mesh p ≤ 1)
    {i : Nat} {c : Cell} (hc : mesh[i]? = some c) : binNumber mesh order p = (i : Int) ↔ inCell c p := by
  obtain ⟨h1, h2, _⟩ := C79_bin_number mesh order hord p hone
  constructor
  · intro h
    by_cases hex : ∃ c' ∈ mesh, inCell c' p
    · obtain ⟨c', hc', hin⟩ := hex
      obtain ⟨j, hj, he⟩ := List.getElem_of_mem hc'
      have hg : mesh[j]? = some c' := by rw [List.getElem?_eq_getElem hj, he]
      have := h1 j c' hg hin
      rw [h] at this
      have hij : i = j := by exact_mod_cast this
      subst hij
      rw [hc] at hg
      cases hg
      exact hin
    · push Not at hex
      rw [h2 hex] at h
      unfold fillBin at h
      omega
  · exact h1 i c hc

theorem group_eq {mesh : List Cell} {order : List Nat} (hord : order.Perm (List.range mesh.length)) (hone : ∀ p, covers mesh p ≤ 1)
    (rows : List Row) {i : Nat} {c : Cell} (hc : mesh[i]? = some c) :
    (((idsOf mesh order rows).zip (rows.map Row.z)).filter (fun p => decide (p.1 = (i : Int)))).map (·.2) =
      (content rows c).map Row.z := by
  unfold idsOf content
  induction rows with
  | nil => rfl
  | cons r rs ih =>
    simp only [List.map_cons, List.zip_cons_cons]
    by_cases h : inCell c (r.x, r.y)
    · rw [List.filter_cons_of_pos (by simpa using (bin_iff hord (hone _) hc).mpr h), List.filter_cons_of_pos (by simpa using h)]
      simp only [List.map_cons, ih]
    · rw [List.filter_cons_of_neg (by simpa using fun h' => h ((bin_iff hord (hone _) hc).mp h')), List.filter_cons_of_neg (by simpa using h)]
      exact ih

/-! ### C190: the value of a cell -/

/-- specification: a number of data allowed by the limits, each of which may be absent; both ends are allowed -/
def CountAllowed (lower upper : Option ℝ) (n : Nat) : Prop :=
  ¬ (∃ c : ℝ, lower = some c ∧ (n : ℝ) < c) ∧ ¬ ∃ c : ℝ, upper = some c ∧ c < (n : ℝ)

theorem inClim_iff (clim : Option ℝ × Option ℝ) (n : Nat) : inClim clim n ↔ CountAllowed clim.1 clim.2 n := by
  obtain ⟨l, u⟩ := clim
  cases l <;> cases u <;> simp [inClim, CountAllowed]

example : CountAllowed (some 3) none 3 ∧ CountAllowed none (some 3) 3 ∧ ¬ CountAllowed (some 3) none 2 ∧ ¬ CountAllowed none (some 3) 4 := by
  simp [CountAllowed]; norm_num

/-- C190: the value of a cell is computed from exactly the data inside it, whatever the order in which the cells were visited: missing
if there are none, if their number is outside the limits, or if the cell filter removes the cell; otherwise the chosen function of
their dependent values. -/
theorem C190_cell (mesh : List Cell) (order : List Nat) (hord : order.Perm (List.range mesh.length)) (hone : ∀ p, covers mesh p ≤ 1)
    (rows : List Row) (fcn : Option Fcn) (clim : Option ℝ × Option ℝ) (size density : Option ℝ) (out : List Fl)
    (h : agg mesh (idsOf mesh order rows) (rows.map Row.z) fcn clim size density = .ok out) :
    out.length = mesh.length ∧
    ∃ flt, cellFilter mesh (idsOf mesh order rows) size density = .ok flt ∧
    ∀ (i : Nat) (c : Cell), mesh[i]? = some c →
      ((content rows c = [] ∨ ¬ CountAllowed clim.1 clim.2 (content rows c).length ∨ flt.getD i false = false) → out[i]? = some .nan) ∧
      (content rows c ≠ [] → CountAllowed clim.1 clim.2 (content rows c).length → flt.getD i false = true →
        out[i]? = some (groupVal (pickFcn fcn (rows.map Row.z)) ((content rows c).map Row.z))) := by
  unfold agg at h
  rw [if_neg (by simp [idsOf])] at h
  cases hf : cellFilter mesh (idsOf mesh order rows) size density with
  | error e => rw [hf] at h; cases h
  | ok flt =>
    rw [hf] at h
    cases h
    refine ⟨by simp, flt, rfl, ?_⟩
    intro i c hc
    rw [← inClim_iff]
    have hi : i < mesh.length := (List.getElem?_eq_some_iff.mp hc).1
    have hg := group_eq hord hone rows hc
    have hnil : (content rows c).map Row.z = [] ↔ content rows c = [] := by simp
    constructor
    · intro hbad
      rw [List.getElem?_map, List.getElem?_range hi, Option.map_some]
      simp only [hg, hnil, List.length_map]
      by_cases a : content rows c = []
      · rw [if_pos a]
      · rw [if_neg a]
        by_cases b : inClim clim (content rows c).length
        · rw [if_neg (by simpa using b)]
          have d : flt.getD i false = false := by tauto
          rw [d]; rfl
        · rw [if_pos b]
    · intro h1 h2 h3
      rw [List.getElem?_map, List.getElem?_range hi, Option.map_some]
      simp only [hg, hnil, List.length_map]
      rw [if_neg h1, if_neg (by simpa using h2), if_pos h3]

theorem no_filter (mesh : List Cell) (ids : List Int) : ∃ flt, cellFilter mesh ids none none = .ok flt ∧ ∀ i < mesh.length, flt.getD i false = true := by
  refine ⟨mesh.map (fun _ => true), ?_, ?_⟩
  · unfold cellFilter
    rw [if_neg (by simp [bad_none])]
    simp [active, Function.comp_def]
  · intro i hi
    simp [List.getD_eq_getElem?_getD, hi]

theorem sum_count_range (n : Nat) (ids : List Int) (h : ∀ z ∈ ids, 0 ≤ z ∧ z < n) :
    ((List.range n).map (fun i : Nat => ids.countP (fun z => decide (z = (i : Int))))).sum = ids.length := by
  induction ids with
  | nil => simp
  | cons z zs ih =>
    have h1 := ih (fun z hz => h z (by simp [hz]))
    obtain ⟨h2, h3⟩ := h z (by simp)
    obtain ⟨k, rfl⟩ := Int.eq_ofNat_of_zero_le h2
    have hk : k < n := by omega
    simp only [List.countP_cons]
    rw [List.sum_map_add, h1]
    simp only [decide_eq_true_eq, Nat.cast_inj, List.length_cons]
    congr 1
    have : ((List.range n).map (fun i : Nat => if k = i then 1 else 0)).sum = (List.range n).countP (fun i => decide (k = i)) := by
      induction List.range n with
      | nil => simp
      | cons a l ih => simp only [List.map_cons, List.sum_cons, ih, List.countP_cons, decide_eq_true_eq]; ring
    rw [this]
    have h4 : (List.range n).countP (fun i => decide (k = i)) = (List.range n).count k := by
      rw [List.count]; congr 1; funext i; simp [eq_comm, beq_eq_decide]
    rw [h4]
    exact List.count_eq_one_of_mem (List.nodup_range) (List.mem_range.mpr hk)

/-- the number shown for a cell, zero if the cell is empty -/
noncomputable def shown (v : Fl) : ℝ := match v with
  | .fin a => a
  | _ => 0

/-- C190: without dependent values, limits and filter, the counts of all cells add up to the number of data, if the mesh covers them. -/
theorem C190_conserved (mesh : List Cell) (order : List Nat) (hord : order.Perm (List.range mesh.length)) (hone : ∀ p, covers mesh p ≤ 1)
    (rows : List Row) (hin : ∀ r ∈ rows, ∃ c ∈ mesh, inCell c (r.x, r.y)) (fcn : Option Fcn)
    (hf : fcn = some .count ∨ (fcn = none ∧ ∀ r ∈ rows, r.z = .fin 1)) :
    ∃ out, agg mesh (idsOf mesh order rows) (rows.map Row.z) fcn (none, none) none none = .ok out ∧
      (out.map shown).sum = rows.length := by
  obtain ⟨flt, hflt, hall⟩ := no_filter mesh (idsOf mesh order rows)
  have hok : ∃ out, agg mesh (idsOf mesh order rows) (rows.map Row.z) fcn (none, none) none none = .ok out := by
    unfold agg
    rw [if_neg (by simp [idsOf]), hflt]
    exact ⟨_, rfl⟩
  obtain ⟨out, hout⟩ := hok
  refine ⟨out, hout, ?_⟩
  obtain ⟨hlen, flt', hflt', hcell⟩ := C190_cell mesh order hord hone rows fcn _ _ _ out hout
  rw [hflt] at hflt'
  cases hflt'
  have hcount : rows ≠ [] → pickFcn fcn (rows.map Row.z) = .count := by
    intro hne
    rcases hf with rfl | ⟨rfl, h1⟩
    · rfl
    · unfold pickFcn
      have : rows.map Row.z = List.replicate rows.length (.fin 1) := by
        rw [List.eq_replicate_iff]
        refine ⟨by simp, ?_⟩
        intro b hb
        obtain ⟨r, hr, rfl⟩ := List.mem_map.mp hb
        exact h1 r hr
      simp only []
      rw [this, List.replicate_dedup (by simpa using hne)]
      rfl
  have hout' : out.map shown = (List.range mesh.length).map (fun i : Nat => (((idsOf mesh order rows).countP (fun z => decide (z = (i : Int))) : ℕ) : ℝ)) := by
    apply List.ext_getElem?
    intro i
    rw [List.getElem?_map, List.getElem?_map]
    by_cases hi : i < mesh.length
    · have hc : mesh[i]? = some mesh[i] := List.getElem?_eq_getElem hi
      rw [List.getElem?_range hi, Option.map_some]
      have hcnt : (idsOf mesh order rows).countP (fun z => decide (z = (i : Int))) = (content rows mesh[i]).length := by
        unfold idsOf content
        rw [List.countP_map, ← List.countP_eq_length_filter]
        congr 1
        funext r
        simp only [Function.comp]
        rw [decide_eq_decide]
        exact bin_iff hord (hone _) hc
      rw [hcnt]
      by_cases he : content rows mesh[i] = []
      · rw [((hcell i _ hc).1 (Or.inl he)), he]
        simp [shown]
      · rw [(hcell i _ hc).2 he (by simp [CountAllowed]) (hall i hi), hcount (by rintro rfl; simp [content] at he)]
        simp [groupVal, shown]
    · rw [List.getElem?_eq_none (by omega), List.getElem?_eq_none (by simp; omega)]
      rfl
  rw [hout']
  have hs := sum_count_range mesh.length (idsOf mesh order rows) (by
    intro z hz
    have := (C131_inside mesh order hord (rows.map (fun r => (r.x, r.y))) hone (by
      intro p hp
      obtain ⟨r, hr, rfl⟩ := List.mem_map.mp hp
      exact hin r hr)).2 z (by simpa [idsOf, Function.comp_def] using hz)
    exact this)
  have hlen2 : (idsOf mesh order rows).length = rows.length := by simp [idsOf]
  rw [hlen2] at hs
  rw [← hs]
  push_cast
  rw [List.map_map]
  rfl

/-- C190: the mean of a cell with finite dependent values lies between any bounds of them. -/
theorem C190_mean_between (g : List ℝ) (hg : g ≠ []) (lo hi : ℝ) (h : ∀ v ∈ g, lo ≤ v ∧ v ≤ hi) :
    ∃ a : ℝ, groupVal .mean (g.map Fl.fin) = .fin a ∧ lo ≤ a ∧ a ≤ hi ∧ a * g.length = g.sum := by
  have hpos : 0 < (g.length : ℝ) := by exact_mod_cast List.length_pos_iff.mpr hg
  have hs := Fl.sumAll_fin' g Fl.fin id (fun _ _ => rfl)
  simp only [List.map_id] at hs
  refine ⟨g.sum / g.length, ?_, ?_, ?_, by field_simp⟩
  · show Fl.sumAll _ / Fl.fin _ = _
    rw [hs, List.length_map, Fl.fin_div _ _ hpos.ne']
  · rw [le_div_iff₀ hpos]
    have := List.card_nsmul_le_sum g lo (fun v hv => (h v hv).1)
    rw [nsmul_eq_mul] at this; linarith
  · rw [div_le_iff₀ hpos]
    have := List.sum_le_card_nsmul g hi (fun v hv => (h v hv).2)
    rw [nsmul_eq_mul] at this; linarith

/-- C190 (violated: the values plotted are those of z): if all dependent values are equal, the default is to show the number of data of
each cell instead of their common value; asking for the mean shows the value. -/
theorem C190_constant (v : ℝ) (zs g : List Fl) (hz : zs ≠ []) (hall : ∀ z ∈ zs, z = .fin v) (hg : g ≠ []) (hsub : g ⊆ zs) :
    groupVal (pickFcn none zs) g = .fin g.length ∧ groupVal (pickFcn (some .mean) zs) g = .fin v := by
  constructor
  · unfold pickFcn
    have : zs = List.replicate zs.length (.fin v) := by
      rw [List.eq_replicate_iff]; exact ⟨rfl, hall⟩
    simp only []
    rw [this, List.replicate_dedup (by simpa using hz)]
    rfl
  · have hg' : g = (g.map (fun _ => v)).map Fl.fin := by
      rw [List.map_map]
      conv_lhs => rw [← List.map_id g]
      apply List.map_congr_left
      intro z hz
      exact hall z (hsub hz)
    obtain ⟨a, h1, h2, h3, _⟩ := C190_mean_between (g.map (fun _ => v)) (by simpa using hg) v v (by simp)
    rw [hg']
    show groupVal .mean _ = _
    rw [h1]
    congr 1
    linarith

/-- C190: two different dependent values (in the data, not the cell) suffice for the mean to be shown. -/
theorem C190_default_mean (zs : List Fl) (a b : Fl) (ha : a ∈ zs) (hb : b ∈ zs) (hab : a ≠ b) : pickFcn none zs = .mean := by
  unfold pickFcn
  simp only []
  rw [if_neg]
  intro h
  obtain ⟨c, hc⟩ := List.length_eq_one_iff.mp h
  have h1 : a ∈ zs.dedup := List.mem_dedup.mpr ha
  have h2 : b ∈ zs.dedup := List.mem_dedup.mpr hb
  rw [hc] at h1 h2
  simp at h1 h2
  exact hab (h1.trans h2.symm)

/-- C190: which rows are used, and that the request to clip has no effect (violated). -/
theorem C190_data (logx logy : Bool) (xy : List (Fl × Fl)) (z : List Fl) (hl : z.length = xy.length) (clip : Bool) :
    setData logx logy xy (some z) clip = setData logx logy xy (some z) (!clip) ∧
    ((∀ i : Nat, ∀ p v, xy[i]? = some p → z[i]? = some v → p.1 = .nan ∨ p.2 = .nan ∨ v = .nan) →
      setData logx logy xy (some z) clip = .error .valueError) ∧
    (∀ out, setData logx logy xy (some z) clip = .ok out →
      out = ((xy.zip z).filter (fun q => decide (q.1.1 ≠ .nan ∧ q.1.2 ≠ .nan ∧ q.2 ≠ .nan))).map
        (fun q => ⟨Hist.stored logx q.1.1, Hist.stored logy q.1.2, q.2⟩)) := by
  have hn : ∀ q : (Fl × Fl) × Fl, (!(q.1.1.isNaN || q.1.2.isNaN || q.2.isNaN)) = decide (q.1.1 ≠ .nan ∧ q.1.2 ≠ .nan ∧ q.2 ≠ .nan) := by
    rintro ⟨⟨a, b⟩, c⟩
    have hd : ∀ v : Fl, v.isNaN ↔ v = .nan := by intro v; cases v <;> simp [Fl.isNaN]
    by_cases ha : a = .nan <;> by_cases hb : b = .nan <;> by_cases hc : c = .nan <;> simp [hd, ha, hb, hc]
  have hk : ((xy.zip z).map (fun q => (⟨q.1.1, q.1.2, q.2⟩ : Row))).filter (fun r => !(r.x.isNaN || r.y.isNaN || r.z.isNaN)) =
      ((xy.zip z).filter (fun q => decide (q.1.1 ≠ .nan ∧ q.1.2 ≠ .nan ∧ q.2 ≠ .nan))).map (fun q => ⟨q.1.1, q.1.2, q.2⟩) := by
    rw [List.filter_map]
    congr 2
    funext q
    exact hn q
  refine ⟨rfl, ?_, ?_⟩
  · intro h
    unfold setData
    simp only [Option.getD_some]
    rw [if_pos]
    rw [hk, List.map_eq_nil_iff, List.filter_eq_nil_iff]
    intro q hq
    obtain ⟨i, hi⟩ := List.getElem?_of_mem hq
    rw [List.getElem?_zip_eq_some] at hi
    have := h i q.1 q.2 hi.1 hi.2
    simp only [decide_eq_true_eq]
    tauto
  · intro out h
    unfold setData at h
    simp only [Option.getD_some] at h
    split at h
    · cases h
    · cases h
      rw [hk, List.map_map]
      rfl

/-- non-vacuity: two cells, three data -/
example : ∃ mesh : List Cell, mesh.length = 2 ∧ (∀ p, covers mesh p ≤ 1) ∧ ∃ c ∈ mesh, inCell c (.fin 0, .fin 0) := by
  refine ⟨[⟨0, 1, 0, 1⟩, ⟨1, 2, 0, 1⟩], rfl, ?_, ⟨0, 1, 0, 1⟩, by simp, by rw [inCell_fin]; norm_num⟩
  intro p
  unfold covers
  rw [List.countP_cons, List.countP_cons, List.countP_nil]
  have : ¬ (inCell ⟨0, 1, 0, 1⟩ p ∧ inCell ⟨1, 2, 0, 1⟩ p) := by
    rintro ⟨h1, h2⟩
    obtain ⟨x, y, rfl⟩ := inCell_finite h1
    rw [inCell_fin] at h1 h2
    linarith [h1.2.1, h2.1]
  by_cases h1 : inCell ⟨0, 1, 0, 1⟩ p
  · have h2 : ¬ inCell ⟨1, 2, 0, 1⟩ p := fun h => this ⟨h1, h⟩
    simp [h1, h2]
  · by_cases h2 : inCell ⟨1, 2, 0, 1⟩ p <;> simp [h1, h2]

/-! ### C191: thresholds, drawing, colours -/

/-- C191: only `density` and `size` are accepted.  Violated ("set or update"): a call that names one threshold switches the other off,
whatever was set before. -/
theorem C191_thresholds (d s : ℝ) (kw : List (String × ℝ)) :
    ((∃ k ∈ kw, k.1 ≠ "density" ∧ k.1 ≠ "size") → setThresholds kw = .error .keyError) ∧
    setThresholds [("density", d)] = .ok (some d, none) ∧ setThresholds [("size", s)] = .ok (none, some s) ∧
    setThresholds [("density", d), ("size", s)] = .ok (some d, some s) ∧ setThresholds [] = .ok (none, none) := by
  refine ⟨fun h => by unfold setThresholds; rw [if_pos h], ?_, ?_, ?_, ?_⟩ <;> simp [setThresholds]

/-- the coordinates at which a datum with stored coordinate appears on the axis -/
noncomputable def position (log : Bool) (t : ℝ) : ℝ := if log then (10 : ℝ) ^ t else t

/-- C191: the drawn rectangle of a cell contains exactly the positions of the data counted in it (left and lower border included); its
sides have the right lengths. -/
theorem C191_rectangle (logx logy : Bool) (c : Cell) (x y : ℝ) :
    (inCell c (.fin x, .fin y) ↔
      (rectangle logx logy c).1.1 ≤ position logx x ∧ position logx x < (rectangle logx logy c).1.1 + (rectangle logx logy c).2.1 ∧
      (rectangle logx logy c).1.2 ≤ position logy y ∧ position logy y < (rectangle logx logy c).1.2 + (rectangle logx logy c).2.2) := by
  rw [inCell_fin]
  have hle : ∀ (log : Bool) (a b : ℝ), (if log then (10 : ℝ) ^ a else a) ≤ position log b ↔ a ≤ b := by
    intro log a b
    cases log
    · simp [position]
    · simp only [position, if_true]; exact Real.rpow_le_rpow_left_iff (by norm_num)
  have hlt : ∀ (log : Bool) (a b : ℝ), position log b < (if log then (10 : ℝ) ^ a else a) ↔ b < a := by
    intro log a b
    cases log
    · simp [position]
    · simp only [position, if_true]; exact Real.rpow_lt_rpow_left_iff (by norm_num)
  simp only [rectangle, add_sub_cancel, hle, hlt]

/-- C191: on a logarithmic axis the position of a stored datum is its modulus. -/
theorem C191_position (t : ℝ) (ht : t ≠ 0) : ∃ s : ℝ, Hist.stored true (.fin t) = .fin s ∧ position true s = |t| ∧
    Hist.stored true (.fin 0) = .ninf := by
  have h0 : Hist.stored true (.fin 0) = .ninf := by
    have := Hist.log10abs_pow10 .ninf
    simpa [Hist.pow10, Hist.stored] using this
  have hpos : 0 < |t| := abs_pos.mpr ht
  refine ⟨Real.log |t| / Real.log 10, ?_, ?_, h0⟩
  · simp only [Hist.stored, if_true, Hist.log10abs, Fl.abs]
    rw [Fl.log_fin _ hpos, Fl.fin_div _ _ (by positivity)]
  · simp only [position, if_true]
    rw [Real.log_div_log, Real.rpow_logb (by norm_num) (by norm_num) hpos]

/-- C191: the colour limits lie within the data and in order, limits of the caller's norm are kept.  Violated for plots of counts: the
limits are taken from the dependent values, which are all 1, so that every count of two or more gets the same colour. -/
theorem C191_norm (zs : List ℝ) (hz : zs ≠ []) :
    (∀ a b : ℝ, limitNorm zs (some a, some b) = (a, b)) ∧
    (∀ lo hi : ℝ, (∀ v ∈ zs, lo ≤ v ∧ v ≤ hi) → lo ≤ (limitNorm zs (none, none)).1 ∧
      (limitNorm zs (none, none)).1 ≤ (limitNorm zs (none, none)).2 ∧ (limitNorm zs (none, none)).2 ≤ hi) ∧
    ((∀ v ∈ zs, v = 1) → limitNorm zs (none, none) = (1, 1)) := by
  have hne : zs.insertionSort (· ≤ ·) ≠ [] := by
    intro h
    have := congrArg List.length h
    rw [List.length_insertionSort] at this
    exact hz (List.length_eq_zero_iff.mp this)
  have hsort : (zs.insertionSort (· ≤ ·)).Pairwise (· ≤ ·) := List.pairwise_insertionSort (· ≤ ·) _
  refine ⟨fun a b => rfl, ?_, ?_⟩
  · intro lo hi h
    have hb : ∀ v ∈ zs.insertionSort (· ≤ ·), lo ≤ v ∧ v ≤ hi := fun v hv => h v ((List.mem_insertionSort _).mp hv)
    refine ⟨?_, ?_, ?_⟩
    · exact min_le_quantile hsort hne (by norm_num) (by norm_num) (fun v hv => (hb v hv).1)
    · exact quantile_mono hsort hne (by norm_num) (by norm_num) (by norm_num)
    · exact quantile_le_max hsort hne (by norm_num) (by norm_num) (fun v hv => (hb v hv).2)
  · intro h
    have hb : ∀ v ∈ zs.insertionSort (· ≤ ·), v = 1 := fun v hv => h v ((List.mem_insertionSort _).mp hv)
    unfold limitNorm
    simp only [Option.getD_none]
    rw [Orb.quantile_const _ 1 hne hb _ (by norm_num) (by norm_num), Orb.quantile_const _ 1 hne hb _ (by norm_num) (by norm_num)]

/-- C191: opacities lie in [0, 1] and fall with the aggregated value; the smallest is opaque, masked cells are invisible, and so
(violated: every cell shown should be visible) is the cell with the largest value. -/
theorem C191_alpha (lo hi : ℝ) (hlt : lo < hi) :
    (∀ a, lo ≤ a → a ≤ hi → 0 ≤ alpha lo hi (some a) ∧ alpha lo hi (some a) ≤ 1) ∧
    (∀ a b, lo ≤ a → a ≤ b → b ≤ hi → alpha lo hi (some b) ≤ alpha lo hi (some a)) ∧
    alpha lo hi (some lo) = 1 ∧ alpha lo hi (some hi) = 0 ∧ alpha lo hi none = 0 ∧ (∀ a, alpha a a (some a) = 1) := by
  have hw : 0 < hi - lo := by linarith
  have hval : ∀ a, alpha lo hi (some a) = (1 - (a - lo) / (hi - lo)) ^ (0.25 : ℝ) := by
    intro a; simp [alpha, hlt.ne]
  have hrng : ∀ a, lo ≤ a → a ≤ hi → 0 ≤ (a - lo) / (hi - lo) ∧ (a - lo) / (hi - lo) ≤ 1 := by
    intro a h1 h2
    exact ⟨div_nonneg (by linarith) hw.le, (div_le_one hw).mpr (by linarith)⟩
  refine ⟨?_, ?_, ?_, ?_, rfl, ?_⟩
  · intro a h1 h2
    obtain ⟨h3, h4⟩ := hrng a h1 h2
    rw [hval]
    exact ⟨Real.rpow_nonneg (by linarith) _, Real.rpow_le_one (by linarith) (by linarith) (by norm_num)⟩
  · intro a b h1 h2 h3
    rw [hval, hval]
    apply Real.rpow_le_rpow
    · linarith [(hrng b (by linarith) h3).2]
    · have : (a - lo) / (hi - lo) ≤ (b - lo) / (hi - lo) := by gcongr
      linarith
    · norm_num
  · rw [hval]; simp
  · rw [hval, div_self hw.ne', sub_self, Real.zero_rpow (by norm_num)]
  · intro a; simp [alpha]

end Spiral
end SW
