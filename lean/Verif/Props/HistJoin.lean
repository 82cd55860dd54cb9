import Verif.Props.HistIndex

/-!
# Histograms of reordered, joined, re-binned and rescaled data (C237–C240)

Specification: a data set is a list of rows `(x, y)`; `histo` is what `Hist1D.agg` returns for it with the bin edges `e`
(rows are sorted into bins by `pd.cut`, then aggregated).  `rv` reads a cell as a number, a missing cell as 0.
-/

namespace SW
namespace Hist

open Classical

/-- `Hist1D.agg` of the rows `(x, y)` with the bin edges `e` -/
noncomputable abbrev histo (e : List ℝ) (log : Bool) (ax : Option String) (rows : List (Fl × Fl)) (fcn : Option Fcn)
    (c0 c1 : Option ℝ) : Except PyErr (List Fl) :=
  agg1 e log ax (rows.map Prod.snd) (rows.map (fun r => cutIdx e r.1)) fcn c0 c1

/-- `Hist2D.agg` of the rows `(x, y, z)` -/
noncomputable abbrev histo2 (ex ey : List ℝ) (logx logy : Bool) (rows : List (Fl × Fl × Fl)) (fcn : Option Fcn) :
    Except PyErr Grid :=
  agg2 ex ey logx logy none (rows.map (fun r => r.2.2)) (rows.map (fun r => (cutIdx ex r.1, cutIdx ey r.2.1))) fcn none none none none

theorem grp_rows {α κ : Type} (rows : List α) (f : α → Fl) (c : α → κ) (k : κ) :
    grp (rows.map f) (rows.map c) k = (rows.filter (fun r => decide (c r = k))).map f := by
  unfold grp
  rw [List.zip_map', List.filter_map, List.map_map]
  rfl

theorem hcast (L : List Nat) : (L.map (fun n : Nat => (n : ℝ))).sum = ((L.sum : Nat) : ℝ) := by
  induction L with
  | nil => simp
  | cons x L ih => rw [List.map_cons, List.sum_cons, List.sum_cons, ih, Nat.cast_add]

/-! ### C237: the order of the rows -/

theorem count_perm {g h : List Fl} (p : g.Perm h) : count g = count h := (p.filter _).length_eq

theorem aggVal_perm (f : Fcn) {g h : List Fl} (p : g.Perm h) : aggVal f g = aggVal f h := by
  cases f with
  | count => simp only [aggVal, count_perm p]
  | mean =>
    simp only [aggVal, Act.gmean]
    have hp : (Act.vals g).Perm (Act.vals h) := p.filterMap _
    have hs := hp.sum_eq
    have hl := hp.length_eq
    generalize Act.vals g = a at *
    generalize Act.vals h = b at *
    cases a with
    | nil => rw [List.perm_nil.mp hp.symm]
    | cons x a =>
      cases b with
      | nil => simp at hl
      | cons y b => simp only [hs, hl]

theorem chooseFcn_perm (fcn : Option Fcn) {g h : List Fl} (p : g.Perm h) : chooseFcn fcn g = chooseFcn fcn h := by
  unfold chooseFcn
  rw [((p.filter _).dedup).length_eq]

theorem binVal_perm {α κ : Type} {rows rows' : List α} (p : rows.Perm rows') (f : α → Fl) (c : α → κ) (fcn : Option Fcn)
    (c0 c1 : Option ℝ) (k : κ) :
    binVal (rows.map f) (rows.map c) fcn c0 c1 k = binVal (rows'.map f) (rows'.map c) fcn c0 c1 k := by
  have hg : (grp (rows.map f) (rows.map c) k).Perm (grp (rows'.map f) (rows'.map c) k) := by
    rw [grp_rows, grp_rows]; exact (p.filter _).map _
  unfold binVal
  rw [count_perm hg, aggVal_perm _ hg, chooseFcn_perm fcn (p.map f)]
  have : grp (rows.map f) (rows.map c) k = [] ↔ grp (rows'.map f) (rows'.map c) k = [] :=
    ⟨fun h => by rw [h] at hg; exact List.perm_nil.mp hg.symm, fun h => by rw [h] at hg; exact List.perm_nil.mp hg⟩
  simp only [this]

theorem foldl_min_perm {a b : ℝ} {s t : List ℝ} (p : (a :: s).Perm (b :: t)) : s.foldl min a = t.foldl min b := by
  have h1 : ∀ (l : List ℝ) (x : ℝ), l.foldl min x ∈ x :: l ∧ ∀ y ∈ x :: l, l.foldl min x ≤ y := by
    intro l
    induction l with
    | nil => intro x; simp
    | cons z l ih =>
      intro x
      obtain ⟨q1, q2⟩ := ih (min x z)
      simp only [List.foldl_cons]
      refine ⟨?_, ?_⟩
      · rcases List.mem_cons.mp q1 with q | q
        · rw [q]; rcases min_choice x z with w | w <;> simp [w]
        · simp [q]
      · intro y hy
        have h0 := q2 (min x z) (by simp)
        rcases List.mem_cons.mp hy with q | q
        · subst q; exact h0.trans (min_le_left _ _)
        · rcases List.mem_cons.mp q with q | q
          · subst q; exact h0.trans (min_le_right _ _)
          · exact q2 y (by simp [q])
  obtain ⟨a1, a2⟩ := h1 s a
  obtain ⟨b1, b2⟩ := h1 t b
  exact le_antisymm (a2 _ (p.symm.subset b1)) (b2 _ (p.subset a1))

theorem foldl_max_perm {a b : ℝ} {s t : List ℝ} (p : (a :: s).Perm (b :: t)) : s.foldl max a = t.foldl max b := by
  have h1 : ∀ (l : List ℝ) (x : ℝ), l.foldl max x ∈ x :: l ∧ ∀ y ∈ x :: l, y ≤ l.foldl max x := by
    intro l
    induction l with
    | nil => intro x; simp
    | cons z l ih =>
      intro x
      obtain ⟨q1, q2⟩ := ih (max x z)
      simp only [List.foldl_cons]
      refine ⟨?_, ?_⟩
      · rcases List.mem_cons.mp q1 with q | q
        · rw [q]; rcases max_choice x z with w | w <;> simp [w]
        · simp [q]
      · intro y hy
        have h0 := q2 (max x z) (by simp)
        rcases List.mem_cons.mp hy with q | q
        · subst q; exact (le_max_left _ _).trans h0
        · rcases List.mem_cons.mp q with q | q
          · subst q; exact (le_max_right _ _).trans h0
          · exact q2 y (by simp [q])
  obtain ⟨a1, a2⟩ := h1 s a
  obtain ⟨b1, b2⟩ := h1 t b
  exact le_antisymm (b2 _ (p.subset a1)) (a2 _ (p.symm.subset b1))

theorem rawEdges_perm (b : BinSpec) {d d' : List ℝ} (p : d.Perm d') : rawEdges b d = rawEdges b d' := by
  cases d with
  | nil => rw [List.perm_nil.mp p.symm]
  | cons x s =>
    cases d' with
    | nil => exact absurd p.length_eq (by simp)
    | cons y t =>
      cases b with
      | edges e => rfl
      | num n =>
        cases n with
        | zero => rfl
        | succ n => simp only [rawEdges, foldl_min_perm p, foldl_max_perm p]

/-- C237: neither the bin edges chosen for a data set nor any aggregate of it (any function, limits and normalisation, one or two
dimensions) depends on the order of its rows. -/
theorem C237_order (rnd : ℝ → ℝ) (b : BinSpec) (e ex ey : List ℝ) (log logx logy : Bool) (ax ax2 : Option String)
    (fcn : Option Fcn) (c0 c1 a0 a1 : Option ℝ) :
    (∀ xs xs' : List Fl, xs.Perm xs' → calcEdges rnd b xs = calcEdges rnd b xs') ∧
    (∀ rows rows' : List (Fl × Fl), rows.Perm rows' → histo e log ax rows fcn c0 c1 = histo e log ax rows' fcn c0 c1) ∧
    ∀ rows rows' : List (Fl × Fl × Fl), rows.Perm rows' →
      agg2 ex ey logx logy ax2 (rows.map (fun r => r.2.2)) (rows.map (fun r => (cutIdx ex r.1, cutIdx ey r.2.1))) fcn c0 c1 a0 a1 =
      agg2 ex ey logx logy ax2 (rows'.map (fun r => r.2.2)) (rows'.map (fun r => (cutIdx ex r.1, cutIdx ey r.2.1))) fcn c0 c1 a0 a1 := by
  refine ⟨?_, ?_, ?_⟩
  · intro xs xs' p
    unfold calcEdges
    have h : (Act.vals xs).Perm (Act.vals xs') := p.filterMap _
    rw [rawEdges_perm b h]
  · intro rows rows' p
    unfold histo agg1
    simp only [binVal_perm p Prod.snd (fun r => cutIdx e r.1)]
  · intro rows rows' p
    unfold agg2
    simp only [binVal_perm p (fun r : Fl × Fl × Fl => r.2.2) (fun r => (cutIdx ex r.1, cutIdx ey r.2.1))]

example : histo [0, 1, 2] false none [(Fl.fin 1, Fl.fin 7), (.fin 2, .fin 9)] (some .mean) none none =
    histo [0, 1, 2] false none [(Fl.fin 2, Fl.fin 9), (.fin 1, .fin 7)] (some .mean) none none :=
  (C237_order (fun x => x) (.num 3) [0, 1, 2] [] [] false false false none none (some .mean) none none none none).2.1 _ _
    (List.Perm.swap _ _ _)

/-! ### C238: joined data sets -/

theorem histo_get (e : List ℝ) (log : Bool) (rows : List (Fl × Fl)) (fcn : Option Fcn) (c0 c1 : Option ℝ) :
    histo e log none rows fcn c0 c1 = .ok ((List.range (e.length - 1)).map
      (fun i => binVal (rows.map Prod.snd) (rows.map (fun r => cutIdx e r.1)) fcn c0 c1 (some i))) := rfl

/-- the sum of the finite values that the mean of a cell averages -/
theorem gmean_mul (g : List Fl) : rv (Act.gmean g) * (Act.vals g).length = (Act.vals g).sum := by
  unfold Act.gmean
  cases h : Act.vals g with
  | nil => simp
  | cons x l =>
    simp only [rv_fin]
    rw [div_mul_cancel₀]
    simp only [List.length_cons]
    positivity

theorem count_vals {g : List Fl} (h : ∀ v ∈ g, v.isNaN ∨ v.isFinite) : count g = (Act.vals g).length := by
  induction g with
  | nil => rfl
  | cons v g ih =>
    have ih' := ih (fun u hu => h u (by simp [hu]))
    have hv := h v (by simp)
    have hc : count (v :: g) = (if v.isNaN then 0 else 1) + count g := by
      unfold count
      rw [List.filter_cons]
      by_cases hn : v.isNaN
      · simp [hn]
      · simp [hn]; omega
    rw [hc, ih']
    cases v with
    | fin r => simp [Act.vals]; omega
    | nan => simp [Act.vals]
    | pinf => simp [Fl.isNaN, Fl.isFinite] at hv
    | ninf => simp [Fl.isNaN, Fl.isFinite] at hv

theorem count_append (g h : List Fl) : count (g ++ h) = count g + count h := by
  unfold count; rw [List.filter_append, List.length_append]

theorem vals_append (g h : List Fl) : Act.vals (g ++ h) = Act.vals g ++ Act.vals h := by
  unfold Act.vals; rw [List.filterMap_append]

theorem grp_append (e : List ℝ) (a b : List (Fl × Fl)) (i : Nat) :
    grp ((a ++ b).map Prod.snd) ((a ++ b).map (fun r => cutIdx e r.1)) (some i) =
      grp (a.map Prod.snd) (a.map (fun r => cutIdx e r.1)) (some i) ++
      grp (b.map Prod.snd) (b.map (fun r => cutIdx e r.1)) (some i) := by
  rw [grp_rows, grp_rows, grp_rows, List.filter_append, List.map_append]

theorem binVal_mean {κ : Type} (zs : List Fl) (cuts : List κ) (k : κ) :
    rv (binVal zs cuts (some .mean) none none k) = rv (Act.gmean (grp zs cuts k)) := by
  unfold binVal
  by_cases hg : grp zs cuts k = []
  · rw [if_pos hg, hg]; rfl
  · rw [if_neg hg, if_pos (by simp [climKeep])]; rfl

theorem binVal_nan {κ : Type} (zs : List Fl) (cuts : List κ) (k : κ) :
    binVal zs cuts (some .count) none none k = .nan ↔ grp zs cuts k = [] := by
  unfold binVal
  by_cases hg : grp zs cuts k = []
  · rw [if_pos hg]; simp [hg]
  · rw [if_neg hg, if_pos (by simp [climKeep])]
    simp [chooseFcn, aggVal, hg]

/-- C238: with the same edges, every bin of the histogram of two joined data sets counts what the two histograms count together, and
is missing only where both are; the means combine with the counts as weights. -/
theorem C238_join (e : List ℝ) (log : Bool) (a b : List (Fl × Fl)) (hfin : ∀ r ∈ a ++ b, r.2.isNaN ∨ r.2.isFinite) :
    ∃ ca cb cj ma mb mj : List Fl,
      histo e log none a (some .count) none none = .ok ca ∧ histo e log none b (some .count) none none = .ok cb ∧
      histo e log none (a ++ b) (some .count) none none = .ok cj ∧
      histo e log none a (some .mean) none none = .ok ma ∧ histo e log none b (some .mean) none none = .ok mb ∧
      histo e log none (a ++ b) (some .mean) none none = .ok mj ∧
      ∀ i, i < e.length - 1 → ∃ na nb nj ua ub uj : Fl,
        ca[i]? = some na ∧ cb[i]? = some nb ∧ cj[i]? = some nj ∧ ma[i]? = some ua ∧ mb[i]? = some ub ∧ mj[i]? = some uj ∧
        rv nj = rv na + rv nb ∧ (nj = .nan ↔ na = .nan ∧ nb = .nan) ∧
        rv uj * rv nj = rv ua * rv na + rv ub * rv nb := by
  refine ⟨_, _, _, _, _, _, histo_get _ _ _ _ _ _, histo_get _ _ _ _ _ _, histo_get _ _ _ _ _ _, histo_get _ _ _ _ _ _,
    histo_get _ _ _ _ _ _, histo_get _ _ _ _ _ _, ?_⟩
  intro i hi
  simp only [List.getElem?_map, List.getElem?_range hi, Option.map_some]
  refine ⟨_, _, _, _, _, _, rfl, rfl, rfl, rfl, rfl, rfl, ?_⟩
  simp only [binVal_count, binVal_mean, binVal_nan, grp_append, count_append]
  have hf : ∀ rows : List (Fl × Fl), (∀ r ∈ rows, r.2.isNaN ∨ r.2.isFinite) →
      ∀ v ∈ grp (rows.map Prod.snd) (rows.map (fun r => cutIdx e r.1)) (some i), v.isNaN ∨ v.isFinite := by
    intro rows h v hv
    rw [grp_rows] at hv
    obtain ⟨r, hr, rfl⟩ := List.mem_map.mp hv
    exact h r (List.mem_of_mem_filter hr)
  have ha := hf a (fun r hr => hfin r (by simp [hr]))
  have hb := hf b (fun r hr => hfin r (by simp [hr]))
  generalize grp (a.map Prod.snd) (a.map (fun r => cutIdx e r.1)) (some i) = ga at *
  generalize grp (b.map Prod.snd) (b.map (fun r => cutIdx e r.1)) (some i) = gb at *
  refine ⟨by push_cast; ring, by simp, ?_⟩
  rw [count_vals ha, count_vals hb, gmean_mul, gmean_mul]
  have := gmean_mul (ga ++ gb)
  rw [vals_append, List.length_append, List.sum_append] at this
  exact this

/-- one row each in the same bin: two rows joined, and the mean 5 of 4 and 6 -/
example : ∃ mj : List Fl, histo [0, 1] false none ([(Fl.fin 1, Fl.fin 4)] ++ [(.fin 1, .fin 6)]) (some .mean) none none = .ok mj ∧
    ∃ u, mj[0]? = some u ∧ rv u * 2 = 4 + 6 := by
  obtain ⟨ca, cb, cj, ma, mb, mj, h1, h2, h3, h4, h5, h6, h⟩ := C238_join [0, 1] false [(Fl.fin 1, Fl.fin 4)] [(.fin 1, .fin 6)]
    (by simp [Fl.isFinite])
  obtain ⟨na, nb, nj, ua, ub, uj, q1, q2, q3, q4, q5, q6, w1, _, w3⟩ := h 0 (by simp)
  refine ⟨mj, h6, uj, q6, ?_⟩
  have hc : cutIdx [0, 1] (.fin 1) = some 0 := by simp [cutIdx, inIvl]
  rw [histo_get] at h1 h2 h4 h5
  injection h1 with h1; injection h2 with h2; injection h4 with h4; injection h5 with h5
  rw [← h1] at q1; rw [← h2] at q2; rw [← h4] at q4; rw [← h5] at q5
  simp [binVal, grp, hc, climKeep, chooseFcn, aggVal, Act.gmean, Act.vals, count] at q1 q2 q4 q5
  rw [w1, ← q1, ← q2, ← q4, ← q5] at w3
  simp only [rv_fin] at w3
  linarith

/-- C238: without an explicit function the aggregate is not additive: two data sets whose values are constant are counted, but
joined, if the two constants differ, they are averaged. -/
theorem C238_default (e : List ℝ) (log : Bool) (a b : List (Fl × Fl)) {u v : ℝ} (huv : u ≠ v) (ha : a ≠ []) (hb : b ≠ [])
    (hau : ∀ r ∈ a, r.2 = .fin u) (hbv : ∀ r ∈ b, r.2 = .fin v) (c0 c1 : Option ℝ) :
    histo e log none a none c0 c1 = histo e log none a (some .count) c0 c1 ∧
    histo e log none b none c0 c1 = histo e log none b (some .count) c0 c1 ∧
    histo e log none (a ++ b) none c0 c1 = histo e log none (a ++ b) (some .mean) c0 c1 := by
  have hconst : ∀ (rows : List (Fl × Fl)) (w : ℝ), rows ≠ [] → (∀ r ∈ rows, r.2 = .fin w) →
      chooseFcn none (rows.map Prod.snd) = .count := by
    intro rows w hne h
    have hm : rows.map Prod.snd = List.replicate rows.length (.fin w) := by
      rw [List.eq_replicate_iff]
      exact ⟨by simp, fun x hx => by obtain ⟨r, hr, rfl⟩ := List.mem_map.mp hx; exact h r hr⟩
    have hpos : rows.length ≠ 0 := by simpa using hne
    unfold chooseFcn
    simp only []
    rw [if_pos]
    rw [hm, List.filter_eq_self.mpr (by intro x hx; rw [(List.mem_replicate.mp hx).2]; simp), List.replicate_dedup hpos]
    rfl
  have hmean : chooseFcn none ((a ++ b).map Prod.snd) = .mean := by
    unfold chooseFcn
    simp only []
    rw [if_neg]
    intro h
    obtain ⟨w, hw⟩ := List.length_eq_one_iff.mp h
    obtain ⟨ra, hra⟩ := List.exists_mem_of_ne_nil a ha
    obtain ⟨rb, hrb⟩ := List.exists_mem_of_ne_nil b hb
    have hin : ∀ r ∈ a ++ b, ¬ r.2.isNaN → r.2 = w := by
      intro r hr hn
      have : r.2 ∈ (((a ++ b).map Prod.snd).filter (fun v => decide (¬ v.isNaN))).dedup := by
        rw [List.mem_dedup, List.mem_filter]
        exact ⟨List.mem_map.mpr ⟨r, hr, rfl⟩, by simpa using hn⟩
      rw [hw] at this
      simpa using this
    have h1 := hin ra (by simp [hra]) (by rw [hau ra hra]; simp)
    have h2 := hin rb (by simp [hrb]) (by rw [hbv rb hrb]; simp)
    rw [hau ra hra] at h1
    rw [hbv rb hrb, ← h1, Fl.fin_inj] at h2
    exact huv h2.symm
  have hb' : ∀ (rows : List (Fl × Fl)) (f : Fcn), chooseFcn none (rows.map Prod.snd) = f →
      histo e log none rows none c0 c1 = histo e log none rows (some f) c0 c1 := by
    intro rows f hf
    rw [histo_get, histo_get]
    congr 2
    funext i
    unfold binVal
    rw [hf]; rfl
  exact ⟨hb' a _ (hconst a u ha hau), hb' b _ (hconst b v hb hbv), hb' _ _ hmean⟩

example : histo [0, 1] false none [(Fl.fin 1, Fl.fin 4), (.fin 1, .fin 6)] none none none = .ok [.fin 5] := by
  have h := (C238_default [0, 1] false [(Fl.fin 1, Fl.fin 4)] [(.fin 1, .fin 6)] (u := 4) (v := 6) (by norm_num) (by simp)
    (by simp) (by simp) (by simp) none none).2.2
  refine Eq.trans h ?_
  have hc : cutIdx [0, 1] (.fin 1) = some 0 := by simp [cutIdx, inIvl]
  simp [histo, agg1, binVal, grp, hc, climKeep, chooseFcn, aggVal, Act.gmean, Act.vals]
  norm_num

/-! ### C239: coarser bins -/

theorem inBin_coarse {e : List ℝ} (he : e.Pairwise (· ≤ ·)) {p q : Nat} {l r : ℝ} (hl : e[p]? = some l) (hr : e[q]? = some r)
    (t : ℝ) : (∃ k, p ≤ k ∧ k < q ∧ InBin e k t) ↔ l < t ∧ t ≤ r ∧ p ≤ q := by
  have mono : ∀ (i j : Nat) (x y : ℝ), e[i]? = some x → e[j]? = some y → i ≤ j → x ≤ y := by
    intro i j x y hx hy hij
    obtain ⟨hi, rfl⟩ := List.getElem?_eq_some_iff.mp hx
    obtain ⟨hj, rfl⟩ := List.getElem?_eq_some_iff.mp hy
    rcases Nat.lt_or_eq_of_le hij with h | h
    · exact List.pairwise_iff_getElem.mp he i j hi hj h
    · subst h; exact le_refl _
  constructor
  · rintro ⟨k, h1, h2, a, b, ha, hb, h3, h4⟩
    exact ⟨lt_of_le_of_lt (mono p k l a hl ha h1) h3, h4.trans (mono (k + 1) q b r hb hr h2), by omega⟩
  · rintro ⟨h1, h2, h3⟩
    induction q generalizing r with
    | zero =>
      obtain rfl : p = 0 := by omega
      rw [hl] at hr; injection hr with hr; subst hr
      exact absurd h1 (not_lt.mpr h2)
    | succ q ih =>
      rcases Nat.lt_or_eq_of_le h3 with h | h
      · have hq : q < e.length := by
          have := (List.getElem?_eq_some_iff.mp hr).1; omega
        by_cases hm : t ≤ e[q]
        · obtain ⟨k, q1, q2, q3⟩ := ih (List.getElem?_eq_getElem hq) hm (by omega)
          exact ⟨k, q1, by omega, q3⟩
        · exact ⟨q, by omega, by omega, e[q], r, List.getElem?_eq_getElem hq, hr, not_le.mp hm, h2⟩
      · subst h
        rw [hl] at hr; injection hr with hr; subst hr
        exact absurd h1 (not_lt.mpr h2)

/-- C239: if a bin of the edges `e'` runs from the `p`-th to the `q`-th edge of finer edges `e`, it counts exactly what the finer bins
`p`, …, `q - 1` count together. -/
theorem C239_coarser (e e' : List ℝ) (he : e.Pairwise (· ≤ ·)) (he' : e'.Pairwise (· ≤ ·)) (log : Bool) (rows : List (Fl × Fl)) :
    ∃ c c' : List Fl, histo e log none rows (some .count) none none = .ok c ∧
      histo e' log none rows (some .count) none none = .ok c' ∧
      ∀ (i p q : Nat) (l r : ℝ), e'[i]? = some l → e'[i + 1]? = some r → e[p]? = some l → e[q]? = some r → p ≤ q →
        ∃ n, c'[i]? = some n ∧ rv n = ((List.range' p (q - p)).map (fun k => rv (c.getD k .nan))).sum := by
  refine ⟨_, _, histo_get _ _ _ _ _ _, histo_get _ _ _ _ _ _, ?_⟩
  intro i p q l r hl' hr' hl hr hpq
  have hi : i < e'.length - 1 := by have := (List.getElem?_eq_some_iff.mp hr').1; omega
  refine ⟨_, by simp only [List.getElem?_map, List.getElem?_range hi, Option.map_some]; rfl, ?_⟩
  rw [binVal_count]
  have hq : q < e.length := (List.getElem?_eq_some_iff.mp hr).1
  have hget : (List.range' p (q - p)).map (fun k => rv (((List.range (e.length - 1)).map
        (fun i => binVal (rows.map Prod.snd) (rows.map (fun r => cutIdx e r.1)) (some .count) none none (some i))).getD k .nan)) =
      ((List.range' p (q - p)).map (fun k => count (grp (rows.map Prod.snd) (rows.map (fun r => cutIdx e r.1)) (some k)))).map
        (fun n : Nat => (n : ℝ)) := by
    rw [List.map_map]
    apply List.map_congr_left
    intro k hk
    have hk' : k < e.length - 1 := by
      have := List.mem_range'_1.mp hk; omega
    rw [List.getD_eq_getElem?_getD, List.getElem?_map, List.getElem?_range hk']
    exact binVal_count _ _ _
  rw [hget]
  have hsum := sum_counts (rows.map Prod.snd) (rows.map (fun r => cutIdx e r.1)) ((List.range' p (q - p)).map some)
    (List.Nodup.map (fun a b h => Option.some.inj h) List.nodup_range')
  rw [List.map_map] at hsum
  rw [hcast]
  refine congrArg _ (Eq.trans ?_ hsum.symm)
  rw [grp_eq, List.zip_map', List.zip_map', List.countP_map, List.countP_map]
  apply List.countP_congr
  rintro ⟨x, y⟩ _
  have key : cutIdx e' x = some i ↔ cutIdx e x ∈ (List.range' p (q - p)).map some := by
    rw [cutIdx_in e' he']
    constructor
    · rintro ⟨t, rfl, l1, r1, h1, h2, h3, h4⟩
      rw [hl'] at h1; rw [hr'] at h2
      injection h1 with h1; injection h2 with h2; subst h1; subst h2
      obtain ⟨k, k1, k2, k3⟩ := (inBin_coarse he hl hr t).mpr ⟨h3, h4, hpq⟩
      rw [(cutIdx_iff e he t k).mpr k3]
      exact List.mem_map.mpr ⟨k, List.mem_range'_1.mpr ⟨k1, by omega⟩, rfl⟩
    · intro h
      obtain ⟨k, hk, hx⟩ := List.mem_map.mp h
      obtain ⟨t, rfl, h3⟩ := (cutIdx_in e he x k).mp hx.symm
      have hk' := List.mem_range'_1.mp hk
      obtain ⟨h4, h5, _⟩ := (inBin_coarse he hl hr t).mp ⟨k, hk'.1, by omega, h3⟩
      exact ⟨t, rfl, l, r, hl', hr', h4, h5⟩
  simp only [Function.comp_apply, decide_eq_true_eq, key]

/-- the coarse bin `(0, 2]` over the fine bins `(0, 1]`, `(1, 2]` -/
example : ∃ n, (∃ c', histo [0, 2] false none [(Fl.fin 1, Fl.fin 7), (.fin 2, .fin 7)] (some .count) none none = .ok c' ∧
    c'[0]? = some n) ∧ rv n = 2 := by
  obtain ⟨c, c', h1, h2, h3⟩ := C239_coarser [0, 1, 2] [0, 2] (by norm_num) (by norm_num) false [(Fl.fin 1, Fl.fin 7), (.fin 2, .fin 7)]
  obtain ⟨n, h4, h5⟩ := h3 0 0 2 0 2 rfl rfl rfl rfl (by norm_num)
  refine ⟨n, ⟨c', h2, h4⟩, h5.trans ?_⟩
  rw [histo_get] at h1
  injection h1 with h1
  rw [← h1]
  have e1 : cutIdx [0, 1, 2] (.fin 1) = some 0 := by simp [cutIdx, inIvl]
  have e2 : cutIdx [0, 1, 2] (.fin 2) = some 1 := by simp [cutIdx, inIvl]
  simp [List.range', binVal, grp, e1, e2, climKeep, chooseFcn, aggVal, count, List.range_succ]
  norm_num

/-! ### C240: marginals and rescaled axes -/

/-- C240: summing a 2-D count histogram over the y bins gives the 1-D count histogram of the rows whose y lies in the binned range. -/
theorem C240_marginal (ex ey : List ℝ) (hy : ey.Pairwise (· ≤ ·)) {a z : ℝ} (ha : ey.head? = some a) (hz : ey.getLast? = some z)
    (logx logy : Bool) (rows : List (Fl × Fl × Fl)) :
    ∃ (g : Grid) (c : List Fl), histo2 ex ey logx logy rows (some .count) = .ok g ∧
      histo ex logx none ((rows.filter (fun r => decide (InRange a z r.2.1))).map (fun r => (r.1, r.2.2))) (some .count) none none
        = .ok c ∧
      ∀ i, i < ex.length - 1 → ∃ n, c[i]? = some n ∧
        rv n = ((List.range (ey.length - 1)).map (fun j => rv (g i j))).sum := by
  refine ⟨_, _, rfl, histo_get _ _ _ _ _ _, ?_⟩
  intro i hi
  refine ⟨_, by simp only [List.getElem?_map, List.getElem?_range hi, Option.map_some]; rfl, ?_⟩
  have hmask : ∀ v : Fl, alimMask none none v = v := by intro v; unfold alimMask; simp
  simp only [hmask, binVal_count]
  have hsum := sum_counts (rows.map (fun r => r.2.2)) (rows.map (fun r => (cutIdx ex r.1, cutIdx ey r.2.1)))
    ((List.range (ey.length - 1)).map (fun j => ((some i, some j) : Option Nat × Option Nat)))
    (List.Nodup.map (fun a b h => by simpa using h) List.nodup_range)
  rw [List.map_map] at hsum
  refine Eq.trans ?_ (hcast ((List.range (ey.length - 1)).map
    (fun j => count (grp (rows.map (fun r => r.2.2)) (rows.map (fun r => (cutIdx ex r.1, cutIdx ey r.2.1))) (some i, some j))))
    |>.symm.trans (by rw [List.map_map]; rfl))
  refine congrArg _ (Eq.trans ?_ hsum.symm)
  rw [grp_eq, List.map_map, List.map_map, List.zip_map', List.zip_map', List.countP_map, List.countP_map, List.countP_filter]
  apply List.countP_congr
  rintro ⟨x, y, w⟩ _
  have hk := cut_mem_iff hy ha hz y
  have key : (cutIdx ex x, cutIdx ey y) ∈ (List.range (ey.length - 1)).map (fun j => ((some i, some j) : Option Nat × Option Nat)) ↔
      cutIdx ex x = some i ∧ InRange a z y := by
    rw [← hk, List.mem_map]
    constructor
    · rintro ⟨j, hj, h⟩
      simp only [Prod.mk.injEq] at h
      exact ⟨h.1.symm, j, List.mem_range.mp hj, h.2.symm⟩
    · rintro ⟨h1, j, hj, h2⟩
      exact ⟨j, List.mem_range.mpr hj, by rw [h1, h2]⟩
  simp only [Function.comp_apply, key, decide_eq_true_eq, Bool.and_eq_true, and_assoc]

example : ∃ (g : Grid) (c : List Fl), histo2 [0, 1] [0, 1, 2] false false [(Fl.fin 1, Fl.fin 1, Fl.fin 7), (.fin 1, .fin 2, .fin 7)]
    (some .count) = .ok g ∧ (∃ n, c[0]? = some n ∧ rv n = ((List.range 2).map (fun j => rv (g 0 j))).sum) := by
  obtain ⟨g, c, h1, _, h3⟩ := C240_marginal [0, 1] [0, 1, 2] (by norm_num) (a := 0) (z := 2) rfl rfl false false
    [(Fl.fin 1, Fl.fin 1, Fl.fin 7), (.fin 1, .fin 2, .fin 7)]
  exact ⟨g, c, h1, h3 0 (by simp)⟩

/-- an affine change of units of a value -/
noncomputable def affine (s t : ℝ) (v : Fl) : Fl := .fin s * v + .fin t

theorem cutIdx_affine {s t : ℝ} (hs : 0 < s) : ∀ (e : List ℝ) (v : Fl),
    cutIdx (e.map (fun x => s * x + t)) (affine s t v) = cutIdx e v := by
  have hin : ∀ (l r : ℝ) (v : Fl), inIvl (s * l + t) (s * r + t) (affine s t v) ↔ inIvl l r v := by
    intro l r v
    cases v with
    | fin x =>
      unfold affine
      rw [Fl.fin_mul, Fl.fin_add, inIvl_fin, inIvl_fin]
      constructor <;> rintro ⟨h1, h2⟩ <;> constructor <;> nlinarith
    | nan => unfold inIvl affine; simp [Fl.lt, Fl.le]
    | pinf =>
      have : affine s t .pinf = .pinf := by
        unfold affine
        simp [HMul.hMul, Mul.mul, Fl.mul, Fl.infMul, HAdd.hAdd, Add.add, Fl.add, hs, hs.ne']
      rw [this]; unfold inIvl; simp [Fl.lt, Fl.le]
    | ninf =>
      have : affine s t .ninf = .ninf := by
        unfold affine
        simp [HMul.hMul, Mul.mul, Fl.mul, Fl.infMul, HAdd.hAdd, Add.add, Fl.add, hs, hs.ne']
      rw [this]; unfold inIvl; simp [Fl.lt, Fl.le]
  intro e
  induction e with
  | nil => intro v; rfl
  | cons l e ih =>
    intro v
    cases e with
    | nil => rfl
    | cons r e =>
      have := ih v
      simp only [List.map_cons, cutIdx] at this ⊢
      rw [this]
      simp only [hin]

theorem width_affine (s t : ℝ) (e : List ℝ) {i : Nat} (hi : i + 1 < e.length) :
    width (e.map (fun x => s * x + t)) i = s * width e i := by
  unfold width
  have h0 : i < e.length := by omega
  simp only [List.getD_eq_getElem?_getD, List.getElem?_map, List.getElem?_eq_getElem h0, List.getElem?_eq_getElem hi,
    Option.map_some, Option.getD_some]
  ring

/-- C240: changing the unit and the origin of x, in the data and in the edges alike, changes no bin of an unnormalised histogram, and
divides every present density by the scale factor (linear axis). -/
theorem C240_units (e : List ℝ) {s t : ℝ} (hs : 0 < s) (log : Bool) (rows : List (Fl × Fl)) (fcn : Option Fcn) (c0 c1 : Option ℝ) :
    histo (e.map (fun x => s * x + t)) log none (rows.map (fun r => (affine s t r.1, r.2))) fcn c0 c1 =
      histo e log none rows fcn c0 c1 ∧
    (fcn ≠ some .mean → ∃ d d' : List Fl, histo e false (some "d") rows fcn c0 c1 = .ok d ∧
      histo (e.map (fun x => s * x + t)) false (some "d") (rows.map (fun r => (affine s t r.1, r.2))) fcn c0 c1 = .ok d' ∧
      d'.length = d.length ∧
      ∀ (i : Nat) (v : ℝ), i + 1 < e.length → width e i ≠ 0 → d[i]? = some (.fin v) → d'[i]? = some (.fin (v / s))) := by
  have hc : (rows.map (fun r => (affine s t r.1, r.2))).map (fun r => cutIdx (e.map (fun x => s * x + t)) r.1) =
      rows.map (fun r => cutIdx e r.1) := by
    rw [List.map_map]
    apply List.map_congr_left
    intro r _
    exact cutIdx_affine hs e r.1
  have hz : (rows.map (fun r => (affine s t r.1, r.2))).map Prod.snd = rows.map Prod.snd := by
    rw [List.map_map]; rfl
  refine ⟨by unfold histo agg1; rw [hc, hz, List.length_map], ?_⟩
  intro hf
  unfold histo agg1
  simp only [if_neg hf, if_true, hc, hz, List.length_map]
  refine ⟨_, _, rfl, rfl, by simp [density1], ?_⟩
  have hms : Act.Measured ((List.range (e.length - 1)).map
      (fun i => binVal (rows.map Prod.snd) (rows.map (fun r => cutIdx e r.1)) fcn c0 c1 (some i))) := by
    intro v hv
    obtain ⟨i, _, rfl⟩ := List.mem_map.mp hv
    exact binVal_measured _ _ _ _ _ _
  generalize hA : (List.range (e.length - 1)).map
      (fun i => binVal (rows.map Prod.snd) (rows.map (fun r => cutIdx e r.1)) fcn c0 c1 (some i)) = A at hms ⊢
  intro i v hi hw hd
  have hlen : i < A.length := by rw [← hA]; simp; omega
  have hg : ∀ f : List ℝ, (density1 false f A)[i]? = some (A.getD i .nan / (.fin (dens false (width f i)) * Fl.sumSkip A)) := by
    intro f
    unfold density1
    rw [List.getElem?_map, List.getElem?_range hlen]; rfl
  rw [hg] at hd ⊢
  rw [width_affine s t e hi]
  injection hd with hd
  congr 1
  obtain ⟨N, hN⟩ : ∃ N, Fl.sumSkip A = .fin N := by
    have := sumSkip_rv A id (fun a ha => hms a ha)
    rw [List.map_id] at this
    exact ⟨_, this⟩
  rw [hN] at hd ⊢
  simp only [dens, Bool.false_eq_true, if_false, Fl.fin_mul] at hd ⊢
  rcases hms (A.getD i .nan) (by rw [List.getD_eq_getElem?_getD, List.getElem?_eq_getElem hlen]; exact List.getElem_mem hlen) with h | ⟨r, h⟩
  · rw [h] at hd; simp at hd
  · rw [h] at hd ⊢
    by_cases hN0 : N = 0
    · exfalso
      rw [hN0, mul_zero] at hd
      revert hd
      simp only [HDiv.hDiv, Div.div, Fl.div]
      split_ifs <;> simp
    · rw [Fl.fin_div _ _ (mul_ne_zero hw hN0), Fl.fin_inj] at hd
      rw [Fl.fin_div _ _ (mul_ne_zero (mul_ne_zero hs.ne' hw) hN0), Fl.fin_inj, ← hd]
      field_simp

example : histo ([0, 1, 2].map (fun x : ℝ => 1000 * x + 5)) false none ([(Fl.fin 1, Fl.fin 7)].map (fun r => (affine 1000 5 r.1, r.2)))
    (some .count) none none = histo [0, 1, 2] false none [(Fl.fin 1, Fl.fin 7)] (some .count) none none :=
  (C240_units [0, 1, 2] (by norm_num) false [(Fl.fin 1, Fl.fin 7)] (some .count) none none).1

end Hist
end SW
