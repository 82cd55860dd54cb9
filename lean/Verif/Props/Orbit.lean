import Verif.Orbit
import Verif.Props.Hist2

/-!
# Properties of orbit plots, scatter plots and colour bars (C158-C163)
-/

namespace SW
namespace Orb

open Classical

/-! ### C158: legs of an orbit -/

instance : Std.Total lexLe := ⟨fun a b => by unfold lexLe; omega⟩
instance : IsTrans (Int × Int) lexLe := ⟨fun a b c => by unfold lexLe; omega⟩

/-- the time lies in the interval `(l, r]` -/
def During (i : Int × Int) (t : Int) : Prop := i.1 < t ∧ t ≤ i.2

/-- no two of the intervals share a time -/
def Disjoint (o : List (Int × Int)) : Prop := o.Pairwise (fun a b => a.2 ≤ b.1 ∨ b.2 ≤ a.1)

theorem overlapping_sort (o : List (Int × Int)) : overlapping (o.insertionSort lexLe) ↔ ¬ Disjoint o := by
  unfold overlapping Disjoint
  rw [(List.perm_insertionSort lexLe o).pairwise_iff]
  intro a b h
  exact h.symm

/-- C158: for an orbit of at least two intervals without common times, in whatever order given, a measurement is "Inbound" exactly
during the earliest interval, "Outbound" exactly during the second, and belongs to no leg otherwise. -/
theorem C158_legs (o : List (Int × Int)) (hp : ∀ i ∈ o, i.1 < i.2) (hd : Disjoint o) (h2 : 2 ≤ o.length) :
    ∃ s a b rest, setOrbit true o = .ok s ∧ s = a :: b :: rest ∧ s.Perm o ∧
      (∀ c ∈ b :: rest, a.2 ≤ c.1) ∧ (∀ c ∈ rest, b.2 ≤ c.1) ∧
      ∀ times, ∃ out : List (Option Leg), legs s times = .ok out ∧ out.length = times.length ∧
        ∀ (k : Nat) (t : Int), times[k]? = some t → ∃ l, out[k]? = some l ∧
          (l = some .inbound ↔ During a t) ∧ (l = some .outbound ↔ During b t) ∧
          (l = none ↔ ¬ During a t ∧ ¬ During b t) := by
  have hperm := List.perm_insertionSort lexLe o
  have hsort := List.pairwise_insertionSort lexLe o
  have hno : ¬ overlapping (o.insertionSort lexLe) := by rw [overlapping_sort]; exact fun h => h hd
  have hdis : Disjoint (o.insertionSort lexLe) := by
    by_contra h
    exact hno h
  have hlen := hperm.length_eq
  have hpos : ∀ i ∈ o.insertionSort lexLe, i.1 < i.2 := fun i hi => hp i (hperm.mem_iff.mp hi)
  rcases hs : o.insertionSort lexLe with _ | ⟨a, _ | ⟨b, rest⟩⟩
  · rw [hs] at hlen; simp at hlen; omega
  · rw [hs] at hlen; simp at hlen; omega
  · rw [hs] at hperm hsort hno hdis hpos
    have hord : (a :: b :: rest).Pairwise (fun a c => a.2 ≤ c.1) := by
      have h3 : (a :: b :: rest).Pairwise (fun a c => lexLe a c ∧ (a.2 ≤ c.1 ∨ c.2 ≤ a.1)) := hsort.and hdis
      refine List.Pairwise.imp_of_mem ?_ h3
      intro x y hx hy h
      have := hpos y hy
      unfold lexLe at h
      omega
    rw [List.pairwise_cons, List.pairwise_cons] at hord
    refine ⟨_, a, b, rest, by rw [setOrbit, if_pos rfl], hs, by rw [hs]; exact hperm, hord.1, hord.2.1, ?_⟩
    intro times
    rw [hs]
    refine ⟨times.map (leg a b), by rw [legs, if_neg hno], by simp, ?_⟩
    intro k t hk
    refine ⟨leg a b t, by rw [List.getElem?_map, hk]; rfl, ?_⟩
    have hab := hord.1 b (List.mem_cons_self ..)
    unfold leg During
    by_cases ha : a.1 < t ∧ t ≤ a.2
    · rw [if_pos ha]
      have : ¬ (b.1 < t ∧ t ≤ b.2) := by omega
      simp [ha, this]
    · rw [if_neg ha]
      by_cases hb : b.1 < t ∧ t ≤ b.2
      · rw [if_pos hb]; simp [ha, hb]
      · rw [if_neg hb]; simp [ha, hb]

/-- C158: everything else is refused: no IntervalIndex: TypeError; intervals with common times: ValueError; fewer than two: IndexError. -/
theorem C158_refused (o : List (Int × Int)) (times : List Int) :
    setOrbit false o = .error .typeError ∧
    (¬ Disjoint o → ∃ s, setOrbit true o = .ok s ∧ legs s times = .error .valueError) ∧
    (Disjoint o → o.length < 2 → ∃ s, setOrbit true o = .ok s ∧ legs s times = .error .indexError) := by
  refine ⟨rfl, fun h => ⟨_, rfl, ?_⟩, fun h hl => ⟨_, rfl, ?_⟩⟩
  · unfold legs; rw [if_pos ((overlapping_sort o).mpr h)]
  · have hlen := (List.perm_insertionSort lexLe o).length_eq
    have hno : ¬ overlapping (o.insertionSort lexLe) := by rw [overlapping_sort]; exact fun h' => h' h
    rcases hs : o.insertionSort lexLe with _ | ⟨a, _ | ⟨b, rest⟩⟩
    · rw [hs] at hno; unfold legs; rw [if_neg hno]
    · rw [hs] at hno; unfold legs; rw [if_neg hno]
    · rw [hs] at hlen; simp at hlen; omega

/-- C158: a count cell holds the number of measured values with that x bin, y bin and leg. -/
theorem C158_cell (zs : List Fl) (cuts : List (Option Nat × Option Nat × Option Leg)) (l : Leg) (i j : Nat) :
    legVal zs cuts (some .count) none none l i j =
      .fin ((zs.zip cuts).countP (fun p => decide (¬ p.1.isNaN ∧ p.2 = (some i, some j, some l)))) := by
  unfold legVal
  rw [if_pos ⟨by simp, by simp⟩]
  show Fl.fin (Hist.count (Hist.grp zs cuts (some i, some j, some l)) : ℝ) = _
  congr 2
  unfold Hist.count Hist.grp
  rw [List.filter_map, List.length_map, List.filter_filter, ← List.countP_eq_length_filter]
  congr 1
  funext p
  by_cases h1 : p.1.isNaN <;> by_cases h2 : p.2 = (some i, some j, some l) <;> simp [Function.comp, h1, h2]

/-- non-vacuity: an orbit given in reverse order -/
example : Disjoint [(10, 20), (0, 10)] ∧ (∀ i ∈ [((10 : Int), (20 : Int)), (0, 10)], i.1 < i.2) := by
  unfold Disjoint; decide

/-! ### C159: normalisation by leg -/

/-- a count or any other non-negative value, or missing -/
def NonNeg (v : Fl) : Prop := v = .nan ∨ ∃ r : ℝ, 0 ≤ r ∧ v = .fin r

theorem gmax_cases {g : List Fl} (h : ∀ v ∈ g, NonNeg v) : (Act.gmax g = .nan ∧ ∀ v ∈ g, v = .nan) ∨
    ∃ M : ℝ, 0 ≤ M ∧ Act.IsMax M g ∧ Act.gmax g = .fin M := by
  by_cases hf : ∃ r, Fl.fin r ∈ g
  · right
    obtain ⟨r, hr⟩ := hf
    obtain ⟨M, hM, _⟩ := Hist.exists_max hr
    refine ⟨M, ?_, hM, Act.gmax_eq hM⟩
    rcases h _ hM.1 with h | ⟨q, hq, he⟩
    · simp at h
    · simp only [Fl.fin.injEq] at he; rw [he]; exact hq
  · left
    have hall : ∀ v ∈ g, v = .nan := by
      intro v hv
      rcases h v hv with h | ⟨q, _, he⟩
      · exact h
      · exact absurd ⟨q, he ▸ hv⟩ hf
    refine ⟨?_, hall⟩
    unfold Act.gmax
    have : Act.vals g = [] := by
      rw [List.eq_nil_iff_forall_not_mem]
      intro r hr
      exact hf ⟨r, Act.mem_vals.mp hr⟩
    rw [this]

theorem zero_div_zero' : (Fl.fin 0) / (Fl.fin 0) = .nan := by
  show (if (0 : ℝ) = 0 then _ else _) = _
  simp

/-- dividing by the largest value of a larger set first makes no difference -/
theorem norm_twice {α : Type} (l : List α) (f : α → Fl) (L : List Fl) (hL : ∀ v ∈ L, NonNeg v) (hsub : ∀ k ∈ l, f k ∈ L) (k : α)
    (hk : k ∈ l) :
    (f k / Act.gmax L) / Act.gmax (l.map (fun k => f k / Act.gmax L)) = f k / Act.gmax (l.map f) := by
  have hf : ∀ v ∈ l.map f, NonNeg v := by
    intro v hv
    obtain ⟨j, hj, rfl⟩ := List.mem_map.mp hv
    exact hL _ (hsub j hj)
  have hfk : NonNeg (f k) := hL _ (hsub k hk)
  rcases gmax_cases hL with ⟨hn, hall⟩ | ⟨M, hM0, hM, hMe⟩
  · have : f k = .nan := hall _ (hsub k hk)
    rw [this]; simp
  · rw [hMe]
    rcases eq_or_lt_of_le hM0 with h0 | hpos
    · -- all values are 0 or missing
      subst h0
      have hz : ∀ v ∈ L, v = .nan ∨ v = .fin 0 := by
        intro v hv
        rcases hL v hv with h | ⟨q, hq, he⟩
        · exact Or.inl h
        · right; rw [he]; congr 1
          exact le_antisymm (hM.2 q (he ▸ hv)) hq
      have hlhs : f k / Fl.fin 0 = .nan := by
        rcases hz _ (hsub k hk) with h | h <;> rw [h]
        · simp
        · exact zero_div_zero'
      rw [hlhs]
      simp only [Fl.nan_div]
      rcases gmax_cases hf with ⟨hn, _⟩ | ⟨m, _, hm, hme⟩
      · rw [hn]; simp
      · rw [hme]
        obtain ⟨j, hj, hje⟩ := List.mem_map.mp hm.1
        have : m = 0 := by
          rcases hz _ (hsub j hj) with h | h
          · rw [h] at hje; simp at hje
          · rw [h] at hje; simp only [Fl.fin.injEq] at hje; exact hje.symm
        subst this
        rcases hz _ (hsub k hk) with h | h <;> rw [h]
        · simp
        · exact zero_div_zero'.symm
    · rcases gmax_cases hf with ⟨hn, hall⟩ | ⟨m, hm0, hm, hme⟩
      · have : f k = .nan := hall _ (List.mem_map.mpr ⟨k, hk, rfl⟩)
        rw [this]; simp
      · have hm' : Act.IsMax (m / M) (l.map (fun k => f k / Fl.fin M)) := by
          constructor
          · obtain ⟨j, hj, hje⟩ := List.mem_map.mp hm.1
            exact List.mem_map.mpr ⟨j, hj, by simp only [hje]; exact Fl.fin_div _ _ hpos.ne'⟩
          · intro r hr
            obtain ⟨j, hj, hje⟩ := List.mem_map.mp hr
            rcases hL _ (hsub j hj) with h | ⟨q, hq, he⟩
            · simp only [h] at hje; simp at hje
            · simp only [he] at hje
              rw [Fl.fin_div _ _ hpos.ne'] at hje
              simp only [Fl.fin.injEq] at hje
              rw [← hje]
              gcongr
              exact hm.2 q (List.mem_map.mpr ⟨j, hj, he⟩)
        rw [Act.gmax_eq hm', hme]
        rcases hfk with h | ⟨q, hq, he⟩
        · rw [h]; simp
        · rw [he, Fl.fin_div _ _ hpos.ne']
          rcases eq_or_lt_of_le hm0 with h0 | hmpos
          · subst h0
            have : q = 0 := le_antisymm (hm.2 q (List.mem_map.mpr ⟨k, hk, he⟩)) hq
            subst this
            simp
          · rw [Fl.fin_div _ _ (by positivity), Fl.fin_div _ _ hmpos.ne']
            congr 1
            field_simp

theorem alim_none (v : Fl) : Hist.alimMask none none v = v := by
  unfold Hist.alimMask
  rw [if_pos ⟨by simp, by simp⟩]

theorem mem_col {a : Hist.Grid} {ny i : Nat} {v : Fl} : v ∈ Hist.col a ny i ↔ ∃ j < ny, a i j = v := by
  unfold Hist.col; simp

theorem mem_row {a : Hist.Grid} {nx j : Nat} {v : Fl} : v ∈ Hist.row a nx j ↔ ∃ i < nx, a i j = v := by
  unfold Hist.row; simp

theorem mem_cells {a : Hist.Grid} {nx ny : Nat} {v : Fl} : v ∈ Hist.cells a nx ny ↔ ∃ i < nx, ∃ j < ny, a i j = v := by
  unfold Hist.cells; simp [mem_col]

/-- C159: column, row and total normalisation of an orbit histogram equal those of each leg alone, although the code normalises both
legs together first and then each leg again. -/
theorem C159_max_norms (ex ey : List ℝ) (lx ly : Bool) (a : LGrid) (hn : ∀ l i j, NonNeg (a l i j)) (s : String)
    (hs : s = "c" ∨ s = "r" ∨ s = "t") :
    ∃ g gi go, orbitAgg ex ey lx ly (some s) none none a = .ok g ∧ Hist.norm2 ex ey lx ly (some s) (a .inbound) = .ok gi ∧
      Hist.norm2 ex ey lx ly (some s) (a .outbound) = .ok go ∧
      ∀ i < ex.length - 1, ∀ j < ey.length - 1, g .inbound i j = gi i j ∧ g .outbound i j = go i j := by
  rcases hs with rfl | rfl | rfl
  · refine ⟨_, _, _, rfl, rfl, rfl, ?_⟩
    intro i hi j hj
    simp only [alim_none]
    have hL : ∀ v ∈ Hist.col (a .inbound) (ey.length - 1) i ++ Hist.col (a .outbound) (ey.length - 1) i, NonNeg v := by
      intro v hv
      rw [List.mem_append, mem_col, mem_col] at hv
      rcases hv with ⟨j, _, rfl⟩ | ⟨j, _, rfl⟩ <;> exact hn _ _ _
    exact ⟨norm_twice (List.range (ey.length - 1)) (fun j => a .inbound i j) _ hL
        (fun k hk => List.mem_append_left _ (mem_col.mpr ⟨k, List.mem_range.mp hk, rfl⟩)) j (List.mem_range.mpr hj),
      norm_twice (List.range (ey.length - 1)) (fun j => a .outbound i j) _ hL
        (fun k hk => List.mem_append_right _ (mem_col.mpr ⟨k, List.mem_range.mp hk, rfl⟩)) j (List.mem_range.mpr hj)⟩
  · refine ⟨_, _, _, rfl, rfl, rfl, ?_⟩
    intro i hi j hj
    simp only [alim_none]
    have hL : ∀ v ∈ Hist.row (a .inbound) (ex.length - 1) j ++ Hist.row (a .outbound) (ex.length - 1) j, NonNeg v := by
      intro v hv
      rw [List.mem_append, mem_row, mem_row] at hv
      rcases hv with ⟨j, _, rfl⟩ | ⟨j, _, rfl⟩ <;> exact hn _ _ _
    exact ⟨norm_twice (List.range (ex.length - 1)) (fun i => a .inbound i j) _ hL
        (fun k hk => List.mem_append_left _ (mem_row.mpr ⟨k, List.mem_range.mp hk, rfl⟩)) i (List.mem_range.mpr hi),
      norm_twice (List.range (ex.length - 1)) (fun i => a .outbound i j) _ hL
        (fun k hk => List.mem_append_right _ (mem_row.mpr ⟨k, List.mem_range.mp hk, rfl⟩)) i (List.mem_range.mpr hi)⟩
  · refine ⟨_, _, _, rfl, rfl, rfl, ?_⟩
    intro i hi j hj
    simp only [alim_none]
    have hL : ∀ v ∈ Hist.cells (a .inbound) (ex.length - 1) (ey.length - 1) ++ Hist.cells (a .outbound) (ex.length - 1) (ey.length - 1),
        NonNeg v := by
      intro v hv
      rw [List.mem_append, mem_cells, mem_cells] at hv
      rcases hv with ⟨i, _, j, _, rfl⟩ | ⟨i, _, j, _, rfl⟩ <;> exact hn _ _ _
    have hk : (i, j) ∈ List.product (List.range (ex.length - 1)) (List.range (ey.length - 1)) := by
      exact List.mem_product.mpr ⟨List.mem_range.mpr hi, List.mem_range.mpr hj⟩
    have hsub : ∀ l, ∀ k ∈ List.product (List.range (ex.length - 1)) (List.range (ey.length - 1)),
        a l k.1 k.2 ∈ Hist.cells (a l) (ex.length - 1) (ey.length - 1) := by
      intro l k hk
      have hk := List.mem_product.mp (show (k.1, k.2) ∈ _ from hk)
      exact mem_cells.mpr ⟨_, List.mem_range.mp hk.1, _, List.mem_range.mp hk.2, rfl⟩
    have e1 := norm_twice (List.product (List.range (ex.length - 1)) (List.range (ey.length - 1))) (fun p => a .inbound p.1 p.2) _ hL
      (fun k hk => List.mem_append_left _ (hsub _ k hk)) (i, j) hk
    have e2 := norm_twice (List.product (List.range (ex.length - 1)) (List.range (ey.length - 1))) (fun p => a .outbound p.1 p.2) _ hL
      (fun k hk => List.mem_append_right _ (hsub _ k hk)) (i, j) hk
    rw [← Hist.cells_eq (a .inbound), ← Hist.cells_eq (fun i j => a .inbound i j / _)] at e1
    rw [← Hist.cells_eq (a .outbound), ← Hist.cells_eq (fun i j => a .outbound i j / _)] at e2
    exact ⟨e1, e2⟩

/-- sum over the cells of the grid -/
noncomputable def total (ex ey : List ℝ) (f : Nat → Nat → ℝ) : ℝ :=
  ((List.product (List.range (ex.length - 1)) (List.range (ey.length - 1))).map (fun p => f p.1 p.2)).sum

/-- area of a cell -/
noncomputable def area (ex ey : List ℝ) (i j : Nat) : ℝ := Hist.width ex i * Hist.width ey j

theorem area_pos {ex ey : List ℝ} (hx : ex.Pairwise (· < ·)) (hy : ey.Pairwise (· < ·)) {i j : Nat} (hi : i < ex.length - 1)
    (hj : j < ey.length - 1) : 0 < area ex ey i j :=
  mul_pos (Hist.width_pos hx (by omega)) (Hist.width_pos hy (by omega))

theorem sumSkip_cells (g : Hist.Grid) (nx ny : Nat) (f : Nat → Nat → ℝ) (h : ∀ i < nx, ∀ j < ny, g i j = .fin (f i j)) :
    Fl.sumSkip (Hist.cells g nx ny) = .fin ((List.product (List.range nx) (List.range ny)).map (fun p => f p.1 p.2)).sum := by
  rw [Hist.cells_eq]
  apply Fl.sumSkip_fin'
  intro p hp
  have hp := List.mem_product.mp (show (p.1, p.2) ∈ _ from hp)
  exact h _ (List.mem_range.mp hp.1) _ (List.mem_range.mp hp.2)

theorem sumSkip_append_fin (l1 l2 : List Fl) (a b : ℝ) (h1 : Fl.sumSkip l1 = .fin a) (h2 : Fl.sumSkip l2 = .fin b) :
    Fl.sumSkip (l1 ++ l2) = .fin (a + b) := by
  have key : ∀ l : List Fl, ∀ a, Fl.sumSkip l = .fin a → Fl.sumSkip (l ++ l2) = .fin (a + b) := by
    intro l
    induction l with
    | nil => intro a h; have : a = 0 := by
               have h' : Fl.fin 0 = Fl.fin a := h
               simpa using h'.symm
             subst this; simpa using h2
    | cons x l ih =>
      intro a h
      by_cases hx : x.isNaN
      · have e1 : Fl.sumSkip (x :: l) = Fl.sumSkip l := by simp [Fl.sumSkip, hx]
        have e2 : Fl.sumSkip (x :: l ++ l2) = Fl.sumSkip (l ++ l2) := by simp [Fl.sumSkip, hx]
        rw [e2]; rw [e1] at h; exact ih a h
      · have e1 : Fl.sumSkip (x :: l) = x + Fl.sumSkip l := by simp [Fl.sumSkip, hx]
        have e2 : Fl.sumSkip (x :: l ++ l2) = x + Fl.sumSkip (l ++ l2) := by simp [Fl.sumSkip, hx]
        rw [e2]; rw [e1] at h
        cases hs : Fl.sumSkip l with
        | fin s =>
          rw [hs] at h
          rw [ih s hs]
          cases x with
          | fin r => rw [Fl.fin_add] at h ⊢; rw [Fl.fin_inj] at h ⊢; linarith
          | nan => exact absurd (by simp [Fl.isNaN]) hx
          | pinf => exact absurd h (by simp [HAdd.hAdd, Add.add, Fl.add])
          | ninf => exact absurd h (by simp [HAdd.hAdd, Add.add, Fl.add])
        | nan => rw [hs] at h; cases x <;> exact absurd h (by simp [HAdd.hAdd, Add.add, Fl.add])
        | pinf => rw [hs] at h; cases x <;> exact absurd h (by simp [HAdd.hAdd, Add.add, Fl.add])
        | ninf => rw [hs] at h; cases x <;> exact absurd h (by simp [HAdd.hAdd, Add.add, Fl.add])
  exact key l1 a h1

/-- C159 (violated): the 'd' density of an orbit leg divides by the cell area twice: with counts `c`, the value shown is
`c / A² / Σ (c / A)` with the sum over the leg, not the density `c / A / Σ c`. -/
theorem C159_density (ex ey : List ℝ) (hx : ex.Pairwise (· < ·)) (hy : ey.Pairwise (· < ·)) (a : LGrid) (c : Leg → Nat → Nat → ℝ)
    (ha : ∀ l, ∀ i < ex.length - 1, ∀ j < ey.length - 1, a l i j = .fin (c l i j))
    (hT : total ex ey (c .inbound) + total ex ey (c .outbound) ≠ 0) :
    ∃ g, orbitAgg ex ey false false (some "d") none none a = .ok g ∧
      ∀ l, total ex ey (fun i j => c l i j / area ex ey i j) ≠ 0 → ∀ i < ex.length - 1, ∀ j < ey.length - 1,
        g l i j = .fin (c l i j / area ex ey i j ^ 2 / total ex ey (fun i j => c l i j / area ex ey i j)) := by
  refine ⟨_, rfl, ?_⟩
  obtain ⟨T, hTe⟩ : ∃ T, T = total ex ey (c .inbound) + total ex ey (c .outbound) := ⟨_, rfl⟩
  rw [← hTe] at hT
  have hsum : Fl.sumSkip (Hist.cells (a .inbound) (ex.length - 1) (ey.length - 1) ++
      Hist.cells (a .outbound) (ex.length - 1) (ey.length - 1)) = .fin T := by
    rw [hTe]
    exact sumSkip_append_fin _ _ _ _ (sumSkip_cells _ _ _ _ (ha .inbound)) (sumSkip_cells _ _ _ _ (ha .outbound))
  have h1 : ∀ l, ∀ i < ex.length - 1, ∀ j < ey.length - 1,
      a l i j / .fin (Hist.dens false (Hist.width ex i)) / .fin (Hist.dens false (Hist.width ey j)) / .fin T =
        .fin (c l i j / area ex ey i j / T) := by
    intro l i hi j hj
    have w1 := Hist.width_pos hx (i := i) (by omega)
    have w2 := Hist.width_pos hy (i := j) (by omega)
    rw [ha l i hi j hj]
    simp only [Hist.dens, Bool.false_eq_true, if_false]
    rw [Fl.fin_div _ _ w1.ne', Fl.fin_div _ _ w2.ne', Fl.fin_div _ _ hT, area, div_div (c l i j)]
  have hleg : ∀ l, total ex ey (fun i j => c l i j / area ex ey i j) ≠ 0 → ∀ i < ex.length - 1, ∀ j < ey.length - 1,
      (fun i j => Hist.alimMask none none (a l i j / .fin (Hist.dens false (Hist.width ex i)) / .fin (Hist.dens false (Hist.width ey j)) /
        Fl.sumSkip (Hist.cells (a .inbound) (ex.length - 1) (ey.length - 1) ++
          Hist.cells (a .outbound) (ex.length - 1) (ey.length - 1)))) i j / .fin (Hist.dens false (Hist.width ex i)) /
        .fin (Hist.dens false (Hist.width ey j)) /
        Fl.sumSkip (Hist.cells (fun i j => Hist.alimMask none none (a l i j / .fin (Hist.dens false (Hist.width ex i)) /
          .fin (Hist.dens false (Hist.width ey j)) /
          Fl.sumSkip (Hist.cells (a .inbound) (ex.length - 1) (ey.length - 1) ++
          Hist.cells (a .outbound) (ex.length - 1) (ey.length - 1)))) (ex.length - 1) (ey.length - 1)) =
      .fin (c l i j / area ex ey i j ^ 2 / total ex ey (fun i j => c l i j / area ex ey i j)) := by
    intro l hS i hi j hj
    rw [hsum]
    simp only [alim_none]
    rw [sumSkip_cells _ _ _ _ (h1 l), h1 l i hi j hj]
    have w1 := Hist.width_pos hx (i := i) (by omega)
    have w2 := Hist.width_pos hy (i := j) (by omega)
    have hst : ((List.product (List.range (ex.length - 1)) (List.range (ey.length - 1))).map
        (fun p => c l p.1 p.2 / area ex ey p.1 p.2 / T)).sum = total ex ey (fun i j => c l i j / area ex ey i j) / T := by
      rw [total, ← Hist.sum_div_const]
    rw [hst]
    have hA := area_pos hx hy hi hj
    simp only [Hist.dens, Bool.false_eq_true, if_false]
    rw [Fl.fin_div _ _ w1.ne', Fl.fin_div _ _ w2.ne', Fl.fin_div _ _ (div_ne_zero hS hT)]
    congr 1
    rw [div_div _ (Hist.width ex i), show Hist.width ex i * Hist.width ey j = area ex ey i j from rfl]
    field_simp
  intro l
  cases l with
  | inbound => exact hleg .inbound
  | outbound => exact hleg .outbound

/-- C159 (violated): two cells of a leg with the same positive count but areas `A`, `B` are shown in the ratio `B² : A²`; a density
would give `B : A`. -/
theorem C159_density_wrong (ex ey : List ℝ) (hx : ex.Pairwise (· < ·)) (hy : ey.Pairwise (· < ·)) (a : LGrid) (c : Leg → Nat → Nat → ℝ)
    (ha : ∀ l, ∀ i < ex.length - 1, ∀ j < ey.length - 1, a l i j = .fin (c l i j))
    (hT : total ex ey (c .inbound) + total ex ey (c .outbound) ≠ 0) (l : Leg)
    (hS : total ex ey (fun i j => c l i j / area ex ey i j) ≠ 0) (i j i' j' : Nat) (hi : i < ex.length - 1) (hj : j < ey.length - 1)
    (hi' : i' < ex.length - 1) (hj' : j' < ey.length - 1) (hc : c l i j = c l i' j') (hc0 : c l i j ≠ 0)
    (hA : area ex ey i j ≠ area ex ey i' j') :
    ∃ g u v, orbitAgg ex ey false false (some "d") none none a = .ok g ∧ g l i j = .fin u ∧ g l i' j' = .fin v ∧
      u * area ex ey i j ^ 2 = v * area ex ey i' j' ^ 2 ∧ u * area ex ey i j ≠ v * area ex ey i' j' := by
  obtain ⟨g, hg, h⟩ := C159_density ex ey hx hy a c ha hT
  have pA := area_pos hx hy hi hj
  have pB := area_pos hx hy hi' hj'
  refine ⟨g, _, _, hg, h l hS i hi j hj, h l hS i' hi' j' hj', ?_, ?_⟩
  · rw [hc]; field_simp
  · rw [hc] at hc0 ⊢
    intro e
    apply hA
    field_simp at e
    exact e.symm

/-- C159: if all cells have the same area the orbit density of a leg is the density of that leg alone. -/
theorem C159_density_uniform (ex ey : List ℝ) (hx : ex.Pairwise (· < ·)) (hy : ey.Pairwise (· < ·)) (a : LGrid)
    (c : Leg → Nat → Nat → ℝ) (ha : ∀ l, ∀ i < ex.length - 1, ∀ j < ey.length - 1, a l i j = .fin (c l i j))
    (hT : total ex ey (c .inbound) + total ex ey (c .outbound) ≠ 0) (w : ℝ)
    (hw : ∀ i < ex.length - 1, ∀ j < ey.length - 1, area ex ey i j = w) (l : Leg) (hS : total ex ey (c l) ≠ 0) :
    ∃ g gl, orbitAgg ex ey false false (some "d") none none a = .ok g ∧ Hist.norm2 ex ey false false (some "d") (a l) = .ok gl ∧
      ∀ i < ex.length - 1, ∀ j < ey.length - 1, g l i j = gl i j := by
  obtain ⟨g, hg, h⟩ := C159_density ex ey hx hy a c ha hT
  have htot : total ex ey (fun i j => c l i j / area ex ey i j) = total ex ey (c l) / w := by
    unfold total
    rw [← Hist.sum_div_const]
    congr 1
    apply List.map_congr_left
    intro p hp
    have hp := List.mem_product.mp (show (p.1, p.2) ∈ _ from hp)
    show c l p.1 p.2 / area ex ey p.1 p.2 = _
    rw [hw _ (List.mem_range.mp hp.1) _ (List.mem_range.mp hp.2)]
  refine ⟨g, _, hg, rfl, ?_⟩
  intro i hi j hj
  have hA := area_pos hx hy hi hj
  have hw0 : w ≠ 0 := by rw [← hw i hi j hj]; exact hA.ne'
  rw [h l (by rw [htot]; exact div_ne_zero hS hw0) i hi j hj, htot, hw i hi j hj]
  show _ = a l i j / .fin (Hist.dens false (Hist.width ex i)) / .fin (Hist.dens false (Hist.width ey j)) /
    Fl.sumSkip (Hist.cells (a l) (ex.length - 1) (ey.length - 1))
  have hsl : Fl.sumSkip (Hist.cells (a l) (ex.length - 1) (ey.length - 1)) = .fin (total ex ey (c l)) := sumSkip_cells _ _ _ _ (ha l)
  have w1 := Hist.width_pos hx (i := i) (by omega)
  have w2 := Hist.width_pos hy (i := j) (by omega)
  rw [hsl, ha l i hi j hj]
  simp only [Hist.dens, Bool.false_eq_true, if_false]
  rw [Fl.fin_div _ _ w1.ne', Fl.fin_div _ _ w2.ne', Fl.fin_div _ _ hS, Fl.fin_inj, div_div (c l i j) (Hist.width ex i),
    show Hist.width ex i * Hist.width ey j = area ex ey i j from rfl, hw i hi j hj]
  field_simp

/-- non-vacuity for the density theorems: two columns of widths 1 and 2, one count each on each leg -/
example : ∃ (ex ey : List ℝ) (c : Leg → Nat → Nat → ℝ), ex.Pairwise (· < ·) ∧ ey.Pairwise (· < ·) ∧
    total ex ey (c .inbound) + total ex ey (c .outbound) ≠ 0 ∧ total ex ey (fun i j => c .inbound i j / area ex ey i j) ≠ 0 ∧
    area ex ey 0 0 ≠ area ex ey 1 0 ∧ 1 < ex.length - 1 ∧ 0 < ey.length - 1 := by
  refine ⟨[0, 1, 3], [0, 1], fun _ _ _ => 1, by norm_num, by norm_num, ?_, ?_, ?_, by norm_num, by norm_num⟩ <;>
    norm_num [total, area, Hist.width, List.product, List.range, List.range.loop]

/-- C159 (violated): the value limits are applied before the second normalisation: whatever upper limit below one is asked for, a
column-normalised leg column with a value left is drawn with a cell equal to one, above the limit. -/
theorem C159_limits_wrong (ex ey : List ℝ) (lx ly : Bool) (a : LGrid) (b : ℝ) (hb : b < 1) (l : Leg) (i : Nat) :
    ∃ g n, orbitAgg ex ey lx ly (some "c") none (some b) a = .ok g ∧ normBoth ex ey lx ly (some "c") a = .ok n ∧
      (Hist.HasPositive (List.range (ey.length - 1)) (fun j => Hist.alimMask none (some b) (n l i j)) →
        ∃ j < ey.length - 1, g l i j = .fin 1 ∧ ¬ Fl.le (g l i j) (.fin b)) := by
  refine ⟨_, _, rfl, rfl, ?_⟩
  intro hpos
  have hm := Hist.maxNormed_of _ _ hpos
  obtain ⟨M, hM0, hM, _, j, hj, h1⟩ := hm
  refine ⟨j, List.mem_range.mp hj, ?_⟩
  have hfin : ¬ Fl.le (.fin 1) (.fin b) := by rw [Fl.le_fin]; linarith
  cases l with
  | inbound => exact ⟨h1, by rw [show ∀ x : Fl, x = .fin 1 → Fl.le x (.fin b) = Fl.le (.fin 1) (.fin b) from fun x h => by rw [h]]
                              <;> first | exact hfin | exact h1⟩
  | outbound => exact ⟨h1, by rw [show ∀ x : Fl, x = .fin 1 → Fl.le x (.fin b) = Fl.le (.fin 1) (.fin b) from fun x h => by rw [h]]
                               <;> first | exact hfin | exact h1⟩

/-! ### C160: colour bars -/

/-- plots drawn one after another on the given axes with the same `cbar_kwargs` object: where each colour bar goes -/
def plotAll : List Nat → Option CbKw → List (Except PyErr Nat)
  | [], _ => []
  | a :: as, kw => (addCbar a kw).1 :: plotAll as (addCbar a kw).2

/-- C160: without `cbar_kwargs` every colour bar goes to its own plot's axes. -/
theorem C160_own_axes (axs : List Nat) : plotAll axs none = axs.map (fun a => .ok a) := by
  induction axs with
  | nil => rfl
  | cons a as ih => show Except.ok a :: plotAll as none = _; rw [ih]; rfl

/-- C160: axes named by the caller are used for every plot; naming both `ax` and `cax` is a ValueError. -/
theorem C160_named (axs : List Nat) (c d : Nat) :
    plotAll axs (some ⟨some c, none⟩) = axs.map (fun _ => .ok c) ∧ plotAll axs (some ⟨none, some c⟩) = axs.map (fun _ => .ok c) ∧
    plotAll axs (some ⟨some c, some d⟩) = axs.map (fun _ => .error .valueError) := by
  induction axs with
  | nil => exact ⟨rfl, rfl, rfl⟩
  | cons a as ih =>
    refine ⟨?_, ?_, ?_⟩
    · show Except.ok c :: plotAll as (some ⟨some c, none⟩) = _; rw [ih.1]; rfl
    · show Except.ok c :: plotAll as (some ⟨none, some c⟩) = _; rw [ih.2.1]; rfl
    · show Except.error PyErr.valueError :: plotAll as (some ⟨some c, some d⟩) = _; rw [ih.2.2]; rfl

/-- C160 (violated): a dictionary naming no axes is changed by the first plot: all later colour bars go to the first plot's axes. -/
theorem C160_shared_kwargs (a : Nat) (axs : List Nat) :
    plotAll (a :: axs) (some ⟨none, none⟩) = (a :: axs).map (fun _ => .ok a) := by
  show Except.ok a :: plotAll axs (some ⟨some a, none⟩) = _
  rw [(C160_named axs a 0).1]; rfl

/-- C160 (violated): the orbit plots that draw a colour bar (the default) always fail. -/
theorem C160_orbit_cbar (kind : String) (axnorm : Option String) (zs : List ℝ) (user : Option (Option CNorm)) (limit : Bool) :
    (∀ l, makeOne kind axnorm zs user limit true ≠ .ok l) ∧ makeInOut axnorm zs user limit true ≠ .ok () ∧
    (makeInOut axnorm zs user false true = .error .typeError) ∧ (makeInOut axnorm zs user false false = .ok ()) ∧
    (∀ l, kindOf kind = .ok l → makeOne kind axnorm zs user false false = .ok l ∧
      makeOne kind axnorm zs user false true = .error .typeError) := by
  have hp : ∀ lim, putAgg axnorm zs user lim true ≠ .ok () := by
    intro lim h
    unfold putAgg at h
    cases hn : aggNorm axnorm zs user lim <;> simp [hn, bind, Except.bind] at h
  refine ⟨?_, ?_, rfl, rfl, ?_⟩
  · intro l h
    unfold makeOne at h
    cases hk : kindOf kind with
    | error e => rw [hk] at h; simp [bind, Except.bind] at h
    | ok l' =>
      rw [hk] at h
      simp only [bind, Except.bind] at h
      cases hq : putAgg axnorm zs user limit true with
      | error e => rw [hq] at h; simp at h
      | ok u => exact hp limit (by rw [hq])
  · intro h
    unfold makeInOut at h
    cases hq : putAgg axnorm zs user limit false with
    | error e => rw [hq] at h; simp [bind, Except.bind] at h
    | ok u => rw [hq] at h; exact hp limit h
  · intro l hk
    unfold makeOne
    rw [hk]
    exact ⟨rfl, rfl⟩

/-- C160: which leg a text names: only its first letter counts, in either case; "both" is refused, so is anything else. -/
theorem C160_kind (kind : String) :
    (kindOf kind = .ok .inbound ↔ ∃ c t, kind.toList = c :: t ∧ (c = 'i' ∨ c = 'I')) ∧
    (kindOf kind = .ok .outbound ↔ ∃ c t, kind.toList = c :: t ∧ (c = 'o' ∨ c = 'O')) ∧
    (kindOf kind = .error .notImplemented ↔ ∃ c t, kind.toList = c :: t ∧ (c = 'b' ∨ c = 'B')) ∧
    (kindOf kind = .error .indexError ↔ kind = "") ∧
    (∀ e, kindOf kind = .error e → e = .notImplemented ∨ e = .indexError ∨ e = .valueError) := by
  have hlow : ∀ (c d u : Char), d.toLower = d → u.toLower = d → u.val = d.val - 32 → 'a'.val ≤ d.val → d.val ≤ 'z'.val →
      (c.toLower = d ↔ c = d ∨ c = u) := by
    intro c d u hd hu hval hd1 hd2
    constructor
    · intro h
      unfold Char.toLower at h
      split at h
      · rename_i hc
        right
        apply Char.ext
        rw [hval, ← h]
        simp
      · left; exact h
    · rintro (rfl | rfl)
      · exact hd
      · exact hu
  have hi := fun c => hlow c 'i' 'I' (by decide) (by decide) (by decide) (by decide) (by decide)
  have ho := fun c => hlow c 'o' 'O' (by decide) (by decide) (by decide) (by decide) (by decide)
  have hb := fun c => hlow c 'b' 'B' (by decide) (by decide) (by decide) (by decide) (by decide)
  unfold kindOf
  cases hk : kind.toList with
  | nil =>
    have : kind = "" := by
      rw [← String.toList_inj, hk]; rfl
    simp [this, eq_comm]
  | cons c t =>
    have hne : kind ≠ "" := by
      rintro rfl
      simp at hk
    by_cases h1 : c.toLower = 'i'
    · have := (hi c).mp h1
      have h2 : c.toLower ≠ 'o' := by rw [h1]; decide
      have h3 : c.toLower ≠ 'b' := by rw [h1]; decide
      simp [h1, hne, this, ← ho c, ← hb c, eq_comm]
    · by_cases h2 : c.toLower = 'o'
      · have := (ho c).mp h2
        simp [h2, hne, this, ← hi c, ← hb c]
      · by_cases h3 : c.toLower = 'b'
        · have := (hb c).mp h3
          simp [h3, hne, this, ← hi c, ← ho c]
        · simp [h1, h2, h3, hne, ← hi c, ← hb c, ← ho c]

/-- C160: the two halves of an in/out plot mirror each other and both show everything either showed. -/
theorem C160_mirrored (i o : ℝ × ℝ) :
    ∃ lo hi, inOutLimits i o = ((hi, lo), (lo, hi)) ∧ (∀ v ∈ [i.1, i.2, o.1, o.2], lo ≤ v ∧ v ≤ hi) ∧
      lo ∈ [i.1, i.2, o.1, o.2] ∧ hi ∈ [i.1, i.2, o.1, o.2] := by
  refine ⟨_, _, rfl, ?_, ?_, ?_⟩
  · intro v hv
    simp only [List.mem_cons, List.not_mem_nil, or_false] at hv
    rcases hv with rfl | rfl | rfl | rfl <;> simp
  · simp only [List.mem_cons, List.not_mem_nil, or_false]
    rcases min_choice (min i.1 i.2) (min o.1 o.2) with h | h <;> rw [h]
    · rcases min_choice i.1 i.2 with h | h <;> rw [h] <;> simp
    · rcases min_choice o.1 o.2 with h | h <;> rw [h] <;> simp
  · simp only [List.mem_cons, List.not_mem_nil, or_false]
    rcases max_choice (max i.1 i.2) (max o.1 o.2) with h | h <;> rw [h]
    · rcases max_choice i.1 i.2 with h | h <;> rw [h] <;> simp
    · rcases max_choice o.1 o.2 with h | h <;> rw [h] <;> simp

/-! ### C161: scatter plots -/

/-- the series has a value (not missing) at the label -/
def Measured (s : Ser) (k : Int) (v : Fl) : Prop := (k, v) ∈ s ∧ ¬ v.isNaN

theorem get_of_mem {s : Ser} (hs : (s.map Prod.fst).Nodup) {k : Int} {v : Fl} (h : (k, v) ∈ s) : s.get k = v := by
  unfold Ser.get
  induction s with
  | nil => simp at h
  | cons p s ih =>
    simp only [List.map_cons, List.nodup_cons] at hs
    by_cases hp : p.1 = k
    · simp only [List.find?_cons, hp, decide_true]
      rcases List.mem_cons.mp h with h | h
      · rw [← h]
      · exact absurd (List.mem_map.mpr ⟨_, h, hp.symm⟩) hs.1
    · simp only [List.find?_cons, hp, decide_false]
      rcases List.mem_cons.mp h with h | h
      · exact absurd (by rw [← h]) hp
      · exact ih hs.2 h

theorem get_missing {s : Ser} {k : Int} (h : ¬ (s.get k).isNaN) : (k, s.get k) ∈ s := by
  unfold Ser.get at h ⊢
  cases hf : s.find? (fun p => decide (p.1 = k)) with
  | none => rw [hf] at h; exact absurd (by simp [Fl.isNaN]) h
  | some p =>
    have h1 := List.mem_of_find?_eq_some hf
    have h2 := List.find?_some hf
    simp only [decide_eq_true_eq] at h2
    rw [← h2]; exact h1

theorem measured_iff {s : Ser} (hs : (s.map Prod.fst).Nodup) (k : Int) (v : Fl) :
    Measured s k v ↔ s.get k = v ∧ ¬ v.isNaN := by
  constructor
  · rintro ⟨h, hn⟩; exact ⟨get_of_mem hs h, hn⟩
  · rintro ⟨rfl, hn⟩; exact ⟨get_missing hn, hn⟩

theorem mem_unionIdx (a b : List Int) (k : Int) : k ∈ unionIdx a b ↔ k ∈ a ∨ k ∈ b := by
  unfold unionIdx
  split
  · rename_i h; subst h; simp
  · rw [List.mem_insertionSort]; simp

/-- C161: a scatter plot shows exactly one point for each label at which x and y (and z, if given) are measured, with those values;
it is refused with a ValueError exactly if there is no such label. -/
theorem C161_points (x y : Ser) (z : Option Ser) (hx : (x.map Prod.fst).Nodup) (hy : (y.map Prod.fst).Nodup)
    (hz : ∀ s ∈ z, (s.map Prod.fst).Nodup) :
    (∀ d, setData x y z = .ok d → d ≠ [] ∧ (d.map Pt.k).Nodup ∧ ∀ p : Pt, p ∈ d ↔ Measured x p.k p.x ∧ Measured y p.k p.y ∧
      (z = none → p.z = .fin 1) ∧ (∀ s, z = some s → Measured s p.k p.z)) ∧
    ((∃ d, setData x y z = .ok d) ↔ ∃ k vx vy, Measured x k vx ∧ Measured y k vy ∧ ∀ s, z = some s → ∃ vz, Measured s k vz) ∧
    (∀ e, setData x y z = .error e → e = .valueError) := by
  obtain ⟨G, hG⟩ : ∃ G : Int → Pt, G = fun k => ⟨k, x.get k, y.get k, zAt z k⟩ := ⟨_, rfl⟩
  obtain ⟨D, hD⟩ : ∃ D, D = ((unionIdx (x.map Prod.fst) (y.map Prod.fst)).map G).filter
      (fun p => decide (¬ p.x.isNaN ∧ ¬ p.y.isNaN ∧ ¬ p.z.isNaN)) := ⟨_, rfl⟩
  have hset : setData x y z = if D = [] then .error .valueError else .ok D := by rw [hD, hG]; rfl
  have hmem : ∀ p : Pt, p ∈ D ↔ Measured x p.k p.x ∧ Measured y p.k p.y ∧
      (z = none → p.z = .fin 1) ∧ (∀ s, z = some s → Measured s p.k p.z) := by
    intro p
    rw [hD, List.mem_filter, List.mem_map]
    constructor
    · rintro ⟨⟨k, hk, rfl⟩, hp⟩
      simp only [decide_eq_true_eq] at hp
      subst hG
      refine ⟨(measured_iff hx _ _).mpr ⟨rfl, hp.1⟩, (measured_iff hy _ _).mpr ⟨rfl, hp.2.1⟩, ?_, ?_⟩
      · intro hzn; subst hzn; rfl
      · intro s hs; subst hs; exact (measured_iff (hz s rfl) _ _).mpr ⟨rfl, hp.2.2⟩
    · rintro ⟨h1, h2, h3, h4⟩
      have e1 := (measured_iff hx _ _).mp h1
      have e2 := (measured_iff hy _ _).mp h2
      have e3 : (G p.k) = p := by
        subst hG
        cases hzc : z with
        | none => simp only [zAt]; rw [e1.1, e2.1, ← h3 hzc]
        | some s => simp only [zAt]; rw [e1.1, e2.1, ((measured_iff (hz s hzc) _ _).mp (h4 s hzc)).1]
      refine ⟨⟨p.k, (mem_unionIdx _ _ _).mpr (Or.inl (List.mem_map.mpr ⟨_, h1.1, rfl⟩)), e3⟩, ?_⟩
      simp only [decide_eq_true_eq]
      refine ⟨e1.2, e2.2, ?_⟩
      cases hzc : z with
      | none => rw [h3 hzc]; simp [Fl.isNaN]
      | some s => exact (h4 s hzc).2
  have hnd : (D.map Pt.k).Nodup := by
    have h0 : (unionIdx (x.map Prod.fst) (y.map Prod.fst)).Nodup := by
      unfold unionIdx
      split
      · exact hx
      · exact (List.perm_insertionSort _ _).nodup_iff.mpr (List.nodup_dedup _)
    have h1 : (((unionIdx (x.map Prod.fst) (y.map Prod.fst)).map G).map Pt.k).Nodup := by
      rw [List.map_map]
      have : Pt.k ∘ G = id := by funext k; subst hG; rfl
      rw [this, List.map_id]; exact h0
    rw [hD]
    exact h1.sublist (List.filter_sublist.map _)
  rw [hset]
  refine ⟨?_, ?_, ?_⟩
  · intro d hd
    split at hd
    · simp at hd
    · rename_i hne
      simp only [Except.ok.injEq] at hd
      subst hd
      exact ⟨hne, hnd, hmem⟩
  · constructor
    · rintro ⟨d, hd⟩
      split at hd
      · simp at hd
      · rename_i hne
        obtain ⟨p, hp⟩ := List.exists_mem_of_ne_nil _ hne
        have := (hmem p).mp hp
        exact ⟨p.k, p.x, p.y, this.1, this.2.1, fun s hs => ⟨p.z, this.2.2.2 s hs⟩⟩
    · rintro ⟨k, vx, vy, h1, h2, h3⟩
      have hne : D ≠ [] := by
        have : ∃ vz, (z = none → vz = .fin 1) ∧ (∀ s, z = some s → Measured s k vz) := by
          cases z with
          | none => exact ⟨.fin 1, fun _ => rfl, fun s hs => by simp at hs⟩
          | some s =>
            obtain ⟨vz, hv⟩ := h3 s rfl
            exact ⟨vz, fun h => by simp at h, fun s' hs' => by simp only [Option.some.injEq] at hs'; subst hs'; exact hv⟩
        obtain ⟨vz, hv1, hv2⟩ := this
        exact List.ne_nil_of_mem ((hmem ⟨k, vx, vy, vz⟩).mpr ⟨h1, h2, hv1, hv2⟩)
      exact ⟨D, by rw [if_neg hne]⟩
  · intro e he
    split at he
    · simp only [Except.error.injEq] at he; exact he.symm
    · simp at he

/-- C161: the points are coloured (and a colour bar drawn, if asked for) exactly if two of them differ in z; a plot built with
`clip_data=True` can never be drawn (violated: AttributeError). -/
theorem C161_coloured (data : List Pt) (cbar : Bool) (ax : Nat) :
    (∃ col bar, (scatterPlot data false cbar ax none).1 = .ok (col, bar) ∧
      (col = true ↔ ∃ p ∈ data, ∃ q ∈ data, p.z ≠ q.z) ∧
      (bar = if cbar ∧ ∃ p ∈ data, ∃ q ∈ data, p.z ≠ q.z then some ax else none)) ∧
    (∀ kw, (scatterPlot data true cbar ax kw).1 = .error .attributeError) := by
  have hkey : 1 < ((data.map Pt.z).dedup).length ↔ ∃ p ∈ data, ∃ q ∈ data, p.z ≠ q.z := by
    constructor
    · intro h
      have hnd := List.nodup_dedup (data.map Pt.z)
      rcases hl : (data.map Pt.z).dedup with _ | ⟨u, _ | ⟨v, t⟩⟩
      · rw [hl] at h; simp at h
      · rw [hl] at h; simp at h
      · rw [hl] at hnd
        have hu : u ∈ data.map Pt.z := List.mem_dedup.mp (by rw [hl]; simp)
        have hv : v ∈ data.map Pt.z := List.mem_dedup.mp (by rw [hl]; simp)
        obtain ⟨p, hp, hpu⟩ := List.mem_map.mp hu
        obtain ⟨q, hq, hqv⟩ := List.mem_map.mp hv
        refine ⟨p, hp, q, hq, ?_⟩
        rw [hpu, hqv]
        simp only [List.nodup_cons, List.mem_cons, not_or] at hnd
        exact hnd.1.1
    · rintro ⟨p, hp, q, hq, hne⟩
      by_contra h
      have hp' : p.z ∈ (data.map Pt.z).dedup := List.mem_dedup.mpr (List.mem_map.mpr ⟨p, hp, rfl⟩)
      have hq' : q.z ∈ (data.map Pt.z).dedup := List.mem_dedup.mpr (List.mem_map.mpr ⟨q, hq, rfl⟩)
      rcases hl : (data.map Pt.z).dedup with _ | ⟨u, _ | ⟨v, t⟩⟩
      · rw [hl] at hp'; simp at hp'
      · rw [hl] at hp' hq'
        simp only [List.mem_singleton] at hp' hq'
        exact hne (hp'.trans hq'.symm)
      · rw [hl] at h; simp at h
  refine ⟨?_, fun kw => rfl⟩
  unfold scatterPlot
  by_cases hc : ∃ p ∈ data, ∃ q ∈ data, p.z ≠ q.z
  · have hd : decide (1 < ((data.map Pt.z).dedup).length) = true := decide_eq_true (hkey.mpr hc)
    cases cbar with
    | true =>
      refine ⟨true, some ax, ?_, by simp [hc], by rw [if_pos ⟨rfl, hc⟩]⟩
      simp only [Bool.false_eq_true, if_false, hd, and_self, if_true]
      rfl
    | false =>
      refine ⟨true, none, ?_, by simp [hc], by simp⟩
      simp [hd]
  · have hd : decide (1 < ((data.map Pt.z).dedup).length) = false := decide_eq_false (fun h => hc (hkey.mp h))
    refine ⟨false, none, ?_, by simp [hc], by rw [if_neg (fun h => hc h.2)]⟩
    simp [hd]

/-- non-vacuity: two points, one of three labels has no y -/
example : ((([((1 : Int), Fl.fin 1), (2, .fin 2), (3, .fin 3)] : Ser)).map Prod.fst).Nodup ∧
    Measured [(1, .fin 1), (2, .fin 2), (3, .fin 3)] 2 (.fin 2) := by
  refine ⟨by simp, by simp, by simp [Fl.isNaN]⟩

/-! ### C162: data above a contour -/

/-- the cell reaches the level -/
def Reaches (level : ℝ) (v : Fl) : Prop := v = .pinf ∨ ∃ r, v = .fin r ∧ level ≤ r

theorem reaches_iff (level : ℝ) (v : Fl) : Fl.le (.fin level) v ↔ Reaches level v := by
  cases v <;> simp [Reaches, Fl.le]

/-- the datum lies in x bin `i`, and its y between the lower edge of one cell of that column reaching the level and the upper edge of
another one (or of the same) -/
def Marked (ex ey : List ℝ) (level : ℝ) (g : Hist.Grid) (i : Nat) (d : Fl × Fl) : Prop :=
  (∃ x, d.1 = .fin x ∧ ex.getD i 0 < x ∧ x ≤ ex.getD (i + 1) 0) ∧
  ∃ b t y, b ≤ t ∧ t < ey.length - 1 ∧ Reaches level (g i b) ∧ Reaches level (g i t) ∧ d.2 = .fin y ∧
    ey.getD b 0 < y ∧ y ≤ ey.getD (t + 1) 0

theorem getD_lt {e : List ℝ} (h : e.Pairwise (· < ·)) {i j : Nat} (hij : i < j) (hj : j < e.length) : e.getD i 0 < e.getD j 0 := by
  rw [List.getD_eq_getElem?_getD, List.getD_eq_getElem?_getD, List.getElem?_eq_getElem (by omega), List.getElem?_eq_getElem hj]
  exact List.pairwise_iff_getElem.mp h i j (by omega) hj hij

theorem getD_le {e : List ℝ} (h : e.Pairwise (· < ·)) {i j : Nat} (hij : i ≤ j) (hj : j < e.length) : e.getD i 0 ≤ e.getD j 0 := by
  rcases eq_or_lt_of_le hij with rfl | h'
  · exact le_rfl
  · exact (getD_lt h h' hj).le

theorem hull_none (ny : Nat) (level : ℝ) (v : Nat → Fl) : hull ny level v = none ↔ ∀ j < ny, ¬ Reaches level (v j) := by
  unfold hull
  obtain ⟨L, hL⟩ : ∃ L, L = (List.range ny).filter (fun j => decide (Fl.le (.fin level) (v j))) := ⟨_, rfl⟩
  have hm : ∀ j, j ∈ L ↔ j < ny ∧ Reaches level (v j) := by
    intro j; rw [hL, List.mem_filter, List.mem_range, decide_eq_true_eq, reaches_iff]
  rw [← hL]
  cases L with
  | nil =>
    simp only [List.head?_nil, true_iff]
    intro j hj hr
    have := (hm j).mpr ⟨hj, hr⟩
    simp at this
  | cons a t =>
    simp only [List.head?_cons, List.getLast?_cons]
    have := (hm a).mp (by simp)
    constructor
    · intro h; simp at h
    · intro h; exact absurd this.2 (h a this.1)

theorem hull_some {ny : Nat} {level : ℝ} {v : Nat → Fl} {b t : Nat} (h : hull ny level v = some (b, t)) :
    b < ny ∧ t < ny ∧ Reaches level (v b) ∧ Reaches level (v t) ∧ ∀ j < ny, Reaches level (v j) → b ≤ j ∧ j ≤ t := by
  unfold hull at h
  obtain ⟨L, hL⟩ : ∃ L, L = (List.range ny).filter (fun j => decide (Fl.le (.fin level) (v j))) := ⟨_, rfl⟩
  have hm : ∀ j, j ∈ L ↔ j < ny ∧ Reaches level (v j) := by
    intro j; rw [hL, List.mem_filter, List.mem_range, decide_eq_true_eq, reaches_iff]
  have hsorted : L.Pairwise (· < ·) := by
    rw [hL]; exact List.Pairwise.filter _ List.pairwise_lt_range
  rw [← hL] at h
  cases L with
  | nil => simp at h
  | cons a l =>
    simp only [List.head?_cons, List.getLast?_cons, Option.some.injEq, Prod.mk.injEq] at h
    obtain ⟨h1, h2⟩ := h
    have hb : b ∈ a :: l := by rw [← h1]; simp
    have ht : t ∈ a :: l := by
      rw [← h2]
      cases hl : l.getLast? with
      | none => simp
      | some q => simp [List.mem_of_getLast? hl]
    refine ⟨((hm b).mp hb).1, ((hm t).mp ht).1, ((hm b).mp hb).2, ((hm t).mp ht).2, ?_⟩
    intro j hj hr
    have hjm := (hm j).mpr ⟨hj, hr⟩
    constructor
    · rw [← h1]
      rcases List.mem_cons.mp hjm with h | h
      · omega
      · exact (List.rel_of_pairwise_cons hsorted h).le
    · have hle : ∀ (l : List Nat) (a : Nat), (a :: l).Pairwise (· < ·) → ∀ j ∈ a :: l, j ≤ l.getLast?.getD a := by
        intro l
        induction l with
        | nil => intro a _ j hj; simp at hj; simp [hj]
        | cons q l ih =>
          intro a hp j hj
          have hq := ih q (List.pairwise_cons.mp hp).2
          have e : (q :: l).getLast?.getD a = l.getLast?.getD q := by
            rw [List.getLast?_cons]; rfl
          rw [e]
          rcases List.mem_cons.mp hj with rfl | hj
          · exact ((List.rel_of_pairwise_cons hp (List.mem_cons_self ..)).le).trans (hq q (List.mem_cons_self ..))
          · exact hq j hj
      rw [← h2]; exact hle l a hsorted j hjm

theorem marked_hull {ex ey : List ℝ} (hy : ey.Pairwise (· < ·)) {level : ℝ} {g : Hist.Grid} {i b t : Nat}
    (h : hull (ey.length - 1) level (g i) = some (b, t)) (d : Fl × Fl) :
    (Hist.inIvl (ex.getD i 0) (ex.getD (i + 1) 0) d.1 ∧ Hist.inIvl (ey.getD b 0) (ey.getD (t + 1) 0) d.2) ↔
      Marked ex ey level g i d := by
  obtain ⟨hb, ht, rb, rt, hall⟩ := hull_some h
  rw [Hist.inIvl_iff, Hist.inIvl_iff]
  constructor
  · rintro ⟨h1, y, h2, h3, h4⟩
    exact ⟨h1, b, t, y, (hall b hb rb).2, ht, rb, rt, h2, h3, h4⟩
  · rintro ⟨h1, b', t', y, hbt, ht', rb', rt', h2, h3, h4⟩
    refine ⟨h1, y, h2, ?_, ?_⟩
    · exact lt_of_le_of_lt (getD_le hy (hall b' (by omega) rb').1 (by omega)) h3
    · have h5 := (hall t' ht' rt').2
      exact h4.trans (getD_le hy (i := t' + 1) (j := t + 1) (by omega) (by omega))

theorem idAbove_run (ex ey : List ℝ) (hy : ey.Pairwise (· < ·)) (level : ℝ) (g : Hist.Grid) (data : List (Fl × Fl)) (cols : List Nat) :
    ∀ acc : List (Option Nat), acc.length = data.length → (∀ i ∈ cols, ∃ j < ey.length - 1, Reaches level (g i j)) →
      ∃ out, idAbove ex ey level g data cols acc = .ok out ∧ out.length = data.length ∧
        ∀ (k : Nat) (d : Fl × Fl) (o : Option Nat), data[k]? = some d → acc[k]? = some o → ∃ r, out[k]? = some r ∧
          ((∃ i ∈ cols, Marked ex ey level g i d ∧ r = some i) ∨ ((∀ i ∈ cols, ¬ Marked ex ey level g i d) ∧ r = o)) := by
  induction cols with
  | nil =>
    intro acc hl _
    exact ⟨acc, rfl, hl, fun k d o _ ho => ⟨o, ho, Or.inr ⟨by simp, rfl⟩⟩⟩
  | cons i is ih =>
    intro acc hl hc
    cases hh : hull (ey.length - 1) level (g i) with
    | none =>
      obtain ⟨j, hj, hr⟩ := hc i (by simp)
      exact absurd hr ((hull_none _ _ _).mp hh j hj)
    | some bt =>
      obtain ⟨b, t⟩ := bt
      obtain ⟨acc', hacc'⟩ : ∃ acc', acc' = List.zipWith (fun (d : Fl × Fl) o =>
        if Hist.inIvl (ex.getD i 0) (ex.getD (i + 1) 0) d.1 ∧ Hist.inIvl (ey.getD b 0) (ey.getD (t + 1) 0) d.2 then some i else o)
          data acc := ⟨_, rfl⟩
      have hstep : aboveCol ex ey level i (g i) data acc = .ok acc' := by
        unfold aboveCol; rw [hh, hacc']
      have hl' : acc'.length = data.length := by rw [hacc']; simp [hl]
      obtain ⟨out, ho, hol, hk⟩ := ih acc' hl' (fun i' h => hc i' (by simp [h]))
      refine ⟨out, by unfold idAbove; rw [hstep]; exact ho, hol, ?_⟩
      intro k d o hd hao
      have he : acc'[k]? = some (if Hist.inIvl (ex.getD i 0) (ex.getD (i + 1) 0) d.1 ∧
          Hist.inIvl (ey.getD b 0) (ey.getD (t + 1) 0) d.2 then some i else o) := by
        rw [hacc', List.getElem?_zipWith, hd, hao]
      obtain ⟨r, hr, hcase⟩ := hk k d _ hd he
      refine ⟨r, hr, ?_⟩
      rcases hcase with ⟨i', hi', hm, hri⟩ | ⟨hno, hr'⟩
      · exact Or.inl ⟨i', by simp [hi'], hm, hri⟩
      · by_cases hm : Hist.inIvl (ex.getD i 0) (ex.getD (i + 1) 0) d.1 ∧ Hist.inIvl (ey.getD b 0) (ey.getD (t + 1) 0) d.2
        · rw [if_pos hm] at hr'
          exact Or.inl ⟨i, by simp, (marked_hull hy hh d).mp hm, hr'⟩
        · rw [if_neg hm] at hr'
          refine Or.inr ⟨?_, hr'⟩
          intro i' hi'
          rcases List.mem_cons.mp hi' with rfl | hi'
          · exact fun h => hm ((marked_hull hy hh d).mpr h)
          · exact hno i' hi'

/-- C162: when every column reaches the level somewhere, a datum is labelled with its x bin exactly if its y lies between two cells of
that column reaching the level (both included), and is left missing otherwise. -/
theorem C162_marked (ex ey : List ℝ) (hx : ex.Pairwise (· < ·)) (hy : ey.Pairwise (· < ·)) (level : ℝ) (g : Hist.Grid)
    (data : List (Fl × Fl)) (cols : List Nat) (hcols : ∀ i ∈ cols, i < ex.length - 1)
    (hreach : ∀ i ∈ cols, ∃ j < ey.length - 1, Reaches level (g i j)) :
    ∃ out, idAbove ex ey level g data cols (data.map (fun _ => none)) = .ok out ∧ out.length = data.length ∧
      ∀ (k : Nat) (d : Fl × Fl), data[k]? = some d → ∃ r, out[k]? = some r ∧
        (∀ i, r = some i ↔ i ∈ cols ∧ Marked ex ey level g i d) ∧ (r = none ↔ ∀ i ∈ cols, ¬ Marked ex ey level g i d) := by
  obtain ⟨out, ho, hl, hk⟩ := idAbove_run ex ey hy level g data cols (data.map (fun _ => none)) (by simp) hreach
  refine ⟨out, ho, hl, ?_⟩
  intro k d hd
  obtain ⟨r, hr, hcase⟩ := hk k d none hd (by rw [List.getElem?_map, hd]; rfl)
  refine ⟨r, hr, ?_⟩
  have huniq : ∀ i ∈ cols, ∀ i' ∈ cols, Marked ex ey level g i d → Marked ex ey level g i' d → i = i' := by
    have aux : ∀ i i', i' < ex.length - 1 → i < i' → Marked ex ey level g i d → Marked ex ey level g i' d → False := by
      intro i i' hi' hlt ⟨⟨x, hx1, hx2, hx3⟩, _⟩ ⟨⟨x', hx1', hx2', hx3'⟩, _⟩
      rw [hx1, Fl.fin_inj] at hx1'
      subst hx1'
      have := getD_le hx (i := i + 1) (j := i') (by omega) (by omega)
      linarith
    intro i hi i' hi' m m'
    rcases lt_trichotomy i i' with h | h | h
    · exact (aux i i' (hcols i' hi') h m m').elim
    · exact h
    · exact (aux i' i (hcols i hi) h m' m).elim
  rcases hcase with ⟨i, hi, hm, hri⟩ | ⟨hno, hr'⟩
  · constructor
    · intro i'
      constructor
      · intro h; rw [hri, Option.some.injEq] at h; subst h; exact ⟨hi, hm⟩
      · rintro ⟨hi', hm'⟩; rw [hri, huniq i hi i' hi' hm hm']
    · constructor
      · intro h; rw [hri] at h; simp at h
      · intro h; exact absurd hm (h i hi)
  · constructor
    · intro i
      constructor
      · intro h; rw [hr'] at h; simp at h
      · rintro ⟨hi, hm⟩; exact absurd hm (hno i hi)
    · exact ⟨fun _ => hno, fun _ => hr'⟩

/-- C162: no datum in a cell reaching the level is missed, but (violated) a datum in a cell below the level is labelled as above it
whenever cells of its column reach the level on both sides. -/
theorem C162_covers_and_overshoots (ex ey : List ℝ) (hy : ey.Pairwise (· < ·)) (level : ℝ) (g : Hist.Grid) (i j : Nat) (x y : ℝ)
    (hj : j < ey.length - 1) (hxi : ex.getD i 0 < x ∧ x ≤ ex.getD (i + 1) 0) (hyj : ey.getD j 0 < y ∧ y ≤ ey.getD (j + 1) 0) :
    (Reaches level (g i j) → Marked ex ey level g i (.fin x, .fin y)) ∧
    (∀ b t, b < j → j < t → t < ey.length - 1 → Reaches level (g i b) → Reaches level (g i t) → ¬ Reaches level (g i j) →
      Marked ex ey level g i (.fin x, .fin y)) := by
  refine ⟨fun h => ⟨⟨x, rfl, hxi⟩, j, j, y, le_rfl, hj, h, h, rfl, hyj⟩, ?_⟩
  intro b t hb ht ht' rb rt _
  refine ⟨⟨x, rfl, hxi⟩, b, t, y, by omega, ht', rb, rt, rfl, ?_, ?_⟩
  · exact lt_of_le_of_lt (getD_le hy hb.le (by omega)) hyj.1
  · exact hyj.2.trans (getD_le hy (by omega) (by omega))

/-- C162 (violated): if some column does not reach the level the call fails with an AttributeError instead of leaving its data
missing. -/
theorem C162_refused (ex ey : List ℝ) (hy : ey.Pairwise (· < ·)) (level : ℝ) (g : Hist.Grid) (data : List (Fl × Fl)) (cols : List Nat)
    (i : Nat) (hi : i ∈ cols) (h : ∀ j < ey.length - 1, ¬ Reaches level (g i j)) :
    idAbove ex ey level g data cols (data.map (fun _ => none)) = .error .attributeError := by
  have key : ∀ (cols : List Nat) (acc : List (Option Nat)), i ∈ cols → idAbove ex ey level g data cols acc = .error .attributeError := by
    intro cols
    induction cols with
    | nil => intro acc hi; simp at hi
    | cons i' is ih =>
      intro acc hi
      unfold idAbove aboveCol
      cases hh : hull (ey.length - 1) level (g i') with
      | none => rfl
      | some bt =>
        rcases List.mem_cons.mp hi with rfl | hi
        · rw [(hull_none _ _ _).mpr h] at hh; simp at hh
        · exact ih _ hi
  exact key cols _ hi

/-- non-vacuity: a column of three cells, the middle one below the level -/
example : ∃ (ex ey : List ℝ) (g : Hist.Grid), ex.Pairwise (· < ·) ∧ ey.Pairwise (· < ·) ∧ 0 < ex.length - 1 ∧
    Reaches 2 (g 0 0) ∧ ¬ Reaches 2 (g 0 1) ∧ Reaches 2 (g 0 2) ∧ 2 < ey.length - 1 := by
  refine ⟨[0, 1], [0, 1, 2, 3], fun _ j => if j = 1 then .fin 0 else .fin 5, by norm_num, by norm_num, by norm_num, ?_, ?_, ?_, by norm_num⟩
  · right; exact ⟨5, by simp, by norm_num⟩
  · rintro (h | ⟨r, h, h2⟩)
    · simp at h
    · simp only [if_true, Fl.fin_inj] at h; linarith
  · right; exact ⟨5, by simp, by norm_num⟩

/-! ### C163: colour limits -/

/-- C163: without `limit_color_norm`, or with column or row normalisation, the colour scale is the caller's, or the documented default. -/
theorem C163_untouched (axnorm : Option String) (zs : List ℝ) (user : Option (Option CNorm)) (limit : Bool)
    (h : limit = false ∨ axnorm = some "c" ∨ axnorm = some "r") :
    (∀ n, hist2dNorm axnorm zs (some n) limit = .ok n) ∧
    ((axnorm = some "c" ∨ axnorm = some "r") → hist2dNorm axnorm zs none limit = .ok (some ⟨some 0, some 1, true⟩)) := by
  unfold hist2dNorm limitNorm defaultNorm
  rcases h with rfl | h
  · refine ⟨fun n => rfl, fun h => ?_⟩
    simp [h]
  · refine ⟨fun n => ?_, fun _ => ?_⟩
    · cases limit <;> simp [h]
    · cases limit <;> simp [h]

/-- the number a fraction `m / 100` up the sorted data -/
theorem quantile_pct (s : List ℝ) (m p : Nat) (hl : s.length = 100 * m + 1) (q : ℝ) (hq : q = (p : ℝ) / 100) :
    Spiral.quantile s q = s.getD (p * m) 0 := by
  unfold Spiral.quantile
  have hh : q * ((s.length : ℝ) - 1) = ((p * m : Nat) : ℝ) := by
    rw [hl, hq]; push_cast; ring
  simp only [hh, Nat.floor_natCast]
  simp

/-- C163: otherwise limits the caller left open become the 1% and 99% quantile of the z data (here shown where the quantiles are data:
`100 m + 1` data), limits given are kept, and values outside are clipped to the end colours. -/
theorem C163_limited (axnorm : Option String) (h : axnorm ≠ some "c" ∧ axnorm ≠ some "r") (zs : List ℝ) (m : Nat)
    (hl : zs.length = 100 * m + 1) (n : CNorm) :
    ∃ lo hi, hist2dNorm axnorm zs (some (some n)) true = .ok (some ⟨some lo, some hi, true⟩) ∧
      lo = n.vmin.getD ((zs.insertionSort (· ≤ ·)).getD m 0) ∧ hi = n.vmax.getD ((zs.insertionSort (· ≤ ·)).getD (99 * m) 0) := by
  have hl' : (zs.insertionSort (· ≤ ·)).length = 100 * m + 1 := by rw [List.length_insertionSort, hl]
  refine ⟨_, _, ?_, rfl, rfl⟩
  unfold hist2dNorm limitNorm defaultNorm
  rw [if_pos rfl, if_neg (by rintro (h' | h'); exacts [h.1 h', h.2 h'])]
  simp only
  rw [quantile_pct _ m 1 hl' 0.01 (by norm_num), quantile_pct _ m 99 hl' 0.99 (by norm_num), one_mul]

theorem quantile_const (s : List ℝ) (c : ℝ) (hs : s ≠ []) (h : ∀ v ∈ s, v = c) (q : ℝ) (h0 : 0 ≤ q) (h1 : q ≤ 1) :
    Spiral.quantile s q = c := by
  have hg : ∀ k < s.length, s.getD k 0 = c := by
    intro k hk
    rw [List.getD_eq_getElem?_getD, List.getElem?_eq_getElem hk]
    exact h _ (List.getElem_mem hk)
  have hpos : 0 < s.length := List.length_pos_iff.mpr hs
  have hk : ⌊q * ((s.length : ℝ) - 1)⌋₊ < s.length := by
    rw [Nat.floor_lt (mul_nonneg h0 (by have : (1 : ℝ) ≤ s.length := by exact_mod_cast hpos
                                        linarith))]
    have : (1 : ℝ) ≤ s.length := by exact_mod_cast hpos
    nlinarith
  unfold Spiral.quantile
  simp only
  rw [hg _ hk]
  have : s.getD (⌊q * ((s.length : ℝ) - 1)⌋₊ + 1) c = c := by
    by_cases hk' : ⌊q * ((s.length : ℝ) - 1)⌋₊ + 1 < s.length
    · rw [List.getD_eq_getElem?_getD, List.getElem?_eq_getElem hk']
      exact h _ (List.getElem_mem hk')
    · rw [List.getD_eq_getElem?_getD, List.getElem?_eq_none (by omega)]; rfl
  rw [this]; ring

/-- C163 (violated): the limits come from the z data, not from what is drawn: in a histogram of counts (z is 1 throughout) with density
normalisation, `limit_color_norm` makes every limit 1, so all cells get an end colour; with no or total normalisation it fails. -/
theorem C163_counts_wrong (zs : List ℝ) (hz : zs ≠ []) (h1 : ∀ z ∈ zs, z = 1) (axnorm : Option String) :
    ((axnorm = some "d" ∨ axnorm = some "cd" ∨ axnorm = some "rd") →
      hist2dNorm axnorm zs none true = .ok (some ⟨some 1, some 1, true⟩)) ∧
    ((axnorm = none ∨ axnorm = some "t") → hist2dNorm axnorm zs none true = .error .attributeError) := by
  have hz' : zs.insertionSort (· ≤ ·) ≠ [] := by
    intro h
    have := congrArg List.length h
    rw [List.length_insertionSort] at this
    exact hz (List.length_eq_zero_iff.mp (by simpa using this))
  have h1' : ∀ z ∈ zs.insertionSort (· ≤ ·), z = 1 := fun z hz => h1 z ((List.mem_insertionSort _).mp hz)
  have e1 := quantile_const _ 1 hz' h1' 0.01 (by norm_num) (by norm_num)
  have e2 := quantile_const _ 1 hz' h1' 0.99 (by norm_num) (by norm_num)
  unfold hist2dNorm limitNorm defaultNorm
  constructor
  · rintro (rfl | rfl | rfl) <;> simp [e1, e2]
  · rintro (rfl | rfl) <;> simp

end Orb
end SW
