import Verif.Props.Spiral
import Verif.SpiralStats

/-!
# C281: the statistics of an adaptive mesh
-/

namespace SW
namespace Spiral

open Classical

theorem foldl_max_le (l : List Int) (a n : Nat) (ha : a ≤ n) (h : ∀ z ∈ l, z.toNat + 1 ≤ n) : l.foldl (fun a z => max a (z.toNat + 1)) a ≤ n := by
  induction l generalizing a with
  | nil => exact ha
  | cons z l ih => exact ih _ (max_le ha (h z (by simp))) fun z' hz' => h z' (by simp [hz'])

theorem bincount_eq (ids : List Int) (n : Nat) (h : ∀ z ∈ ids, 0 ≤ z ∧ z < n) : bincount ids n = (List.range n).map fun i : Nat => ids.count (i : Int) := by
  unfold bincount
  rw [max_eq_left (foldl_max_le ids 0 n (Nat.zero_le _) fun z hz => by have := h z hz; omega)]

theorem foldl_step {P : Nat → Prop} (order : List Nat) (z : Int) (hz : z = fillBin ∨ ∃ i : Nat, z = i ∧ P i) :
    (order.foldl (fun (z : Int) (i : Nat) => if P i then (i : Int) else z) z = fillBin ∨
      ∃ i : Nat, order.foldl (fun (z : Int) (i : Nat) => if P i then (i : Int) else z) z = i ∧ P i) := by
  induction order generalizing z with
  | nil => exact hz
  | cons j l ih =>
    rw [List.foldl_cons]
    apply ih
    by_cases h : P j
    · rw [if_pos h]; exact Or.inr ⟨j, rfl, h⟩
    · rw [if_neg h]; exact hz

/-- whatever the order and the mesh: the bin number is the fill value or that of a cell around the datum -/
theorem binNumber_cases (mesh : List Cell) (order : List Nat) (p : Pt) :
    binNumber mesh order p = fillBin ∨ ∃ (i : Nat) (c : Cell), binNumber mesh order p = i ∧ mesh[i]? = some c ∧ inCell c p := by
  rcases foldl_step (P := fun i => ∃ c, mesh[i]? = some c ∧ inCell c p) order fillBin (Or.inl rfl) with h | ⟨i, h, c, hc⟩
  · left
    unfold binNumber
    convert h
  · right
    refine ⟨i, c, ?_, hc⟩
    unfold binNumber
    convert h

theorem binNumber_range (mesh : List Cell) (order : List Nat) (p : Pt) (h : binNumber mesh order p ≠ fillBin) :
    0 ≤ binNumber mesh order p ∧ binNumber mesh order p < mesh.length := by
  rcases binNumber_cases mesh order p with e | ⟨i, c, e, hc, -⟩
  · exact absurd e h
  · rw [e]
    have : i < mesh.length := by
      by_contra hh
      rw [List.getElem?_eq_none (by omega)] at hc
      cases hc
    omega

theorem visits_once (n : Nat) (order : List Nat) (h : order.Perm (List.range n)) : visits n order = List.replicate n 1 := by
  unfold visits
  apply List.ext_getElem
  · simp
  · intro i h1 h2
    simp only [List.getElem_map, List.getElem_range, List.getElem_replicate]
    rw [h.count_eq]
    simp only [List.length_map, List.length_range] at h1
    exact List.count_eq_one_of_mem List.nodup_range (List.mem_range.mpr h1)

theorem filter_count (l : List Int) (i : Nat) : (l.filter (· ≠ fillBin)).count (i : Int) = l.count (i : Int) := by
  rw [List.count_filter]
  have : (i : Int) ≠ fillBin := by unfold fillBin; omega
  simpa using this

/-- numbers of the frequencies -/
theorem report_ok (mesh : List Cell) (hm : mesh ≠ []) (order : List Nat) (hord : order.Perm (List.range mesh.length)) (pts : List Pt) :
    binReport mesh order pts = .ok ⟨pts.map (binNumber mesh order),
      if fillBin ∈ pts.map (binNumber mesh order) then some ((pts.map (binNumber mesh order)).count fillBin) else none,
      (List.range mesh.length).map (fun i : Nat => (pts.map (binNumber mesh order)).count (i : Int)),
      ((List.range mesh.length).map (fun i : Nat => (pts.map (binNumber mesh order)).count (i : Int))).foldl max 0,
      ((List.range mesh.length).map (fun i : Nat => (pts.map (binNumber mesh order)).count (i : Int))).count 0, none, none⟩ := by
  unfold binReport
  simp only []
  have b : bincount ((pts.map (binNumber mesh order)).filter (· ≠ fillBin)) mesh.length =
      (List.range mesh.length).map (fun i : Nat => (pts.map (binNumber mesh order)).count (i : Int)) := by
    rw [bincount_eq]
    · simp only [filter_count]
    · intro z hz
      rw [List.mem_filter] at hz
      obtain ⟨p, -, rfl⟩ := List.mem_map.mp hz.1
      exact binNumber_range mesh order p (by simpa using hz.2)
  rw [b, visits_once _ _ hord]
  have l0 : 0 < mesh.length := List.length_pos_iff.mpr hm
  have ne : (List.range mesh.length).map (fun i : Nat => (pts.map (binNumber mesh order)).count (i : Int)) ≠ [] := by
    intro h
    have := congrArg List.length h
    rw [List.length_map, List.length_range, List.length_nil] at this
    omega
  rw [if_neg ne]
  have e : ¬ ((mesh.length : Int) - ((List.range mesh.length).map (fun i : Nat => (pts.map (binNumber mesh order)).count (i : Int))).length ≠ 0) := by
    simp
  rw [if_neg e]
  have a1 : (List.replicate mesh.length 1).all (fun x => decide (x ≠ 0)) = true := by simp
  have a2 : ¬ (List.replicate mesh.length 1).any (fun x => decide (1 < x)) = true := by simp
  rw [if_pos a1, if_neg a2]

/-! ## C281 -/

/-- the mesh has cells: the call succeeds in every order of the loop, and neither "unvisited" nor "visited more than once" is ever reported -/
theorem C281_succeeds (mesh : List Cell) (hm : mesh ≠ []) (order : List Nat) (hord : order.Perm (List.range mesh.length)) (pts : List Pt) :
    ∃ r, binReport mesh order pts = .ok r ∧ r.unvisited = none ∧ r.repeated = none ∧ r.freq.length = mesh.length ∧ r.zbin.length = pts.length := by
  refine ⟨_, report_ok mesh hm order hord pts, rfl, rfl, ?_, ?_⟩ <;> simp

/-- without cells it never succeeds -/
theorem C281_no_cells (pts : List Pt) : binReport [] [] pts = .error .valueError := by
  have z : ∀ l : List Pt, (l.map (binNumber [] [])).filter (· ≠ fillBin) = [] := by
    intro l
    rw [List.filter_eq_nil_iff]
    intro z hz
    obtain ⟨p, -, rfl⟩ := List.mem_map.mp hz
    simp [binNumber]
  unfold binReport
  simp only [z]
  rw [if_pos (by simp [bincount])]

/-- cells that do not overlap: the frequency of a cell is the number of data in it, the fill values the data in no cell; together they are all data -/
theorem C281_counts (mesh : List Cell) (order : List Nat) (hord : order.Perm (List.range mesh.length)) (pts : List Pt) (hone : ∀ p, covers mesh p ≤ 1)
    (r : BinReport) (hr : binReport mesh order pts = .ok r) :
    r.freq = mesh.map (cellCount pts) ∧
    r.outside = (if ∃ p ∈ pts, ∀ c ∈ mesh, ¬ inCell c p then some (pts.countP fun p => decide (∀ c ∈ mesh, ¬ inCell c p)) else none) ∧
    r.freq.sum + (r.outside.getD 0) = pts.length ∧
    (∀ n ∈ r.freq, n ≤ r.largest) ∧ r.largest ∈ r.freq ∧ r.empty = (mesh.filter fun c => decide (cellCount pts c = 0)).length := by
  have hm : mesh ≠ [] := by
    rintro rfl
    have : order = [] := by simpa using hord
    rw [this, C281_no_cells] at hr
    cases hr
  rw [report_ok mesh hm order hord pts] at hr
  injection hr with hr
  have num : ∀ p, ∀ (i : Nat), i < mesh.length → (binNumber mesh order p = i ↔ ∃ c, mesh[i]? = some c ∧ inCell c p) := by
    intro p i hi
    constructor
    · intro h
      rcases binNumber_cases mesh order p with e | ⟨j, c, e, hc⟩
      · rw [e] at h
        unfold fillBin at h
        omega
      · rw [e] at h
        have : j = i := by exact_mod_cast h
        exact ⟨c, by rw [← this]; exact hc⟩
    · rintro ⟨c, h1, h2⟩
      exact (C79_bin_number mesh order hord p (hone p)).1 i c h1 h2
  have fill : ∀ p, (binNumber mesh order p = fillBin ↔ ∀ c ∈ mesh, ¬ inCell c p) := by
    intro p
    constructor
    · intro h c hc hin
      obtain ⟨i, hi, e⟩ := List.getElem_of_mem hc
      have := (C79_bin_number mesh order hord p (hone p)).1 i c (by rw [List.getElem?_eq_getElem hi, e]) hin
      rw [h] at this
      unfold fillBin at this
      omega
    · exact (C79_bin_number mesh order hord p (hone p)).2.1
  have hf : (List.range mesh.length).map (fun i : Nat => (pts.map (binNumber mesh order)).count (i : Int)) = mesh.map (cellCount pts) := by
    apply List.ext_getElem
    · simp
    · intro i h1 h2
      simp only [List.length_map, List.length_range] at h1
      simp only [List.getElem_map, List.getElem_range]
      unfold cellCount
      rw [List.count_eq_countP, List.countP_map]
      apply List.countP_congr
      intro p _
      simp only [Function.comp_apply, beq_iff_eq, decide_eq_true_eq]
      rw [num p i h1]
      constructor
      · rintro ⟨c, e, hc⟩
        rw [List.getElem?_eq_getElem h1] at e
        cases e
        exact hc
      · intro hc
        exact ⟨_, List.getElem?_eq_getElem h1, hc⟩
  have hout : (if fillBin ∈ pts.map (binNumber mesh order) then some ((pts.map (binNumber mesh order)).count fillBin) else none) =
      (if ∃ p ∈ pts, ∀ c ∈ mesh, ¬ inCell c p then some (pts.countP fun p => decide (∀ c ∈ mesh, ¬ inCell c p)) else none) := by
    have e1 : fillBin ∈ pts.map (binNumber mesh order) ↔ ∃ p ∈ pts, ∀ c ∈ mesh, ¬ inCell c p := by
      rw [List.mem_map]
      constructor
      · rintro ⟨p, hp, h⟩
        exact ⟨p, hp, (fill p).mp h⟩
      · rintro ⟨p, hp, h⟩
        exact ⟨p, hp, (fill p).mpr h⟩
    have e2 : (pts.map (binNumber mesh order)).count fillBin = pts.countP fun p => decide (∀ c ∈ mesh, ¬ inCell c p) := by
      rw [List.count_eq_countP, List.countP_map]
      apply List.countP_congr
      intro p _
      simp only [Function.comp_apply, beq_iff_eq, decide_eq_true_eq]
      exact fill p
    rw [e2]
    by_cases h : ∃ p ∈ pts, ∀ c ∈ mesh, ¬ inCell c p
    · rw [if_pos h, if_pos (e1.mpr h)]
    · rw [if_neg h, if_neg (fun h' => h (e1.mp h'))]
  rw [hf, hout] at hr
  have fr : r.freq = mesh.map (cellCount pts) := by rw [← hr]
  have la : r.largest = (mesh.map (cellCount pts)).foldl max 0 := by rw [← hr]
  have em : r.empty = (mesh.map (cellCount pts)).count 0 := by rw [← hr]
  have ou : r.outside = (if ∃ p ∈ pts, ∀ c ∈ mesh, ¬ inCell c p then some (pts.countP fun p => decide (∀ c ∈ mesh, ¬ inCell c p)) else none) := by
    rw [← hr]
  have mx : ∀ (l : List Nat) (a : Nat), (l.foldl max a = a ∨ l.foldl max a ∈ l) ∧ a ≤ l.foldl max a ∧ ∀ n ∈ l, n ≤ l.foldl max a := by
    intro l
    induction l with
    | nil => intro a; simp
    | cons x l ih =>
      intro a
      obtain ⟨h1, h2, h3⟩ := ih (max a x)
      rw [List.foldl_cons]
      refine ⟨?_, (le_max_left _ _).trans h2, ?_⟩
      · rcases h1 with h1 | h1
        · rw [h1]
          rcases max_choice a x with h | h
          · left; exact h
          · right; rw [h]; simp
        · right; simp [h1]
      · intro n hn
        rcases List.mem_cons.mp hn with rfl | hn
        · exact (le_max_right _ _).trans h2
        · exact h3 n hn
  have getD : r.outside.getD 0 = pts.countP fun p => decide (∀ c ∈ mesh, ¬ inCell c p) := by
    rw [ou]
    by_cases h : ∃ p ∈ pts, ∀ c ∈ mesh, ¬ inCell c p
    · rw [if_pos h]; rfl
    · rw [if_neg h]
      symm
      rw [Option.getD_none, List.countP_eq_zero]
      intro p hp hh
      exact h ⟨p, hp, by simpa using hh⟩
  refine ⟨fr, ou, ?_, ?_, ?_, ?_⟩
  · rw [getD, fr]
    clear hr fr la em ou getD hf hout hord num fill
    induction pts with
    | nil =>
      have : mesh.map (cellCount []) = mesh.map fun _ => 0 := by
        apply List.map_congr_left
        intro c _
        rfl
      rw [this]
      simp
    | cons p pts ih =>
      have e : mesh.map (cellCount (p :: pts)) = mesh.map fun c => cellCount pts c + if inCell c p then 1 else 0 := by
        apply List.map_congr_left
        intro c _
        unfold cellCount
        rw [List.countP_cons]
        simp
      have s : (mesh.map fun c => cellCount pts c + if inCell c p then 1 else 0).sum = (mesh.map (cellCount pts)).sum + covers mesh p := by
        clear ih e hone hm
        induction mesh with
        | nil => simp [covers]
        | cons c l ih =>
          have : covers (c :: l) p = covers l p + if inCell c p then 1 else 0 := by
            unfold covers
            rw [List.countP_cons]
            simp
          simp only [List.map_cons, List.sum_cons, ih, this]
          omega
      rw [e, s, List.countP_cons, List.length_cons]
      have c1 := hone p
      by_cases h : ∃ c ∈ mesh, inCell c p
      · have h' := covers_pos.mpr h
        have : decide (∀ c ∈ mesh, ¬ inCell c p) = false := by
          rw [decide_eq_false_iff_not]
          push Not
          exact h
        rw [this]
        simp only [Bool.false_eq_true, if_false]
        omega
      · have h' : covers mesh p = 0 := by
          by_contra hh
          exact h (covers_pos.mp (by omega))
        have : decide (∀ c ∈ mesh, ¬ inCell c p) = true := by
          rw [decide_eq_true_eq]
          push Not at h
          exact h
        rw [this]
        simp only [if_true]
        omega
  · rw [fr, la]
    exact (mx _ 0).2.2
  · rw [fr, la]
    rcases (mx (mesh.map (cellCount pts)) 0).1 with h | h
    · obtain ⟨c, hc⟩ := List.exists_mem_of_ne_nil _ hm
      have := (mx (mesh.map (cellCount pts)) 0).2.2 _ (List.mem_map_of_mem (f := cellCount pts) hc)
      rw [h] at this ⊢
      have z : cellCount pts c = 0 := by omega
      rw [← z]
      exact List.mem_map_of_mem hc
    · exact h
  · rw [em, List.count_eq_countP, List.countP_map, List.countP_eq_length_filter]
    congr 1

/-- after mesh generation no bin is reported with more than the limit -/
theorem C281_limit (xb yb : List ℝ) (hx : xb.Pairwise (· ≤ ·)) (hy : yb.Pairwise (· ≤ ·)) {ax zx ay zy : ℝ}
    (hax : xb.head? = some ax) (hzx : xb.getLast? = some zx) (hay : yb.head? = some ay) (hzy : yb.getLast? = some zy)
    (m : Nat) (pts : List Pt) (fuel : Nat) (mesh : List Cell) (h : generate m pts (initialMesh xb yb) fuel = some mesh)
    (order : List Nat) (hord : order.Perm (List.range mesh.length)) (r : BinReport) (hr : binReport mesh order pts = .ok r) :
    r.largest ≤ m ∧ r.outside.getD 0 = pts.countP fun p => decide (¬ InRegion ax zx ay zy p) := by
  obtain ⟨h1, h2, h3⟩ := C80_limit xb yb hx hy hax hzx hay hzy m pts fuel mesh h
  have hone : ∀ p, covers mesh p ≤ 1 := by
    intro p
    have := (generate_sound h).1 p
    rw [this, covers_region hx hy hax hzx hay hzy]
    split <;> omega
  obtain ⟨f1, f2, -, -, f5, -⟩ := C281_counts mesh order hord pts hone r hr
  constructor
  · rw [f1] at f5
    obtain ⟨c, hc, e⟩ := List.mem_map.mp f5
    rw [← e]
    exact h1 c hc
  · have e : ∀ p, (∀ c ∈ mesh, ¬ inCell c p) ↔ ¬ InRegion ax zx ay zy p := by
      intro p
      constructor
      · intro hh hp
        obtain ⟨i, ⟨c, hc, hin⟩, -⟩ := h2 p hp
        exact hh c (List.mem_of_getElem? hc) hin
      · exact h3 p
    rw [f2]
    simp only [e]
    by_cases hh : ∃ p ∈ pts, ¬ InRegion ax zx ay zy p
    · rw [if_pos hh]; rfl
    · rw [if_neg hh]
      symm
      rw [Option.getD_none, List.countP_eq_zero]
      intro p hp h'
      exact hh ⟨p, hp, by simpa using h'⟩

/-- for example: two cells, the loop backward, three data of which one is missing -/
example : ∃ r, binReport [⟨0, 1, 0, 1⟩, ⟨1, 2, 0, 1⟩] [1, 0] [(.fin (1 / 2), .fin 0), (.nan, .fin 0), (.fin (1 / 3), .fin 0)] = .ok r ∧
    r.unvisited = none ∧ r.repeated = none ∧ r.freq.length = 2 ∧ r.zbin.length = 3 :=
  C281_succeeds _ (by simp) _ (by decide) _

end Spiral
end SW
