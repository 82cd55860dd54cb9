import Verif.Containers
import Verif.Props.Vector

/-!
# Vectors and tensors as containers: properties (C231, C232)
-/

namespace SW
namespace Box

open Classical

/-! ### C231: which frames are accepted -/

/-- the frame has plain columns, among them those named -/
def Has (f : Frame) (req : List String) : Prop := ∃ n, f.cols = .flat n ∧ ∀ s ∈ req, s ∈ n

/-- the frame has rows and columns -/
def NonEmpty (f : Frame) : Prop := f.rows ≠ [] ∧ f.cols.size ≠ 0

theorem hasAll_iff (f : Frame) (req : List String) : f.cols.hasAll req ↔ Has f req := by
  unfold Has
  cases h : f.cols with
  | flat n => simp [Cols.hasAll]
  | multi n => simp [Cols.hasAll]

theorem empty_iff (f : Frame) : f.empty ↔ ¬ NonEmpty f := by
  unfold Frame.empty NonEmpty; tauto

/-- C231: a tensor is made from exactly the non-empty frames with plain columns par, per and scalar; everything else is ValueError
and the frame is kept as it is. -/
theorem C231_tensor (f : Frame) :
    (NonEmpty f ∧ Has f ["par", "per", "scalar"] → mkTensor f = .ok f) ∧
    (¬ (NonEmpty f ∧ Has f ["par", "per", "scalar"]) → mkTensor f = .error .valueError) := by
  unfold mkTensor
  rw [empty_iff, hasAll_iff]
  have : Has f ["per", "par", "scalar"] ↔ Has f ["par", "per", "scalar"] := by
    unfold Has; simp only [List.mem_cons, List.not_mem_nil, or_false, forall_eq_or_imp, forall_eq]; tauto
  rw [this]
  by_cases h1 : NonEmpty f <;> by_cases h2 : Has f ["par", "per", "scalar"] <;> simp [h1, h2]

/-- C231: a vector is made from exactly the non-empty frames with plain columns x, y and z and, unchecked, from every non-empty
frame with several column levels. -/
theorem C231_vector (f : Frame) :
    (NonEmpty f ∧ (Has f ["x", "y", "z"] ∨ ∃ n, f.cols = .multi n) → mkVector f = .ok f) ∧
    (¬ (NonEmpty f ∧ (Has f ["x", "y", "z"] ∨ ∃ n, f.cols = .multi n)) → mkVector f = .error .valueError) := by
  unfold mkVector
  rw [empty_iff, hasAll_iff]
  have : f.cols.isMulti ↔ ∃ n, f.cols = .multi n := by
    cases h : f.cols <;> simp [Cols.isMulti]
  rw [this]
  by_cases h1 : NonEmpty f <;> by_cases h2 : Has f ["x", "y", "z"] <;> by_cases h3 : ∃ n, f.cols = .multi n <;> simp [h1, h2, h3]

/-- C231 (violated): the magnitude of a tensor cannot be computed: every tensor raises ValueError. -/
theorem C231_magnitude_violated (f : Frame) (h : mkTensor f = .ok f) : tensorMagnitude f = .error .valueError := by
  have hok : NonEmpty f ∧ Has f ["par", "per", "scalar"] := by
    by_contra hc
    rw [(C231_tensor f).2 hc] at h
    simp at h
  obtain ⟨-, n, hn, hall⟩ := hok
  unfold tensorMagnitude
  rw [if_pos]
  rw [hn]
  show n.length ≠ 2
  intro h2
  have hs : ["par", "per", "scalar"].Subperm n :=
    List.subperm_of_subset (by decide) (fun s hs => hall s hs)
  have := hs.length_le
  simp [h2] at this

/-- a tensor -/
example : mkTensor ⟨.flat ["par", "per", "scalar"], [[.fin 1, .fin 2, .fin 3]]⟩ =
    .ok ⟨.flat ["par", "per", "scalar"], [[.fin 1, .fin 2, .fin 3]]⟩ :=
  (C231_tensor _).1 ⟨⟨by simp, by simp [Cols.size]⟩, _, rfl, by simp⟩

theorem pick_single : ∀ (names : List String) (row : List Fl) (s : String) (v : Fl), names.Nodup → (s, v) ∈ names.zip row →
    pick names row s = [v]
  | [], row, s, v, _, h => by simp at h
  | n :: names, [], s, v, _, h => by simp at h
  | n :: names, r :: row, s, v, hn, h => by
    rw [List.nodup_cons] at hn
    rw [List.zip_cons_cons] at h
    unfold pick
    rw [List.zip_cons_cons]
    rcases List.mem_cons.mp h with h | h
    · obtain ⟨rfl, rfl⟩ := Prod.mk.inj h
      rw [List.filter_cons_of_pos (by simp)]
      have : (names.zip row).filter (fun p => decide (p.1 = s)) = [] := by
        rw [List.filter_eq_nil_iff]
        rintro ⟨a, b⟩ hp hk
        simp only [decide_eq_true_eq] at hk
        subst hk
        exact hn.1 (List.of_mem_zip hp).1
      rw [this]; rfl
    · have hne : n ≠ s := fun e => hn.1 (e ▸ (List.of_mem_zip h).1)
      rw [List.filter_cons_of_neg (by simpa using hne)]
      exact pick_single names row s v hn.2 h

/-- C231: the magnitude of a vector is the root of x² + y² + z², wherever the columns stand and whatever others there are, provided
no name is repeated. -/
theorem C231_vector_mag (names : List String) (row : List Fl) (hn : names.Nodup) (x y z : Fl)
    (hx : ("x", x) ∈ names.zip row) (hy : ("y", y) ∈ names.zip row) (hz : ("z", z) ∈ names.zip row) :
    vectorMag names row = V3.mag ⟨x, y, z⟩ := by
  unfold vectorMag V3.mag
  rw [pick_single names row "x" x hn hx, pick_single names row "y" y hn hy, pick_single names row "z" z hn hz]
  rfl

/-- C231 (violated): with a repeated column the magnitude counts it twice. -/
theorem C231_repeated_column (x y z : ℝ) :
    vectorMag ["x", "x", "y", "z"] [.fin x, .fin x, .fin y, .fin z] = .fin (Real.sqrt (2 * x ^ 2 + y ^ 2 + z ^ 2)) := by
  have h : pick ["x", "x", "y", "z"] [.fin x, .fin x, .fin y, .fin z] "x" = [.fin x, .fin x] := by simp [pick]
  have h2 : pick ["x", "x", "y", "z"] [.fin x, .fin x, .fin y, .fin z] "y" = [.fin y] := by simp [pick]
  have h3 : pick ["x", "x", "y", "z"] [.fin x, .fin x, .fin y, .fin z] "z" = [.fin z] := by simp [pick]
  unfold vectorMag
  rw [h, h2, h3]
  simp only [List.cons_append, List.nil_append, List.map_cons, List.map_nil, Fl.sq_fin, Fl.sumAll_cons, Fl.sumAll_nil, Fl.zero_def,
    Fl.fin_add]
  rw [Fl.sqrt_fin _ (by positivity)]
  congr 2
  ring

/-! ### C232: vectors measured at different times -/

/-- the vector has the row `r` at time `k` -/
def RowAt (v : LVec) (k : Int) (r : V3) : Prop := (k, r) ∈ v

/-- the times at which the vector was measured -/
def MeasuredAt (v : LVec) (k : Int) : Prop := ∃ r, RowAt v k r

theorem lat_of_mem {s : LVec} (hn : (s.map Prod.fst).Nodup) {k : Int} {v : V3} (h : (k, v) ∈ s) : s.at k = v := by
  induction s with
  | nil => simp at h
  | cons p s ih =>
    unfold LVec.at
    simp only [List.map_cons, List.nodup_cons] at hn
    rcases List.mem_cons.mp h with rfl | h
    · simp [List.find?_cons]
    · have hne : p.1 ≠ k := fun e => hn.1 (by rw [e]; exact List.mem_map.mpr ⟨_, h, rfl⟩)
      have := ih hn.2 h
      unfold LVec.at at this
      simpa [List.find?_cons, hne] using this

theorem lat_of_not {s : LVec} {k : Int} (h : ¬ MeasuredAt s k) : s.at k = ⟨.nan, .nan, .nan⟩ := by
  unfold LVec.at
  have : s.find? (fun p => decide (p.1 = k)) = none := by
    rw [List.find?_eq_none]
    rintro ⟨k', r⟩ hp hk
    simp only [decide_eq_true_eq] at hk
    subst hk
    exact h ⟨r, hp⟩
  rw [this]

theorem mem_times (a b : LVec) (k : Int) : k ∈ times a b ↔ MeasuredAt a k ∨ MeasuredAt b k := by
  have hm : ∀ v : LVec, k ∈ v.map Prod.fst ↔ MeasuredAt v k := by
    intro v
    rw [List.mem_map]
    constructor
    · rintro ⟨⟨k', r⟩, h, rfl⟩; exact ⟨r, h⟩
    · rintro ⟨r, h⟩; exact ⟨_, h, rfl⟩
  unfold times Orb.unionIdx
  split
  · rename_i h
    rw [← hm, ← hm, ← h]; simp
  · rw [(List.perm_insertionSort _ _).mem_iff, List.mem_dedup, List.mem_append, hm, hm]

theorem times_nodup (a b : LVec) (ha : (a.map Prod.fst).Nodup) : (times a b).Nodup := by
  unfold times Orb.unionIdx
  split
  · exact ha
  · exact (List.perm_insertionSort _ _).nodup_iff.mpr (List.nodup_dedup _)

theorem nan_mul (x : Fl) : Fl.nan * x = .nan := rfl
theorem mul_nan (x : Fl) : x * Fl.nan = .nan := by cases x <;> rfl
theorem nan_sub (x : Fl) : Fl.nan - x = .nan := rfl
theorem sub_nan (x : Fl) : x - Fl.nan = .nan := by cases x <;> rfl
theorem nan_div (x : Fl) : Fl.nan / x = .nan := rfl

theorem uv_nan : V3.uv ⟨.nan, .nan, .nan⟩ = ⟨.nan, .nan, .nan⟩ := by
  unfold V3.uv; simp only [nan_div]

theorem sq_nan : Fl.sq .nan = .nan := rfl

theorem sum3_nan : Fl.sumSkip [Fl.nan, .nan, .nan] = .fin 0 := by simp [Fl.sumSkip, Fl.isNaN, Fl.zero_def]

/-- C232 (violated): where one of the two rows is missing altogether both parts of the projection and the cosine are 0, not missing. -/
theorem C232_missing (u w : V3) (h : u = ⟨.nan, .nan, .nan⟩ ∨ w = ⟨.nan, .nan, .nan⟩) :
    V3.projPar u w = .fin 0 ∧ V3.projPer u w = .fin 0 ∧ V3.cosTheta u w = .fin 0 := by
  rcases h with rfl | rfl
  · refine ⟨?_, ?_, ?_⟩
    · unfold V3.projPar; simp only [nan_mul, sum3_nan]
    · unfold V3.projPer; simp only [nan_sub, sq_nan, sum3_nan]; rw [Fl.sqrt_fin 0 le_rfl, Real.sqrt_zero]
    · unfold V3.cosTheta; rw [uv_nan]; simp only [nan_mul, sum3_nan]
  · refine ⟨?_, ?_, ?_⟩
    · unfold V3.projPar; rw [uv_nan]; simp only [mul_nan, sum3_nan]
    · unfold V3.projPer; rw [uv_nan]; simp only [nan_mul, sub_nan, sq_nan, sum3_nan]; rw [Fl.sqrt_fin 0 le_rfl, Real.sqrt_zero]
    · unfold V3.cosTheta; rw [uv_nan]; simp only [mul_nan, sum3_nan]

/-- C232: projecting one vector on another gives one row per time at which either was measured; at common times the projection of
the two rows, in whatever order the times were given.  Violated: at a time at which only one was measured parallel and
perpendicular part are 0, not missing. -/
theorem C232_project (a b : LVec) (ha : (a.map Prod.fst).Nodup) (hb : (b.map Prod.fst).Nodup) :
    ∃ out, project a (some b) = .ok out ∧ (out.map Prod.fst).Nodup ∧
      (∀ k, k ∈ out.map Prod.fst ↔ MeasuredAt a k ∨ MeasuredAt b k) ∧
      (∀ k u w, RowAt a k u → RowAt b k w → (k, V3.projPar u w, V3.projPer u w) ∈ out) ∧
      (∀ k, MeasuredAt a k → ¬ MeasuredAt b k → (k, Fl.fin 0, Fl.fin 0) ∈ out) ∧
      (∀ k, MeasuredAt b k → ¬ MeasuredAt a k → (k, Fl.fin 0, Fl.fin 0) ∈ out) := by
  refine ⟨_, rfl, ?_, ?_, ?_, ?_, ?_⟩
  · rw [List.map_map]
    have : (Prod.fst ∘ fun k => (k, V3.projPar (a.at k) (b.at k), V3.projPer (a.at k) (b.at k))) = (id : Int → Int) := rfl
    rw [this, List.map_id]
    exact times_nodup a b ha
  · intro k
    rw [List.map_map]
    have : (Prod.fst ∘ fun k => (k, V3.projPar (a.at k) (b.at k), V3.projPer (a.at k) (b.at k))) = (id : Int → Int) := rfl
    rw [this, List.map_id]
    exact mem_times a b k
  · intro k u w hu hw
    refine List.mem_map.mpr ⟨k, (mem_times a b k).mpr (.inl ⟨u, hu⟩), ?_⟩
    rw [lat_of_mem ha hu, lat_of_mem hb hw]
  · intro k h1 h2
    refine List.mem_map.mpr ⟨k, (mem_times a b k).mpr (.inl h1), ?_⟩
    obtain ⟨e1, e2, -⟩ := C232_missing (a.at k) (b.at k) (.inr (lat_of_not h2))
    rw [e1, e2]
  · intro k h1 h2
    refine List.mem_map.mpr ⟨k, (mem_times a b k).mpr (.inr h1), ?_⟩
    obtain ⟨e1, e2, -⟩ := C232_missing (a.at k) (b.at k) (.inl (lat_of_not h2))
    rw [e1, e2]

/-- C232: the same for the cosine of the angle: 0, i.e. a right angle, where only one vector was measured. -/
theorem C232_cos (a b : LVec) (ha : (a.map Prod.fst).Nodup) (hb : (b.map Prod.fst).Nodup) :
    ∃ out, cosTheta a (some b) = .ok out ∧ (out.map Prod.fst).Nodup ∧
      (∀ k, k ∈ out.map Prod.fst ↔ MeasuredAt a k ∨ MeasuredAt b k) ∧
      (∀ k u w, RowAt a k u → RowAt b k w → (k, V3.cosTheta u w) ∈ out) ∧
      (∀ k, MeasuredAt a k → ¬ MeasuredAt b k → (k, Fl.fin 0) ∈ out) ∧
      (∀ k, MeasuredAt b k → ¬ MeasuredAt a k → (k, Fl.fin 0) ∈ out) := by
  refine ⟨_, rfl, ?_, ?_, ?_, ?_, ?_⟩
  · rw [List.map_map]
    have : (Prod.fst ∘ fun k => (k, V3.cosTheta (a.at k) (b.at k))) = (id : Int → Int) := rfl
    rw [this, List.map_id]
    exact times_nodup a b ha
  · intro k
    rw [List.map_map]
    have : (Prod.fst ∘ fun k => (k, V3.cosTheta (a.at k) (b.at k))) = (id : Int → Int) := rfl
    rw [this, List.map_id]
    exact mem_times a b k
  · intro k u w hu hw
    refine List.mem_map.mpr ⟨k, (mem_times a b k).mpr (.inl ⟨u, hu⟩), ?_⟩
    rw [lat_of_mem ha hu, lat_of_mem hb hw]
  · intro k h1 h2
    refine List.mem_map.mpr ⟨k, (mem_times a b k).mpr (.inl h1), ?_⟩
    rw [(C232_missing (a.at k) (b.at k) (.inr (lat_of_not h2))).2.2]
  · intro k h1 h2
    refine List.mem_map.mpr ⟨k, (mem_times a b k).mpr (.inr h1), ?_⟩
    rw [(C232_missing (a.at k) (b.at k) (.inl (lat_of_not h2))).2.2]

/-- C232: projecting on anything but a vector is NotImplementedError, although the signature names frames. -/
theorem C232_other (a : LVec) : project a none = .error .notImplemented ∧ cosTheta a none = .error .notImplemented := ⟨rfl, rfl⟩

/-- a velocity measured at 1 and 2, a field at 2 and 3 -/
example : ∃ out, cosTheta [(1, V3.ofReal 1 0 0), (2, V3.ofReal 1 0 0)] (some [(2, V3.ofReal 2 0 0), (3, V3.ofReal 1 0 0)]) = .ok out ∧
    (1, Fl.fin 0) ∈ out ∧ (3, Fl.fin 0) ∈ out ∧ (2, V3.cosTheta (V3.ofReal 1 0 0) (V3.ofReal 2 0 0)) ∈ out := by
  obtain ⟨out, h, -, -, h1, h2, h3⟩ := C232_cos [(1, V3.ofReal 1 0 0), (2, V3.ofReal 1 0 0)]
    [(2, V3.ofReal 2 0 0), (3, V3.ofReal 1 0 0)] (by simp) (by simp)
  exact ⟨out, h, h2 1 ⟨V3.ofReal 1 0 0, by simp [RowAt]⟩ (by simp [MeasuredAt, RowAt]), h3 3 ⟨V3.ofReal 1 0 0, by simp [RowAt]⟩ (by simp [MeasuredAt, RowAt]),
    h1 2 _ _ (by simp [RowAt]) (by simp [RowAt])⟩

end Box
end SW
