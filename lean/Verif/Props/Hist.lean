import Verif.Hist
import Verif.Props.Activity
import Mathlib.Algebra.Order.Round
import Mathlib.Analysis.Complex.ExponentialBounds
import Mathlib.Data.List.Sort
import Mathlib.Tactic.Linarith
import Mathlib.Tactic.Positivity

/-!
# C73-C78, C124-C130: histograms
-/

namespace SW
namespace Hist

open Classical

/-! ### C73: binning -/

/-- rounding to `p` decimals: a nearest multiple of `10^-p` -/
def IsRound (p : Nat) (rnd : ℝ → ℝ) : Prop :=
  ∀ x, ∃ k : ℤ, rnd x = k / (10 : ℝ) ^ p ∧ |x - rnd x| ≤ 1 / (2 * (10 : ℝ) ^ p)

theorem IsRound.mono {p : Nat} {rnd : ℝ → ℝ} (h : IsRound p rnd) {x y : ℝ} (hxy : x ≤ y) : rnd x ≤ rnd y := by
  obtain ⟨j, hj, dj⟩ := h x
  obtain ⟨k, hk, dk⟩ := h y
  have hp : (0 : ℝ) < 10 ^ p := by positivity
  rw [hj, hk, div_le_div_iff_of_pos_right hp]
  by_contra hc
  rw [not_le] at hc
  have hc' : (k : ℝ) + 1 ≤ j := by exact_mod_cast hc
  have e1 : rnd y + 1 / 10 ^ p ≤ rnd x := by
    rw [hj, hk, ← add_div, div_le_div_iff_of_pos_right hp]; exact hc'
  have a1 := (abs_le.mp dj).1
  have a2 := (abs_le.mp dk).2
  have e2 : (1 : ℝ) / (2 * 10 ^ p) + 1 / (2 * 10 ^ p) = 1 / 10 ^ p := by field_simp; norm_num
  have hxy' : x = y := by linarith
  subst hxy'
  rw [hj] at hk
  have : (j : ℝ) = k := (div_left_inj' hp.ne').mp hk
  linarith

example (p : Nat) : IsRound p (fun x => (round (x * 10 ^ p) : ℝ) / 10 ^ p) := by
  intro x
  refine ⟨round (x * 10 ^ p), rfl, ?_⟩
  have hp : (0 : ℝ) < 10 ^ p := by positivity
  have h := abs_sub_round (x * (10 : ℝ) ^ p)
  have : x - (round (x * 10 ^ p) : ℝ) / 10 ^ p = (x * 10 ^ p - round (x * 10 ^ p)) / 10 ^ p := by
    field_simp
  simp only []
  rw [this, abs_div, abs_of_pos hp, div_le_div_iff₀ hp (by positivity)]
  nlinarith

/-- the bin `(e_i, e_{i+1}]` of an edge list contains the number `t` -/
def InBin (e : List ℝ) (i : Nat) (t : ℝ) : Prop := ∃ l r, e[i]? = some l ∧ e[i + 1]? = some r ∧ l < t ∧ t ≤ r

theorem inIvl_fin (l r t : ℝ) : inIvl l r (.fin t) ↔ l < t ∧ t ≤ r := by unfold inIvl; simp

theorem cutIdx_nonfinite (e : List ℝ) (v : Fl) (h : ¬ v.isFinite) : cutIdx e v = none := by
  induction e with
  | nil => rfl
  | cons a e ih =>
    cases e with
    | nil => rfl
    | cons b e =>
      unfold cutIdx
      have : ¬ inIvl a b v := by
        unfold inIvl
        cases v with
        | nan => simp
        | pinf => rintro ⟨_, h⟩; exact h
        | ninf => rintro ⟨h, _⟩; exact h
        | fin t => exact absurd trivial h
      rw [if_neg this, ih]; rfl

theorem cutIdx_iff : ∀ (e : List ℝ), e.Pairwise (· ≤ ·) → ∀ (t : ℝ) (i : Nat), cutIdx e (.fin t) = some i ↔ InBin e i t := by
  intro e
  induction e with
  | nil => intro _ t i; simp [cutIdx, InBin]
  | cons a e ih =>
    intro hm t i
    cases e with
    | nil => simp [cutIdx, InBin]
    | cons b e =>
      have hm' := (List.pairwise_cons.mp hm).2
      have ih' := ih hm' t
      unfold cutIdx
      by_cases hin : inIvl a b (.fin t)
      · rw [if_pos hin]
        rw [inIvl_fin] at hin
        cases i with
        | zero => simp [InBin, hin]
        | succ i =>
          simp only [Option.some.injEq]
          constructor
          · intro h; omega
          · rintro ⟨l, r, hl, hr, h1, h2⟩
            simp only [List.getElem?_cons_succ] at hl hr
            have hl' : l ∈ b :: e := List.mem_of_getElem? hl
            rcases List.mem_cons.mp hl' with rfl | hl'
            · linarith [hin.2]
            · have := (List.pairwise_cons.mp hm').1 l hl'
              linarith [hin.2]
      · rw [if_neg hin]
        rw [inIvl_fin] at hin
        cases i with
        | zero =>
          simp only [Option.map_eq_some_iff]
          constructor
          · rintro ⟨k, _, hk⟩; omega
          · rintro ⟨l, r, hl, hr, h1, h2⟩
            simp at hl hr
            subst hl; subst hr
            exact absurd ⟨h1, h2⟩ hin
        | succ i =>
          have : InBin (a :: b :: e) (i + 1) t ↔ InBin (b :: e) i t := by
            unfold InBin; simp [List.getElem?_cons_succ]
          rw [this, ← ih' i]
          simp

theorem exists_bin : ∀ (e : List ℝ) (a z t : ℝ), e.head? = some a → e.getLast? = some z → a < t → t ≤ z → ∃ i, InBin e i t := by
  intro e
  induction e with
  | nil => intro a z t ha; simp at ha
  | cons x e ih =>
    intro a z t ha hz h1 h2
    simp only [List.head?_cons, Option.some.injEq] at ha
    subst ha
    cases e with
    | nil => simp at hz; linarith
    | cons b e =>
      by_cases hb : t ≤ b
      · exact ⟨0, x, b, rfl, rfl, h1, hb⟩
      · rw [not_le] at hb
        rw [List.getLast?_cons_cons] at hz
        obtain ⟨i, l, r, hl, hr, h3⟩ := ih b z t rfl hz hb h2
        exact ⟨i + 1, l, r, by simpa using hl, by simpa using hr, h3⟩

theorem mono_head_last {e : List ℝ} (hm : e.Pairwise (· ≤ ·)) {a z x : ℝ} (ha : e.head? = some a) (hz : e.getLast? = some z)
    (hx : x ∈ e) : a ≤ x ∧ x ≤ z := by
  constructor
  · cases e with
    | nil => simp at hx
    | cons b e =>
      simp at ha; subst ha
      rcases List.mem_cons.mp hx with rfl | hx
      · exact le_refl _
      · exact (List.pairwise_cons.mp hm).1 x hx
  · obtain ⟨ys, rfl⟩ := List.getLast?_eq_some_iff.mp hz
    rcases List.mem_append.mp hx with h | h
    · exact (List.pairwise_append.mp hm).2.2 x h z (by simp)
    · simp at h; exact h.le

/-- C73: with ascending edges a number lies in the bin it is assigned to; one strictly above the first edge and not above the last is
assigned to exactly one bin, every other number (and every NaN or infinity) to none. -/
theorem C73_one_bin (e : List ℝ) (hm : e.Pairwise (· ≤ ·)) {a z : ℝ} (ha : e.head? = some a) (hz : e.getLast? = some z) :
    (∀ (t : ℝ) (i : Nat), cutIdx e (.fin t) = some i ↔ InBin e i t) ∧
    (∀ t : ℝ, a < t → t ≤ z → ∃! i, InBin e i t) ∧
    (∀ t : ℝ, (t ≤ a ∨ z < t) → cutIdx e (.fin t) = none ∧ ∀ i, ¬ InBin e i t) ∧
    (∀ v : Fl, ¬ v.isFinite → cutIdx e v = none) := by
  refine ⟨cutIdx_iff e hm, ?_, ?_, cutIdx_nonfinite e⟩
  · intro t h1 h2
    obtain ⟨i, hi⟩ := exists_bin e a z t ha hz h1 h2
    refine ⟨i, hi, ?_⟩
    intro j hj
    have e1 := (cutIdx_iff e hm t i).mpr hi
    have e2 := (cutIdx_iff e hm t j).mpr hj
    rw [e1] at e2
    exact (Option.some.inj e2).symm
  · intro t ht
    have hno : ∀ i, ¬ InBin e i t := by
      rintro i ⟨l, r, hl, hr, h1, h2⟩
      have hl' := mono_head_last hm ha hz (List.mem_of_getElem? hl)
      have hr' := mono_head_last hm ha hz (List.mem_of_getElem? hr)
      rcases ht with h | h <;> linarith
    refine ⟨?_, hno⟩
    cases hc : cutIdx e (.fin t) with
    | none => rfl
    | some i => exact absurd ((cutIdx_iff e hm t i).mp hc) (hno i)

example : ([0, 1, 2, 4] : List ℝ).Pairwise (· ≤ ·) ∧ InBin [0, 1, 2, 4] 2 4 ∧ cutIdx [0, 1, 2, 4] (.fin 4) = some 2 := by
  have hm : ([0, 1, 2, 4] : List ℝ).Pairwise (· ≤ ·) := by norm_num
  have hb : InBin [0, 1, 2, 4] 2 4 := ⟨2, 4, rfl, rfl, by norm_num, le_refl _⟩
  exact ⟨hm, hb, (cutIdx_iff _ hm 4 2).mpr hb⟩

/-! automatic edges -/

theorem rawEdges_num (n : Nat) (xs : List Fl) {m M : ℝ} (hm : Act.IsMin m xs) (hM : Act.IsMax M xs) (hne : m < M) :
    rawEdges (.num (n + 1)) (Act.vals xs) =
      .ok ((List.range (n + 2)).map (fun i : Nat => m + i * (M - m) / (n + 1))) := by
  have hM' := Act.mem_vals.mpr hM.1
  have hm' := Act.mem_vals.mpr hm.1
  cases hv : Act.vals xs with
  | nil => rw [hv] at hM'; simp at hM'
  | cons a l =>
    obtain ⟨h1, h2⟩ := Act.foldl_max_spec a l
    obtain ⟨g1, g2⟩ := Act.foldl_min_spec a l
    rw [← hv] at h1 h2 g1 g2
    have eM : l.foldl max a = M := le_antisymm (hM.2 _ (Act.mem_vals.mp h1)) (h2 M hM')
    have em : l.foldl min a = m := le_antisymm (g2 m hm') (hm.2 _ (Act.mem_vals.mp g1))
    unfold rawEdges
    simp only [eM, em, hne.ne, if_false]

theorem raw_mono (n : Nat) {m M : ℝ} (hne : m < M) {i j : Nat} (h : i < j) :
    m + i * (M - m) / (n + 1) < m + j * (M - m) / (n + 1) := by
  have hn : (0 : ℝ) < n + 1 := by positivity
  have hij : (i : ℝ) < j := by exact_mod_cast h
  have : (i : ℝ) * (M - m) / (n + 1) < j * (M - m) / (n + 1) := by
    apply div_lt_div_of_pos_right _ hn
    exact mul_lt_mul_of_pos_right hij (by linarith)
  linarith

theorem raw_nodup (n : Nat) {m M : ℝ} (hne : m < M) :
    ((List.range (n + 2)).map (fun i : Nat => m + i * (M - m) / (n + 1))).Pairwise (· < ·) := by
  rw [List.pairwise_map]
  exact List.Pairwise.imp (fun h => raw_mono n hne h) List.pairwise_lt_range

/-- the edges actually used for `n+1` automatic bins: the `n+2` equidistant points from the smallest to the largest datum, rounded -/
theorem calcEdges_num (rnd : ℝ → ℝ) (n : Nat) (xs : List Fl) {m M : ℝ} (hm : Act.IsMin m xs) (hM : Act.IsMax M xs) (hne : m < M) :
    calcEdges rnd (.num (n + 1)) xs =
      (if (ivls ((List.range (n + 2)).map (fun i : Nat => rnd (m + i * (M - m) / (n + 1))))).Nodup then
        .ok ((List.range (n + 2)).map (fun i : Nat => rnd (m + i * (M - m) / (n + 1)))) else .error .valueError) := by
  unfold calcEdges
  rw [rawEdges_num n xs hm hM hne]
  have hnd : ((List.range (n + 2)).map (fun i : Nat => m + i * (M - m) / (n + 1))).Nodup :=
    List.Pairwise.imp (fun h => ne_of_lt h) (raw_nodup n hne)
  show (if ¬ _ then _ else _) = _
  rw [if_neg (not_not.mpr hnd), List.map_map]
  rfl

/-- C73: explicit edges are used as given (rounded) if strictly ascending and still giving distinct bins after rounding; descending
somewhere: ValueError; repeated: AssertionError.  Zero bins: ValueError. -/
theorem C73_explicit_edges (rnd : ℝ → ℝ) (e : List ℝ) (xs : List Fl) :
    (¬ e.Pairwise (· ≤ ·) → calcEdges rnd (.edges e) xs = .error .valueError) ∧
    (e.Pairwise (· ≤ ·) → ¬ e.Pairwise (· < ·) → calcEdges rnd (.edges e) xs = .error .assertionError) ∧
    (e.Pairwise (· < ·) → (ivls (e.map rnd)).Nodup → calcEdges rnd (.edges e) xs = .ok (e.map rnd)) ∧
    (e.Pairwise (· < ·) → ¬ (ivls (e.map rnd)).Nodup → calcEdges rnd (.edges e) xs = .error .valueError) ∧
    calcEdges rnd (.num 0) xs = .error .valueError := by
  have hnd : e.Pairwise (· < ·) → e.Nodup := fun h => List.Pairwise.imp (fun h => ne_of_lt h) h
  have hle : e.Pairwise (· < ·) → e.Pairwise (· ≤ ·) := fun h => List.Pairwise.imp (fun h => le_of_lt h) h
  refine ⟨?_, ?_, ?_, ?_, rfl⟩
  · intro h; unfold calcEdges rawEdges; simp only []; rw [if_neg h]; rfl
  · intro h h'
    have : ¬ e.Nodup := fun hn => h' ((h.and hn).imp (fun h => lt_of_le_of_ne h.1 h.2))
    unfold calcEdges rawEdges; simp only []; rw [if_pos h]
    show (if ¬ e.Nodup then _ else _) = _
    rw [if_pos this]
  · intro h h'
    unfold calcEdges rawEdges; simp only []; rw [if_pos (hle h)]
    show (if ¬ e.Nodup then _ else _) = _
    rw [if_neg (not_not.mpr (hnd h)), if_pos h']
  · intro h h'
    unfold calcEdges rawEdges; simp only []; rw [if_pos (hle h)]
    show (if ¬ e.Nodup then _ else _) = _
    rw [if_neg (not_not.mpr (hnd h)), if_neg h']

/-- C73: if all (finite) data are equal the bins cover half a unit on either side; without any the unit interval. -/
theorem C73_constant_data (rnd : ℝ → ℝ) (n : Nat) (xs : List Fl) (lo hi : ℝ)
    (h : (∃ c, Act.IsMin c xs ∧ Act.IsMax c xs ∧ lo = c - 1 / 2 ∧ hi = c + 1 / 2) ∨ ((∀ r, Fl.fin r ∉ xs) ∧ lo = 0 ∧ hi = 1)) :
    calcEdges rnd (.num (n + 1)) xs =
      (if (ivls ((List.range (n + 2)).map (fun i : Nat => rnd (lo + i * (hi - lo) / (n + 1))))).Nodup then
        .ok ((List.range (n + 2)).map (fun i : Nat => rnd (lo + i * (hi - lo) / (n + 1)))) else .error .valueError) := by
  have hraw : rawEdges (.num (n + 1)) (Act.vals xs) = .ok ((List.range (n + 2)).map (fun i : Nat => lo + i * (hi - lo) / (n + 1))) := by
    rcases h with ⟨c, hm, hM, rfl, rfl⟩ | ⟨hno, rfl, rfl⟩
    · cases hv : Act.vals xs with
      | nil => have := Act.mem_vals.mpr hM.1; rw [hv] at this; simp at this
      | cons a l =>
        obtain ⟨h1, h2⟩ := Act.foldl_max_spec a l
        obtain ⟨g1, g2⟩ := Act.foldl_min_spec a l
        rw [← hv] at h1 h2 g1 g2
        have eM : l.foldl max a = c := le_antisymm (hM.2 _ (Act.mem_vals.mp h1)) (h2 c (Act.mem_vals.mpr hM.1))
        have em : l.foldl min a = c := le_antisymm (g2 c (Act.mem_vals.mpr hm.1)) (hm.2 _ (Act.mem_vals.mp g1))
        unfold rawEdges
        simp only [eM, em, if_true]
    · have : Act.vals xs = [] := by
        rw [List.eq_nil_iff_forall_not_mem]
        intro r hr
        exact hno r (Act.mem_vals.mp hr)
      rw [this]
      unfold rawEdges
      norm_num
  have hlt : lo < hi := by
    rcases h with ⟨c, _, _, rfl, rfl⟩ | ⟨_, rfl, rfl⟩
    · linarith
    · norm_num
  unfold calcEdges
  rw [hraw]
  have hnd : ((List.range (n + 2)).map (fun i : Nat => lo + i * (hi - lo) / (n + 1))).Nodup :=
    List.Pairwise.imp (fun h => ne_of_lt h) (raw_nodup n hlt)
  show (if ¬ _ then _ else _) = _
  rw [if_neg (not_not.mpr hnd), List.map_map]
  rfl

/-- C73: with automatic bins the edges are ascending from the rounded smallest to the rounded largest datum, so the smallest datum is
in no bin whenever rounding does not move the first edge below it (always, for an exactly representable minimum), and the largest is
in no bin whenever rounding moves the last edge below it. -/
theorem C73_extremes (p : Nat) (rnd : ℝ → ℝ) (hr : IsRound p rnd) (n : Nat) (xs : List Fl) {m M : ℝ} (hm : Act.IsMin m xs)
    (hM : Act.IsMax M xs) (hne : m < M) {e : List ℝ} (he : calcEdges rnd (.num (n + 1)) xs = .ok e) :
    e.length = n + 2 ∧ e.Pairwise (· ≤ ·) ∧ e.head? = some (rnd m) ∧ e.getLast? = some (rnd M) ∧
    (cutIdx e (.fin m) = none ↔ m ≤ rnd m ∨ rnd M < m) ∧
    (cutIdx e (.fin M) = none ↔ M ≤ rnd m ∨ rnd M < M) := by
  rw [calcEdges_num rnd n xs hm hM hne] at he
  split at he
  · injection he with he
    have hmono : e.Pairwise (· ≤ ·) := by
      rw [← he, List.pairwise_map]
      refine List.Pairwise.imp (fun {i j} h => ?_) List.pairwise_lt_range
      exact hr.mono (raw_mono n hne h).le
    have hhead : e.head? = some (rnd m) := by
      rw [← he, List.range_succ_eq_map]; simp
    have hlast : e.getLast? = some (rnd M) := by
      rw [← he, List.range_succ, List.map_append, List.map_singleton, List.getLast?_append_of_ne_nil _ (by simp)]
      simp only [List.getLast?_singleton]
      congr 2
      have : (n : ℝ) + 1 ≠ 0 := by positivity
      push_cast
      field_simp
      ring
    obtain ⟨hi, hu, hno, _⟩ := C73_one_bin e hmono hhead hlast
    have key : ∀ t, cutIdx e (.fin t) = none ↔ t ≤ rnd m ∨ rnd M < t := by
      intro t
      constructor
      · intro hc
        by_contra h
        push Not at h
        obtain ⟨i, hbin, _⟩ := hu t h.1 h.2
        rw [(hi t i).mpr hbin] at hc
        exact absurd hc (by simp)
      · intro h; exact (hno t h).1
    exact ⟨by rw [← he]; simp, hmono, hhead, hlast, key m, key M⟩
  · exact absurd he (by simp)

/-- C73 (violated: automatic binning loses the smallest datum): if the smallest datum is itself a multiple of the rounding step it is
never binned. -/
theorem C73_minimum_lost (p : Nat) (rnd : ℝ → ℝ) (hr : IsRound p rnd) (n : Nat) (xs : List Fl) {M : ℝ} (k : ℤ)
    (hm : Act.IsMin (k / (10 : ℝ) ^ p) xs) (hM : Act.IsMax M xs) (hne : k / (10 : ℝ) ^ p < M) {e : List ℝ}
    (he : calcEdges rnd (.num (n + 1)) xs = .ok e) : cutIdx e (.fin (k / (10 : ℝ) ^ p)) = none := by
  rw [(C73_extremes p rnd hr n xs hm hM hne he).2.2.2.2.1]
  left
  obtain ⟨j, hj, hd⟩ := hr (k / (10 : ℝ) ^ p)
  rw [hj] at hd ⊢
  have hp : (0 : ℝ) < 10 ^ p := by positivity
  rw [← sub_div, abs_div, abs_of_pos hp, div_le_div_iff₀ hp (by positivity)] at hd
  have h2 : |(k : ℝ) - j| ≤ 1 / 2 := by
    have : |(k : ℝ) - j| * (2 * 10 ^ p) ≤ 1 * 10 ^ p := hd
    nlinarith
  have h3 : |k - j| < 1 := by
    have : ((|k - j| : ℤ) : ℝ) < 1 := by push_cast; linarith
    exact_mod_cast this
  have : k - j = 0 := Int.abs_lt_one_iff.mp h3
  have : k = j := by omega
  rw [this]

/-- C124: when the data range is small compared with the rounding step, the rounded edges coincide and the constructor raises
ValueError: automatic bins need roughly one rounding step per two bins. -/
theorem C124_collapse (p : Nat) (rnd : ℝ → ℝ) (hr : IsRound p rnd) (n : Nat) (xs : List Fl) {m M : ℝ} (hm : Act.IsMin m xs)
    (hM : Act.IsMax M xs) (hne : m < M) (hsmall : (M - m) * 10 ^ p + 1 < ((n + 1) / 2 : Nat)) :
    calcEdges rnd (.num (n + 1)) xs = .error .valueError := by
  rw [calcEdges_num rnd n xs hm hM hne]
  have hp : (0 : ℝ) < 10 ^ p := by positivity
  apply if_neg
  intro hnd
  choose f hf hd using hr
  let x : Nat → ℝ := fun i => m + i * (M - m) / (n + 1)
  have hx : ∀ i, x i = m + i * (M - m) / (n + 1) := fun i => rfl
  have hmono : ∀ i j : Nat, i ≤ j → f (x i) ≤ f (x j) := by
    intro i j h
    have h1 : rnd (x i) ≤ rnd (x j) := by
      apply IsRound.mono (p := p) (rnd := rnd) (fun x => ⟨f x, hf x, hd x⟩)
      rcases Nat.eq_or_lt_of_le h with rfl | h
      · exact le_refl _
      · exact (raw_mono n hne h).le
    rw [hf, hf, div_le_div_iff_of_pos_right hp] at h1
    exact_mod_cast h1
  have hstep : ∀ i : Nat, i + 2 < n + 2 → f (x i) + 1 ≤ f (x (i + 2)) := by
    intro i hi
    by_contra hc
    have e1 := hmono i (i + 1) (by omega)
    have e2 := hmono (i + 1) (i + 2) (by omega)
    have q1 : f (x i) = f (x (i + 1)) := by omega
    have q2 : f (x (i + 1)) = f (x (i + 2)) := by omega
    have r1 : rnd (x i) = rnd (x (i + 1)) := by rw [hf, hf, q1]
    have r2 : rnd (x (i + 1)) = rnd (x (i + 2)) := by rw [hf, hf, q2]
    have hlen : (ivls ((List.range (n + 2)).map (fun i : Nat => rnd (x i)))).length = n + 1 := by simp [ivls]
    have hget : ∀ k : Nat, k < n + 1 →
        (ivls ((List.range (n + 2)).map (fun i : Nat => rnd (x i))))[k]? = some (rnd (x k), rnd (x (k + 1))) := by
      intro k hk
      unfold ivls
      rw [List.getElem?_zip_eq_some]
      constructor
      · simp [List.getElem?_range (show k < n + 2 by omega)]
      · rw [List.getElem?_tail]; simp [List.getElem?_range (show k + 1 < n + 2 by omega)]
    have h1 := hget i (by omega)
    have h2 := hget (i + 1) (by omega)
    rw [← r2, ← r1] at h2
    rw [← r1] at h1
    have := (List.nodup_iff_getElem?_ne_getElem?.mp hnd) i (i + 1) (by omega) (by rw [hlen]; omega)
    exact this (h1.trans h2.symm)
  have hgrow : ∀ j : Nat, 2 * j < n + 2 → f (x 0) + j ≤ f (x (2 * j)) := by
    intro j
    induction j with
    | zero => intro _; simp
    | succ j ih =>
      intro h
      have h1 := ih (by omega)
      have h2 := hstep (2 * j) (by omega)
      have : 2 * (j + 1) = 2 * j + 2 := by ring
      rw [this]
      push_cast
      omega
  have hJ := hgrow ((n + 1) / 2) (by omega)
  have hJ2 : f (x 0) + ((n + 1) / 2 : Nat) ≤ f (x (n + 1)) := le_trans hJ (hmono _ _ (by omega))
  have hx0 : x 0 = m := by rw [hx]; simp
  have hxn : x (n + 1) = M := by
    rw [hx]
    have : (n : ℝ) + 1 ≠ 0 := by positivity
    push_cast
    field_simp
    ring
  rw [hx0, hxn] at hJ2
  have d0 := (abs_le.mp (hd m)).1
  have d1 := (abs_le.mp (hd M)).1
  have e2 : (1 : ℝ) / (2 * 10 ^ p) + 1 / (2 * 10 ^ p) = 1 / 10 ^ p := by field_simp; norm_num
  have hdm := (abs_le.mp (hd m)).2
  have hbound : rnd M - rnd m ≤ (M - m) + 1 / 10 ^ p := by linarith
  rw [hf, hf, ← sub_div] at hbound
  have hb2 : (f M : ℝ) - f m ≤ (M - m) * 10 ^ p + 1 := by
    have := mul_le_mul_of_nonneg_right hbound hp.le
    rw [div_mul_cancel₀ _ hp.ne', add_mul, div_mul_cancel₀ _ hp.ne'] at this
    exact this
  have hJr : (f m : ℝ) + ((n + 1) / 2 : Nat) ≤ f M := by
    have h' : ((f m + ((n + 1) / 2 : Nat) : ℤ) : ℝ) ≤ (f M : ℝ) := Int.cast_le.mpr hJ2
    rw [Int.cast_add, Int.cast_natCast] at h'
    exact h'
  linarith

/-- C124 in the default configuration (101 bins, 5 decimals): any data spanning less than 4.9e-4 raise ValueError. -/
theorem C124_default (rnd : ℝ → ℝ) (hr : IsRound 5 rnd) (xs : List Fl) {m M : ℝ} (hm : Act.IsMin m xs) (hM : Act.IsMax M xs)
    (hne : m < M) (h : M - m < 0.00049) : calcEdges rnd (.num 101) xs = .error .valueError := by
  apply C124_collapse 5 rnd hr 100 xs hm hM hne
  norm_num
  linarith

example : Act.IsMin 0 [.fin 0, .fin 0.0004] ∧ Act.IsMax 0.0004 [.fin 0, .fin 0.0004] := by
  refine ⟨⟨by simp, ?_⟩, ⟨by simp, ?_⟩⟩ <;> intro r hr <;> simp at hr <;> rcases hr with rfl | rfl <;> norm_num

/-! ### C74: counts -/

theorem grp_eq {κ : Type} (zs : List Fl) (cuts : List κ) (k : κ) :
    count (grp zs cuts k) = (zs.zip cuts).countP (fun p => decide (¬ p.1.isNaN ∧ p.2 = k)) := by
  unfold count grp
  rw [List.filter_map, List.length_map, List.filter_filter, List.countP_eq_length_filter]
  congr 1
  apply List.filter_congr
  intro p _
  simp [Bool.decide_and]

theorem sum_indicator {κ : Type} (K : List κ) (hK : K.Nodup) (c : κ) (q : Prop) :
    (K.map (fun k => if q ∧ c = k then (1 : Nat) else 0)).sum = if q ∧ c ∈ K then 1 else 0 := by
  induction K with
  | nil => simp
  | cons a K ih =>
    have hn := List.nodup_cons.mp hK
    rw [List.map_cons, List.sum_cons, ih hn.2]
    by_cases hq : q
    · by_cases hc : c = a
      · subst hc; simp [hq, hn.1]
      · simp [hq, hc]
    · simp [hq]

theorem sum_counts {κ : Type} (zs : List Fl) (cuts : List κ) (K : List κ) (hK : K.Nodup) :
    (K.map (fun k => count (grp zs cuts k))).sum = (zs.zip cuts).countP (fun p => decide (¬ p.1.isNaN ∧ p.2 ∈ K)) := by
  simp only [grp_eq]
  induction zs.zip cuts with
  | nil => simp
  | cons p L ih =>
    simp only [List.countP_cons, decide_eq_true_eq]
    rw [List.sum_map_add, ih]
    congr 1
    convert sum_indicator K hK p.2 (¬ p.1.isNaN) <;> rfl

/-- the number in a cell, 0 if missing -/
noncomputable def rv : Fl → ℝ
  | .fin r => r
  | _ => 0

@[simp] theorem rv_fin (r : ℝ) : rv (.fin r) = r := rfl
@[simp] theorem rv_nan : rv .nan = 0 := rfl

theorem sumSkip_rv {α : Type} (l : List α) (F : α → Fl) (h : ∀ a ∈ l, F a = .nan ∨ ∃ r, F a = .fin r) :
    Fl.sumSkip (l.map F) = .fin ((l.map (fun a => rv (F a))).sum) := by
  induction l with
  | nil => rfl
  | cons a l ih =>
    have ih' := ih (fun b hb => h b (by simp [hb]))
    rw [List.map_cons, List.map_cons, List.sum_cons]
    rcases h a (by simp) with e | ⟨r, e⟩
    · rw [e]; simp [ih']
    · rw [e]; simp [ih']

theorem binVal_measured {κ : Type} (zs : List Fl) (cuts : List κ) (c0 c1 : Option ℝ) (k : κ) (fcn : Option Fcn) :
    binVal zs cuts fcn c0 c1 k = .nan ∨ ∃ r, binVal zs cuts fcn c0 c1 k = .fin r := by
  unfold binVal
  split
  · left; rfl
  · split
    · generalize chooseFcn fcn zs = f
      cases f
      · right; exact ⟨_, rfl⟩
      · show Act.gmean _ = _ ∨ ∃ r, Act.gmean _ = _
        unfold Act.gmean
        cases Act.vals (grp zs cuts k) with
        | nil => left; rfl
        | cons x l => right; exact ⟨_, rfl⟩
    · left; rfl

theorem binVal_count {κ : Type} (zs : List Fl) (cuts : List κ) (k : κ) :
    rv (binVal zs cuts (some .count) none none k) = (count (grp zs cuts k) : ℝ) := by
  unfold binVal
  by_cases hg : grp zs cuts k = []
  · rw [if_pos hg, hg]; simp [count]
  · rw [if_neg hg, if_pos (by simp [climKeep])]; rfl

theorem sum_binVal {κ : Type} (zs : List Fl) (cuts : List κ) (K : List κ) (hK : K.Nodup) :
    Fl.sumSkip (K.map (binVal zs cuts (some .count) none none)) =
      .fin ((zs.zip cuts).countP (fun p => decide (¬ p.1.isNaN ∧ p.2 ∈ K)) : ℕ) := by
  rw [sumSkip_rv _ _ (fun k _ => binVal_measured zs cuts none none k _), ← sum_counts zs cuts K hK]
  congr 1
  simp only [binVal_count]
  induction K with
  | nil => simp
  | cons a K ih => simp [ih (List.nodup_cons.mp hK).2]

/-- a value lies in the binned range `(a, z]` -/
def InRange (a z : ℝ) (v : Fl) : Prop := ∃ t, v = .fin t ∧ a < t ∧ t ≤ z

theorem cut_mem_iff {e : List ℝ} (hm : e.Pairwise (· ≤ ·)) {a z : ℝ} (ha : e.head? = some a) (hz : e.getLast? = some z) (v : Fl) :
    (∃ i, i < e.length - 1 ∧ cutIdx e v = some i) ↔ InRange a z v := by
  obtain ⟨h1, h2, h3, h4⟩ := C73_one_bin e hm ha hz
  constructor
  · rintro ⟨i, _, hi⟩
    cases v with
    | fin t =>
      refine ⟨t, rfl, ?_⟩
      by_contra hc
      have : t ≤ a ∨ z < t := by
        by_contra h; push Not at h; exact hc h
      rw [(h3 t this).1] at hi
      exact absurd hi (by simp)
    | _ => rw [h4 _ (by simp)] at hi; exact absurd hi (by simp)
  · rintro ⟨t, rfl, q1, q2⟩
    obtain ⟨i, hi, _⟩ := h2 t q1 q2
    refine ⟨i, ?_, (h1 t i).mpr hi⟩
    obtain ⟨l, r, _, hr, _⟩ := hi
    have := (List.getElem?_eq_some_iff.mp hr).1
    omega

/-- C74 (1-D): the counts of all bins add up to the number of rows with a present value in the binned range; each bin counts exactly
its own rows. -/
theorem C74_counts (e : List ℝ) (hm : e.Pairwise (· ≤ ·)) {a z : ℝ} (ha : e.head? = some a) (hz : e.getLast? = some z)
    (rows : List (Fl × Fl)) (log : Bool) :
    ∃ c, agg1 e log none (rows.map Prod.snd) (rows.map (fun r => cutIdx e r.1)) (some .count) none none = .ok c ∧
      c.length = e.length - 1 ∧
      Fl.sumSkip c = .fin (rows.countP (fun r => decide (¬ r.2.isNaN ∧ InRange a z r.1)) : ℕ) ∧
      ∀ (i : Nat), i < e.length - 1 →
        ((∀ r ∈ rows, ∀ t, r.1 = .fin t → ¬ InBin e i t) → c[i]? = some .nan) ∧
        ((∃ r ∈ rows, ∃ t, r.1 = .fin t ∧ InBin e i t) →
          c[i]? = some (.fin (rows.countP (fun r => decide (¬ r.2.isNaN ∧ ∃ t, r.1 = .fin t ∧ InBin e i t)) : ℕ))) := by
  refine ⟨_, rfl, by simp, ?_, ?_⟩
  · have h1 := sum_binVal (rows.map Prod.snd) (rows.map (fun r => cutIdx e r.1)) ((List.range (e.length - 1)).map some)
      (List.Nodup.map (fun a b h => Option.some.inj h) List.nodup_range)
    rw [List.map_map] at h1
    refine Eq.trans h1 ?_
    rw [List.zip_map', List.countP_map]
    congr 2
    apply List.countP_congr
    intro r _
    have : (∃ i, i < e.length - 1 ∧ some i = cutIdx e r.1) ↔ InRange a z r.1 := by
      rw [← cut_mem_iff hm ha hz]
      constructor <;> rintro ⟨i, h1, h2⟩ <;> exact ⟨i, h1, h2.symm⟩
    simp [this]
  · intro i hi
    have hmem : ∀ r : Fl × Fl, cutIdx e r.1 = some i ↔ ∃ t, r.1 = .fin t ∧ InBin e i t := by
      rintro ⟨x, y⟩
      cases x with
      | fin t => simp [cutIdx_iff e hm]
      | _ => simp [cutIdx_nonfinite]
    have hget : ((List.range (e.length - 1)).map (fun i => binVal (rows.map Prod.snd) (rows.map (fun r => cutIdx e r.1))
        (some .count) none none (some i)))[i]? = some (binVal (rows.map Prod.snd) (rows.map (fun r => cutIdx e r.1))
        (some .count) none none (some i)) := by
      rw [List.getElem?_map, List.getElem?_range hi]; rfl
    rw [hget]
    have hgrp : grp (rows.map Prod.snd) (rows.map (fun r => cutIdx e r.1)) (some i) =
        (rows.filter (fun r => decide (∃ t, r.1 = .fin t ∧ InBin e i t))).map Prod.snd := by
      unfold grp
      rw [List.zip_map', List.filter_map, List.map_map]
      congr 1
      apply List.filter_congr
      intro r _
      simp [hmem r]
    constructor
    · intro hno
      unfold binVal
      rw [hgrp, if_pos]
      rw [List.map_eq_nil_iff, List.filter_eq_nil_iff]
      intro r hr
      simp only [decide_eq_true_eq]
      rintro ⟨t, h1, h2⟩
      exact hno r hr t h1 h2
    · rintro ⟨r, hr, hb⟩
      unfold binVal
      have hne : grp (rows.map Prod.snd) (rows.map (fun r => cutIdx e r.1)) (some i) ≠ [] := by
        rw [hgrp]
        intro h
        rw [List.map_eq_nil_iff, List.filter_eq_nil_iff] at h
        exact h r hr (by simpa using hb)
      rw [if_neg hne, if_pos (by simp [climKeep])]
      show some (Fl.fin (count _ : ℕ)) = _
      rw [hgrp]
      congr 2
      unfold count
      rw [List.filter_map, List.length_map, List.filter_filter, List.countP_eq_length_filter]
      congr 2
      apply List.filter_congr
      intro r _
      simp [Bool.decide_and]

example : ∃ c, agg1 [0, 1, 2] false none ([(Fl.fin 1, Fl.fin 7), (.nan, .fin 7), (.fin 3, .fin 7)].map Prod.snd)
    ([(Fl.fin 1, Fl.fin 7), (.nan, .fin 7), (.fin 3, .fin 7)].map (fun r => cutIdx [0, 1, 2] r.1)) (some .count) none none = .ok c ∧
    Fl.sumSkip c = .fin ((1 : ℕ) : ℝ) := by
  have hm : ([0, 1, 2] : List ℝ).Pairwise (· ≤ ·) := by norm_num
  obtain ⟨c, h1, _, h2, _⟩ := C74_counts [0, 1, 2] hm (a := 0) (z := 2) rfl rfl
    [(Fl.fin 1, Fl.fin 7), (.nan, .fin 7), (.fin 3, .fin 7)] false
  refine ⟨c, h1, h2.trans ?_⟩
  congr 2
  have e1 : InRange 0 2 (.fin 1) := ⟨1, rfl, by norm_num, by norm_num⟩
  have e2 : ¬ InRange 0 2 .nan := by rintro ⟨t, h, _⟩; exact absurd h (by simp)
  have e3 : ¬ InRange 0 2 (.fin 3) := by
    rintro ⟨t, h, _, h2⟩
    rw [Fl.fin_inj] at h; subst h; norm_num at h2
  simp [e1, e2, e3]

/-- C74: `clim` keeps exactly the observed bins whose count lies in the closed limits; their values are unchanged. -/
theorem C74_clim {κ : Type} (zs : List Fl) (cuts : List κ) (fcn : Option Fcn) (c0 c1 : Option ℝ) (k : κ) :
    ((∀ a, c0 = some a → a ≤ (count (grp zs cuts k) : ℝ)) ∧ (∀ b, c1 = some b → (count (grp zs cuts k) : ℝ) ≤ b) →
      binVal zs cuts fcn c0 c1 k = binVal zs cuts fcn none none k) ∧
    (¬ ((∀ a, c0 = some a → a ≤ (count (grp zs cuts k) : ℝ)) ∧ (∀ b, c1 = some b → (count (grp zs cuts k) : ℝ) ≤ b)) →
      binVal zs cuts fcn c0 c1 k = .nan) ∧
    (grp zs cuts k = [] → binVal zs cuts fcn c0 c1 k = .nan) ∧
    (grp zs cuts k ≠ [] → binVal zs cuts (some .count) none none k = .fin (count (grp zs cuts k) : ℕ)) := by
  have hk : climKeep c0 c1 (count (grp zs cuts k)) ↔
      ((∀ a, c0 = some a → a ≤ (count (grp zs cuts k) : ℝ)) ∧ (∀ b, c1 = some b → (count (grp zs cuts k) : ℝ) ≤ b)) := by
    unfold climKeep; simp only [Option.mem_def]
  have hn : climKeep none none (count (grp zs cuts k)) := by simp [climKeep]
  refine ⟨?_, ?_, ?_, ?_⟩
  · intro h
    unfold binVal
    rw [if_pos (hk.mpr h), if_pos hn]
  · intro h
    unfold binVal
    rw [if_neg (fun h' => h (hk.mp h'))]
    split <;> rfl
  · intro h; unfold binVal; rw [if_pos h]
  · intro h; unfold binVal; rw [if_neg h, if_pos hn]; rfl

theorem cells_eq (a : Grid) (nx ny : Nat) :
    cells a nx ny = (List.product (List.range nx) (List.range ny)).map (fun p => a p.1 p.2) := by
  unfold cells col List.product
  rw [List.map_flatMap]
  simp [List.map_map, Function.comp_def]

/-- C74: a 2-D histogram keeps, in order, exactly the rows with all three values present; without any it is refused. -/
theorem C74_data2 (rows : List (Fl × Fl × Fl)) :
    (∀ d, setData2 rows = .ok d → d ≠ [] ∧ d.Sublist rows ∧
      ∀ r, d.count r = if r.1.isNaN ∨ r.2.1.isNaN ∨ r.2.2.isNaN then 0 else rows.count r) ∧
    (setData2 rows = .error .valueError ↔ ∀ r ∈ rows, r.1.isNaN ∨ r.2.1.isNaN ∨ r.2.2.isNaN) := by
  unfold setData2
  simp only []
  constructor
  · intro d hd
    split at hd
    · simp at hd
    · rename_i hne
      simp only [Except.ok.injEq] at hd
      subst hd
      refine ⟨hne, List.filter_sublist, ?_⟩
      intro r
      by_cases h : r.1.isNaN ∨ r.2.1.isNaN ∨ r.2.2.isNaN
      · rw [if_pos h, List.count_eq_zero]
        intro hm
        have := (List.mem_filter.mp hm).2
        simp only [decide_eq_true_eq] at this
        tauto
      · rw [if_neg h]
        apply List.count_filter
        simp only [decide_eq_true_eq]
        tauto
  · constructor
    · intro h
      split at h
      · rename_i he
        intro r hr
        by_contra hn
        have : r ∈ rows.filter (fun r => decide (¬ r.1.isNaN ∧ ¬ r.2.1.isNaN ∧ ¬ r.2.2.isNaN)) :=
          List.mem_filter.mpr ⟨hr, by simp only [decide_eq_true_eq]; tauto⟩
        rw [he] at this; simp at this
      · simp at h
    · intro h
      rw [if_pos]
      rw [List.filter_eq_nil_iff]
      intro r hr
      have := h r hr
      simp only [decide_eq_true_eq]
      tauto

/-- C74 (2-D): the cell counts add up to the number of data (all three values present) inside both binned ranges. -/
theorem C74_counts2 (ex ey : List ℝ) (hx : ex.Pairwise (· ≤ ·)) (hy : ey.Pairwise (· ≤ ·)) {ax zx ay zy : ℝ}
    (hax : ex.head? = some ax) (hzx : ex.getLast? = some zx) (hay : ey.head? = some ay) (hzy : ey.getLast? = some zy)
    (rows d : List (Fl × Fl × Fl)) (hd : setData2 rows = .ok d) (logx logy : Bool) :
    ∃ g, agg2 ex ey logx logy none (d.map (fun r => r.2.2)) (d.map (fun r => (cutIdx ex r.1, cutIdx ey r.2.1)))
        (some .count) none none none none = .ok g ∧
      Fl.sumSkip (cells g (ex.length - 1) (ey.length - 1)) =
        .fin (rows.countP (fun r => decide (¬ r.2.2.isNaN ∧ InRange ax zx r.1 ∧ InRange ay zy r.2.1)) : ℕ) := by
  refine ⟨_, rfl, ?_⟩
  have hmask : ∀ v : Fl, alimMask none none v = v := by intro v; unfold alimMask; simp
  simp only [hmask]
  rw [cells_eq]
  have hinj : Function.Injective (fun p : Nat × Nat => ((some p.1, some p.2) : Option Nat × Option Nat)) := by
    rintro ⟨a, b⟩ ⟨c, d⟩ h; simpa using h
  have h1 := sum_binVal (d.map (fun r => r.2.2)) (d.map (fun r => (cutIdx ex r.1, cutIdx ey r.2.1)))
    ((List.product (List.range (ex.length - 1)) (List.range (ey.length - 1))).map (fun p => (some p.1, some p.2)))
    (List.Nodup.map hinj (List.Nodup.product List.nodup_range List.nodup_range))
  rw [List.map_map] at h1
  refine Eq.trans h1 ?_
  unfold setData2 at hd
  simp only [] at hd
  split at hd
  · exact absurd hd (by simp)
  · injection hd with hd
    rw [List.zip_map', List.countP_map, ← hd, List.countP_filter]
    congr 2
    apply List.countP_congr
    rintro ⟨x, y, z⟩ _
    have ex' : (∃ i, i < ex.length - 1 ∧ some i = cutIdx ex x) ↔ InRange ax zx x := by
      rw [← cut_mem_iff hx hax hzx]
      constructor <;> rintro ⟨i, h1, h2⟩ <;> exact ⟨i, h1, h2.symm⟩
    have ey' : (∃ i, i < ey.length - 1 ∧ some i = cutIdx ey y) ↔ InRange ay zy y := by
      rw [← cut_mem_iff hy hay hzy]
      constructor <;> rintro ⟨i, h1, h2⟩ <;> exact ⟨i, h1, h2.symm⟩
    have hmem : (cutIdx ex x, cutIdx ey y) ∈ (List.product (List.range (ex.length - 1)) (List.range (ey.length - 1))).map
        (fun p => ((some p.1, some p.2) : Option Nat × Option Nat)) ↔ InRange ax zx x ∧ InRange ay zy y := by
      rw [← ex', ← ey', List.mem_map]
      constructor
      · rintro ⟨⟨i, j⟩, hp, he⟩
        have hp' := List.mem_product.mp hp
        simp only [List.mem_range] at hp'
        simp only [Prod.mk.injEq] at he
        exact ⟨⟨i, hp'.1, he.1⟩, ⟨j, hp'.2, he.2⟩⟩
      · rintro ⟨⟨i, hi, ei⟩, ⟨j, hj, ej⟩⟩
        exact ⟨(i, j), List.mem_product.mpr ⟨by simpa using hi, by simpa using hj⟩, by simp [ei, ej]⟩
    have nn : ∀ {a z : ℝ} {v : Fl}, InRange a z v → ¬ v.isNaN := by
      rintro a z v ⟨t, rfl, _⟩; simp
    simp only [Function.comp_apply, hmem]
    by_cases h1 : InRange ax zx x <;> by_cases h2 : InRange ay zy y <;> by_cases h3 : z.isNaN <;>
      simp [h1, h2, h3]
    exact ⟨nn h1, nn h2⟩

/-! ### C75: density -/

theorem density1_get (log : Bool) (e : List ℝ) (a : List Fl) {i : Nat} (hi : i < a.length) :
    (density1 log e a).getD i .nan = a.getD i .nan / (.fin (dens log (width e i)) * Fl.sumSkip a) := by
  unfold density1
  rw [List.getD_eq_getElem?_getD, List.getElem?_map, List.getElem?_range hi]; rfl

theorem map_getD (a : List Fl) : (List.range a.length).map (fun i => a.getD i .nan) = a := by
  apply List.ext_getElem
  · simp
  · intro i h1 h2; simp at h1; simp [List.getD_eq_getElem?_getD, h1]

/-- the area of a density histogram: the sum over the displayed bins of value times width -/
noncomputable def area (e : List ℝ) (a : List Fl) : Fl :=
  Fl.sumSkip ((List.range a.length).map (fun i => a.getD i .nan * .fin (width e i)))

theorem density_area (log : Bool) (e : List ℝ) (a : List Fl) (hmeas : Act.Measured a) {N : ℝ} (hN : Fl.sumSkip a = .fin N)
    (hN0 : N ≠ 0) (hw : ∀ i, i < a.length → 0 < width e i) :
    area e (density1 log e a) =
      .fin ((List.range a.length).map (fun i => rv (a.getD i .nan) / N * (width e i / dens log (width e i)))).sum := by
  unfold area
  have hlen : (density1 log e a).length = a.length := by simp [density1]
  rw [hlen]
  have hval : ∀ i ∈ List.range a.length, (density1 log e a).getD i .nan * .fin (width e i) =
      (if (a.getD i .nan).isNaN then .nan else .fin (rv (a.getD i .nan) / N * (width e i / dens log (width e i)))) := by
    intro i hi
    have hi' := List.mem_range.mp hi
    rw [density1_get log e a hi', hN, Fl.fin_mul]
    have hwi := hw i hi'
    have hd : dens log (width e i) ≠ 0 := by
      unfold dens; split
      · positivity
      · exact hwi.ne'
    have hmem : a.getD i .nan ∈ a := by
      rw [List.getD_eq_getElem?_getD, List.getElem?_eq_getElem hi']; exact List.getElem_mem hi'
    rcases hmeas _ hmem with h | ⟨r, h⟩
    · rw [h]; simp
    · rw [h, Fl.fin_div _ _ (mul_ne_zero hd hN0), Fl.fin_mul, if_neg (by simp)]
      congr 1
      rw [rv_fin]
      field_simp
  rw [List.map_congr_left hval, sumSkip_rv]
  · congr 2
    apply List.map_congr_left
    intro i _
    cases h : a.getD i .nan <;> simp [rv]
  · intro i _
    by_cases h : (a.getD i .nan).isNaN
    · left; rw [if_pos h]
    · right; rw [if_neg h]; exact ⟨_, rfl⟩

theorem sum_rv (a : List Fl) (hmeas : Act.Measured a) :
    Fl.sumSkip a = .fin ((List.range a.length).map (fun i => rv (a.getD i .nan))).sum := by
  conv_lhs => rw [← map_getD a]
  rw [sumSkip_rv]
  intro i hi
  have hi' := List.mem_range.mp hi
  apply hmeas
  rw [List.getD_eq_getElem?_getD, List.getElem?_eq_getElem hi']; exact List.getElem_mem hi'

theorem sum_div_const {α : Type} (l : List α) (f : α → ℝ) (N : ℝ) : (l.map (fun i => f i / N)).sum = (l.map f).sum / N := by
  induction l with
  | nil => simp
  | cons a l ih => simp only [List.map_cons, List.sum_cons, ih, add_div]

theorem sum_nonneg' {α : Type} (l : List α) (f : α → ℝ) (h : ∀ a ∈ l, 0 ≤ f a) : 0 ≤ (l.map f).sum := by
  induction l with
  | nil => simp
  | cons a l ih =>
    rw [List.map_cons, List.sum_cons]
    have := h a (by simp); have := ih (fun b hb => h b (by simp [hb])); linarith

theorem sum_pos' {α : Type} (l : List α) (f : α → ℝ) (h : ∀ a ∈ l, 0 ≤ f a) {x : α} (hx : x ∈ l) (hp : 0 < f x) :
    0 < (l.map f).sum := by
  induction l with
  | nil => simp at hx
  | cons a l ih =>
    rw [List.map_cons, List.sum_cons]
    rcases List.mem_cons.mp hx with rfl | hx
    · have := sum_nonneg' l f (fun b hb => h b (by simp [hb])); linarith
    · have := h a (by simp); have := ih (fun b hb => h b (by simp [hb])) hx; linarith

theorem sum_lt' {α : Type} (l : List α) (f g : α → ℝ) (h : ∀ a ∈ l, f a ≤ g a) {x : α} (hx : x ∈ l) (hp : f x < g x) :
    (l.map f).sum < (l.map g).sum := by
  have h1 := sum_pos' l (fun a => g a - f a) (fun a ha => by have := h a ha; linarith) hx (by linarith)
  have h2 : (l.map (fun a => g a - f a)).sum = (l.map g).sum - (l.map f).sum := by
    clear h1 h hx hp
    induction l with
    | nil => simp
    | cons a l ih => simp only [List.map_cons, List.sum_cons, ih]; ring
  rw [h2] at h1; linarith

/-- a 1-D aggregate of counts with something to show -/
def Populated (a : List Fl) : Prop :=
  Act.Measured a ∧ (∀ r, Fl.fin r ∈ a → 0 ≤ r) ∧ ∃ r, 0 < r ∧ Fl.fin r ∈ a

theorem populated_sum {a : List Fl} (h : Populated a) : ∃ N : ℝ, 0 < N ∧ Fl.sumSkip a = .fin N := by
  obtain ⟨hm, hn, r, hr, hra⟩ := h
  refine ⟨_, ?_, sum_rv a hm⟩
  obtain ⟨i, hi, he⟩ := List.getElem_of_mem hra
  refine sum_pos' _ _ ?_ (List.mem_range.mpr hi) ?_
  · intro j hj
    have hj' := List.mem_range.mp hj
    have hmem : a.getD j .nan ∈ a := by
      rw [List.getD_eq_getElem?_getD, List.getElem?_eq_getElem hj']; exact List.getElem_mem hj'
    rcases hm _ hmem with h | ⟨q, h⟩
    · rw [h]; simp
    · rw [h] at hmem ⊢; exact hn q hmem
  · rw [List.getD_eq_getElem?_getD, List.getElem?_eq_getElem hi, he]; exact hr

theorem width_pos {e : List ℝ} (h : e.Pairwise (· < ·)) {i : Nat} (hi : i + 1 < e.length) : 0 < width e i := by
  unfold width
  have h1 : e.getD (i + 1) 0 = e[i + 1] := by simp [List.getD_eq_getElem?_getD, hi]
  have h2 : e.getD i 0 = e[i] := by simp [List.getD_eq_getElem?_getD, show i < e.length by omega]
  rw [h1, h2]
  have := List.pairwise_iff_getElem.mp h i (i + 1) (by omega) hi (by omega)
  linarith

/-- C75 (linear axis): a density histogram with at least one counted datum has area exactly 1, whatever the (distinct, ascending)
edges, the data and the count limits. -/
theorem C75_linear (e : List ℝ) (he : e.Pairwise (· < ·)) (ys : List Fl) (cuts : List (Option Nat)) (c0 c1 : Option ℝ)
    (a : List Fl) (ha : agg1 e false none ys cuts (some .count) c0 c1 = .ok a) (hp : Populated a) :
    ∃ d, agg1 e false (some "d") ys cuts (some .count) c0 c1 = .ok d ∧ d.length = a.length ∧ area e d = .fin 1 := by
  have hadef : (List.range (e.length - 1)).map (fun i => binVal ys cuts (some .count) c0 c1 (some i)) = a := by
    injection ha
  obtain ⟨N, hN0, hN⟩ := populated_sum hp
  refine ⟨density1 false e a, ?_, by simp [density1], ?_⟩
  · unfold agg1
    simp only [hadef]
    simp
  · have hlen : a.length = e.length - 1 := by rw [← hadef]; simp
    have hw : ∀ i, i < a.length → 0 < width e i := fun i hi => width_pos he (by omega)
    rw [density_area false e a hp.1 hN hN0.ne' hw]
    congr 1
    have : (List.range a.length).map (fun i => rv (a.getD i .nan) / N * (width e i / dens false (width e i))) =
        (List.range a.length).map (fun i => rv (a.getD i .nan) / N) := by
      apply List.map_congr_left
      intro i hi
      have := hw i (List.mem_range.mp hi)
      simp only [dens]
      rw [if_neg (by simp), div_self this.ne', mul_one]
    rw [this, sum_div_const]
    have h2 := sum_rv a hp.1
    rw [hN, Fl.fin_inj] at h2
    rw [← h2, div_self hN0.ne']

/-- C75 (violated on a logarithmic axis): the width is replaced by `10 ** width`, so the area in the plotted (log10) coordinate
is strictly below 1. -/
theorem C75_log (e : List ℝ) (he : e.Pairwise (· < ·)) (ys : List Fl) (cuts : List (Option Nat)) (c0 c1 : Option ℝ)
    (a : List Fl) (ha : agg1 e true none ys cuts (some .count) c0 c1 = .ok a) (hp : Populated a) :
    ∃ d s, agg1 e true (some "d") ys cuts (some .count) c0 c1 = .ok d ∧ area e d = .fin s ∧ 0 < s ∧ s < 1 := by
  have hadef : (List.range (e.length - 1)).map (fun i => binVal ys cuts (some .count) c0 c1 (some i)) = a := by
    injection ha
  obtain ⟨N, hN0, hN⟩ := populated_sum hp
  have hlen : a.length = e.length - 1 := by rw [← hadef]; simp
  have hw : ∀ i, i < a.length → 0 < width e i := fun i hi => width_pos he (by omega)
  obtain ⟨hm, hn, r, hr, hra⟩ := hp
  have hrv : ∀ j ∈ List.range a.length, 0 ≤ rv (a.getD j .nan) / N := by
    intro j hj
    have hj' := List.mem_range.mp hj
    have hmem : a.getD j .nan ∈ a := by
      rw [List.getD_eq_getElem?_getD, List.getElem?_eq_getElem hj']; exact List.getElem_mem hj'
    apply div_nonneg _ hN0.le
    rcases hm _ hmem with h | ⟨q, h⟩
    · rw [h]; simp
    · rw [h] at hmem ⊢; exact hn q hmem
  have hlt : ∀ w : ℝ, 0 < w → 0 < w / dens true w ∧ w / dens true w < 1 := by
    intro w hw
    have h10 : w < (10 : ℝ) ^ w := by
      have h1 : 1 + w * Real.log 10 ≤ (10 : ℝ) ^ w := by
        rw [Real.rpow_def_of_pos (by norm_num)]
        have := Real.add_one_le_exp (Real.log 10 * w)
        linarith
      have h2 : 1 < Real.log 10 := by
        rw [Real.lt_log_iff_exp_lt (by norm_num)]
        have := Real.exp_one_lt_d9; linarith
      nlinarith
    have hpos : (0 : ℝ) < 10 ^ w := by positivity
    simp only [dens, if_true]
    exact ⟨div_pos hw hpos, by rw [div_lt_one hpos]; exact h10⟩
  obtain ⟨k, hk, hke⟩ := List.getElem_of_mem hra
  have hkv : 0 < rv (a.getD k .nan) / N := by
    rw [List.getD_eq_getElem?_getD, List.getElem?_eq_getElem hk, hke]; exact div_pos hr hN0
  refine ⟨density1 true e a, _, ?_, density_area true e a hm hN hN0.ne' hw, ?_, ?_⟩
  · unfold agg1
    simp only [hadef]
    simp
  · refine sum_pos' _ _ ?_ (List.mem_range.mpr hk) ?_
    · intro j hj
      exact mul_nonneg (hrv j hj) (hlt _ (hw j (List.mem_range.mp hj))).1.le
    · exact mul_pos hkv (hlt _ (hw k hk)).1
  · have h2 := sum_rv a hm
    rw [hN, Fl.fin_inj] at h2
    have h3 : ((List.range a.length).map (fun i => rv (a.getD i .nan) / N)).sum = 1 := by
      rw [sum_div_const, ← h2, div_self hN0.ne']
    rw [← h3]
    refine sum_lt' _ _ _ ?_ (List.mem_range.mpr hk) ?_
    · intro j hj
      have := (hlt _ (hw j (List.mem_range.mp hj))).2.le
      exact mul_le_of_le_one_right (hrv j hj) this
    · have := (hlt _ (hw k hk)).2
      nlinarith

/-- C75: with nothing counted every density is missing. -/
theorem C75_empty (e : List ℝ) (log : Bool) (a : List Fl) (h : ∀ x ∈ a, x = .nan ∨ x = .fin 0) :
    ∀ x ∈ density1 log e a, x = .nan := by
  have hs : Fl.sumSkip a = .fin 0 := by
    induction a with
    | nil => rfl
    | cons b a ih =>
      have ih' := ih (fun x hx => h x (by simp [hx]))
      rcases h b (by simp) with rfl | rfl
      · simpa using ih'
      · simp [ih']
  intro x hx
  unfold density1 at hx
  obtain ⟨i, hi, rfl⟩ := List.mem_map.mp hx
  have hi' := List.mem_range.mp hi
  have hmem : a.getD i .nan ∈ a := by
    rw [List.getD_eq_getElem?_getD, List.getElem?_eq_getElem hi']; exact List.getElem_mem hi'
  rw [hs, Fl.fin_mul, mul_zero]
  rcases h _ hmem with h | h
  · rw [h]; simp
  · rw [h]
    show (if (0 : ℝ) = 0 then _ else _) = _
    simp

end Hist
end SW
