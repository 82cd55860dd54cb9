import Verif.FitFuncs
import Verif.Props.FitCore
import Mathlib.Analysis.SpecialFunctions.Gaussian.GaussianIntegral
import Mathlib.Data.List.GetD

/-!
# C50 - C56, C100 - C105: the concrete fit functions
-/

namespace SW
noncomputable section
open Classical Fl

/-! ### numpy primitives on finite values -/

theorem minimum_fin (a b : ℝ) : Fl.minimum (fin a) (fin b) = fin (min a b) := by
  unfold Fl.minimum
  simp only [isNaN_fin, or_self, if_false, le_fin]
  by_cases h : a ≤ b
  · simp [h]
  · simp only [h, if_false]; rw [min_eq_right (le_of_not_ge h)]

theorem maximum_fin (a b : ℝ) : Fl.maximum (fin a) (fin b) = fin (max a b) := by
  unfold Fl.maximum
  simp only [isNaN_fin, or_self, if_false, le_fin]
  by_cases h : a ≤ b
  · simp [h]
  · simp only [h, if_false]; rw [max_eq_left (le_of_not_ge h)]

@[simp] theorem minimum_nan_right (a : Fl) : Fl.minimum a nan = nan := by simp [Fl.minimum]
@[simp] theorem exp_fin (a : ℝ) : Fl.exp (fin a) = fin (Real.exp a) := rfl

/-- the median of a constant sample is the constant -/
theorem npMedian_const (l : List Fl) (c : ℝ) (hl : l ≠ []) (h : ∀ a ∈ l, a = fin c) : npMedian l = fin c := by
  unfold npMedian
  rw [if_neg (by
    rintro (h1 | ⟨a, ha, hn⟩)
    · exact hl h1
    · rw [h a ha] at hn; exact hn)]
  have hpos : 0 < l.length := List.length_pos_iff.mpr hl
  have hget : ∀ k, k < l.length → (l.mergeSort (fun a b => decide (Fl.le a b))).getD k nan = fin c := by
    intro k hk
    have hk' : k < (l.mergeSort (fun a b => decide (Fl.le a b))).length := by rw [List.length_mergeSort]; exact hk
    rw [List.getD_eq_getElem _ _ hk']
    exact h _ ((List.mergeSort_perm l _).mem_iff.mp (List.getElem_mem hk'))
  simp only []
  split
  · exact hget _ (by omega)
  · rw [hget _ (by omega), hget _ (by omega), fin_add, fin_div _ _ (by norm_num)]
    congr 1; ring

/-! ### C50: lines -/

/-- C50: the line vanishes at `x_intercept`, `LineXintercept` takes its `y_intercept` at 0, and the two
parametrisations convert into each other (both directions, and round trip). -/
theorem C50_intercepts (m b x0 : ℝ) (hm : m ≠ 0) :
    lineF (xIntercept (fin m) (fin b)) (fin m) (fin b) = fin 0 ∧
    lineF (fin 0) (fin m) (fin b) = fin b ∧
    lineXF (fin x0) (fin m) (fin x0) = fin 0 ∧
    lineXF (fin 0) (fin m) (fin x0) = yIntercept (fin m) (fin x0) ∧
    (∀ x : ℝ, lineXF (fin x) (fin m) (xIntercept (fin m) (fin b)) = lineF (fin x) (fin m) (fin b)) ∧
    (∀ x : ℝ, lineF (fin x) (fin m) (yIntercept (fin m) (fin x0)) = lineXF (fin x) (fin m) (fin x0)) ∧
    yIntercept (fin m) (xIntercept (fin m) (fin b)) = fin b ∧
    xIntercept (fin m) (yIntercept (fin m) (fin x0)) = fin x0 := by
  have e1 : xIntercept (fin m) (fin b) = fin (-b / m) := by unfold xIntercept; rw [fin_neg, fin_div _ _ hm]
  have e2 : yIntercept (fin m) (fin x0) = fin (-x0 * m) := by unfold yIntercept; simp
  have e3 : xIntercept (fin m) (fin (-x0 * m)) = fin (-(-x0 * m) / m) := by
    unfold xIntercept; rw [fin_neg, fin_div _ _ hm]
  refine ⟨?_, ?_, ?_, ?_, ?_, ?_, ?_, ?_⟩
  · rw [e1]; simp only [lineF, fin_mul, fin_add, fin_inj]; field_simp; ring
  · simp [lineF]
  · simp [lineXF]
  · rw [e2]; simp only [lineXF, fin_sub, fin_mul, fin_inj]; ring
  · intro x; rw [e1]; simp only [lineXF, lineF, fin_sub, fin_mul, fin_add, fin_inj]; field_simp; ring
  · intro x; rw [e2]; simp only [lineXF, lineF, fin_sub, fin_mul, fin_add, fin_inj]; ring
  · rw [e1]; simp only [yIntercept, fin_neg, fin_mul, fin_inj]; field_simp
  · rw [e2, e3, fin_inj]; field_simp

/-- C50: a horizontal line has no (finite) x-intercept. -/
theorem C50_horizontal (b : ℝ) : ¬ (xIntercept (fin 0) (fin b)).isFinite := by
  unfold xIntercept
  rw [fin_neg]
  show ¬ Fl.isFinite (if (0:ℝ) = 0 then _ else _)
  rw [if_pos rfl]
  split
  · exact id
  · split <;> exact id

/-! ### C51: the initial guess of a line -/

theorem ediff1d_line (xs : List ℝ) (m b : ℝ)
    (hd : ∀ d ∈ ediff1d (xs.map fin), d.isFinite ∧ Fl.lt (fin 0) d.abs) :
    ∀ q ∈ List.zipWith (· / ·) (ediff1d (xs.map (fun t => fin (m * t + b)))) (ediff1d (xs.map fin)), q = fin m := by
  induction xs with
  | nil => intro q hq; simp [ediff1d] at hq
  | cons a xs ih =>
    cases xs with
    | nil => intro q hq; simp [ediff1d] at hq
    | cons c xs =>
      intro q hq
      simp only [List.map_cons, ediff1d, List.zipWith_cons_cons, List.mem_cons] at hq
      rcases hq with hq | hq
      · rw [hq]
        have := (hd (fin c - fin a) (by simp [ediff1d])).2
        rw [fin_sub] at this
        have hne : c - a ≠ 0 := by
          intro h0; rw [h0] at this
          simp [Fl.abs] at this
        rw [fin_sub, fin_sub, fin_div _ _ hne, fin_inj]
        field_simp; ring
      · refine ih ?_ q ?_
        · intro d hdm; apply hd; simp only [List.map_cons, ediff1d, List.mem_cons] at hdm ⊢; exact Or.inr hdm
        · simpa [ediff1d] using hq

theorem lineGuess_line (xs : List ℝ) (m b : ℝ) (hlen : 2 ≤ xs.length) (hd : dxOk (xs.map fin)) :
    lineGuess (xs.map fin) (xs.map (fun t => fin (m * t + b))) = (fin m, fin (-b)) := by
  have h1 : npMedian (List.zipWith (· / ·) (ediff1d (xs.map (fun t => fin (m * t + b)))) (ediff1d (xs.map fin)))
      = fin m := by
    apply npMedian_const
    · match xs, hlen with
      | a :: c :: xs, _ => simp [ediff1d]
    · exact ediff1d_line xs m b hd
  unfold lineGuess
  simp only [h1, Prod.mk.injEq, true_and]
  apply npMedian_const
  · match xs, hlen with
    | a :: c :: xs, _ => simp
  · intro q hq
    rw [zipWith_same] at hq
    obtain ⟨t, _, rfl⟩ := List.mem_map.mp hq
    simp only [fin_mul, fin_sub, fin_inj]; ring

/-- C51 (violated): on noise-free data `y = m x + b` (any number ≥ 2 of abscissae, consecutive ones different) the
initial guess of `Line` is `(m, -b)` instead of `(m, b)`, and that of `LineXintercept` is `(m, b/m)`: the negative
of the true intercept `-b/m`. -/
theorem C51_wrong_sign (xs : List ℝ) (m b : ℝ) (hlen : 2 ≤ xs.length)
    (hd : ∀ k, k + 1 < xs.length → xs.getD k 0 ≠ xs.getD (k + 1) 0) :
    lineP0 (xs.map fin) (xs.map (fun t => fin (m * t + b))) = .ok (some [fin m, fin (-b)]) ∧
    (m ≠ 0 → lineXP0 (xs.map fin) (xs.map (fun t => fin (m * t + b))) = .ok (some [fin m, fin (-(-b / m))])) ∧
    (b ≠ 0 → fin (-b) ≠ fin b) := by
  have hdx : dxOk (xs.map fin) := by
    unfold dxOk
    clear hlen
    induction xs with
    | nil => intro d h; simp [ediff1d] at h
    | cons a xs ih =>
      cases xs with
      | nil => intro d h; simp [ediff1d] at h
      | cons c xs =>
        intro d h
        simp only [List.map_cons, ediff1d, List.mem_cons] at h
        rcases h with h | h
        · have := hd 0 (by simp)
          simp at this
          rw [h, fin_sub]
          refine ⟨trivial, ?_⟩
          simp only [Fl.abs, lt_fin, abs_pos]
          exact sub_ne_zero.mpr (Ne.symm this)
        · refine ih ?_ d h
          intro k hk
          have := hd (k + 1) (by simpa using hk)
          simpa using this
  have hg := lineGuess_line xs m b hlen hdx
  refine ⟨?_, ?_, ?_⟩
  · unfold lineP0
    rw [if_neg (by simp; omega), if_pos hdx, hg]
  · intro hm
    unfold lineXP0
    rw [if_neg (by simp; omega), if_pos hdx, hg]
    simp only [fin_neg]
    rw [fin_div _ _ hm]
    simp only [Except.ok.injEq, Option.some.injEq, List.cons.injEq, fin_inj, and_true, true_and]
    ring
  · intro hb h
    rw [fin_inj] at h
    apply hb; linarith

/-- non-vacuity of C51 -/
example : lineP0 ([0, 1, 2].map fin) (([0, 1, 2] : List ℝ).map (fun t => fin (3 * t + 5))) =
    .ok (some [fin 3, fin (-5)]) :=
  (C51_wrong_sign [0, 1, 2] 3 5 (by simp) (by
    intro k hk
    simp at hk
    have : k = 0 ∨ k = 1 := by omega
    rcases this with rfl | rfl <;> norm_num)).1

/-! ### C52: hinges -/

/-- a continuous broken line through `(h, yh)` with slope `mL` to the left and `mR` to the right -/
def IsHinge (f : ℝ → Fl) (h yh mL mR : ℝ) : Prop :=
  (∀ x ≤ h, f x = fin (yh + mL * (x - h))) ∧ (∀ x ≥ h, f x = fin (yh + mR * (x - h)))

theorem IsHinge.at_hinge {f : ℝ → Fl} {h yh mL mR : ℝ} (H : IsHinge f h yh mL mR) : f h = fin yh := by
  rw [H.1 h le_rfl]; simp

theorem isHinge_min {f : ℝ → Fl} {h yh m1 m2 : ℝ}
    (hf : ∀ x, f x = fin (min (yh + m1 * (x - h)) (yh + m2 * (x - h)))) :
    (IsHinge f h yh m1 m2 ↔ m2 ≤ m1) ∧ (IsHinge f h yh m2 m1 ↔ m1 ≤ m2) := by
  have key : ∀ (a c : ℝ) (f : ℝ → Fl), (∀ x, f x = fin (min (yh + a * (x - h)) (yh + c * (x - h)))) →
      (IsHinge f h yh a c ↔ c ≤ a) := by
    intro a c f hf
    constructor
    · intro H
      have h1 := H.1 (h - 1) (by linarith)
      rw [hf, fin_inj] at h1
      have h2 := min_le_right (yh + a * (h - 1 - h)) (yh + c * (h - 1 - h))
      rw [h1] at h2
      linarith
    · intro hac
      refine ⟨fun x hx => ?_, fun x hx => ?_⟩
      · rw [hf, min_eq_left]
        nlinarith [mul_nonneg (sub_nonneg.mpr hac) (sub_nonneg.mpr hx)]
      · rw [hf, min_eq_right]
        nlinarith [mul_nonneg (sub_nonneg.mpr hac) (sub_nonneg.mpr hx)]
  exact ⟨key m1 m2 f hf, key m2 m1 f (fun x => by rw [hf, min_comm])⟩

theorem isHinge_max {f : ℝ → Fl} {h yh m1 m2 : ℝ}
    (hf : ∀ x, f x = fin (max (yh + m1 * (x - h)) (yh + m2 * (x - h)))) :
    (IsHinge f h yh m1 m2 ↔ m1 ≤ m2) ∧ (IsHinge f h yh m2 m1 ↔ m2 ≤ m1) := by
  have key : ∀ (a c : ℝ) (f : ℝ → Fl), (∀ x, f x = fin (max (yh + a * (x - h)) (yh + c * (x - h)))) →
      (IsHinge f h yh a c ↔ a ≤ c) := by
    intro a c f hf
    constructor
    · intro H
      have h1 := H.1 (h - 1) (by linarith)
      rw [hf, fin_inj] at h1
      have h2 := le_max_right (yh + a * (h - 1 - h)) (yh + c * (h - 1 - h))
      rw [h1] at h2
      linarith
    · intro hac
      refine ⟨fun x hx => ?_, fun x hx => ?_⟩
      · rw [hf, max_eq_left]
        nlinarith [mul_nonneg (sub_nonneg.mpr hac) (sub_nonneg.mpr hx)]
      · rw [hf, max_eq_right]
        nlinarith [mul_nonneg (sub_nonneg.mpr hac) (sub_nonneg.mpr hx)]
  exact ⟨key m1 m2 f hf, key m2 m1 f (fun x => by rw [hf, max_comm])⟩

/-- C52: `HingeMin` (h ≠ x2) is the broken line through `(h, m1 (h - x1))`: the first line on the left and the second
on the right iff `m2 ≤ m1`, the other way round iff `m1 ≤ m2`; both lines vanish at their x-intercepts. -/
theorem C52_hingeMin (m1 x1 x2 h : ℝ) (hx : h ≠ x2) :
    ∃ m2 : ℝ, hingeM2 (fin m1) (fin x1) (fin x2) (fin h) = fin m2 ∧ m2 * (h - x2) = m1 * (h - x1) ∧
      (IsHinge (fun x => hingeMin (fin x) (fin m1) (fin x1) (fin x2) (fin h)) h (m1 * (h - x1)) m1 m2 ↔ m2 ≤ m1) ∧
      (IsHinge (fun x => hingeMin (fin x) (fin m1) (fin x1) (fin x2) (fin h)) h (m1 * (h - x1)) m2 m1 ↔ m1 ≤ m2) := by
  have hne : h - x2 ≠ 0 := sub_ne_zero.mpr hx
  have e : hingeM2 (fin m1) (fin x1) (fin x2) (fin h) = fin (m1 * (h - x1) / (h - x2)) := by
    unfold hingeM2; simp only [fin_sub, fin_mul]; exact fin_div _ _ hne
  have e2 : m1 * (h - x1) / (h - x2) * (h - x2) = m1 * (h - x1) := by field_simp
  refine ⟨_, e, e2, ?_⟩
  generalize m1 * (h - x1) / (h - x2) = m2 at e e2
  apply isHinge_min
  intro x
  simp only [hingeMin, e, fin_sub, fin_mul, minimum_fin, fin_inj]
  have a1 : m1 * (x - x1) = m1 * (h - x1) + m1 * (x - h) := by ring
  have a2 : m2 * (x - x2) = m1 * (h - x1) + m2 * (x - h) := by rw [← e2]; ring
  rw [a1, a2]

/-- C52: `HingeMax`, likewise with the slopes ordered the other way. -/
theorem C52_hingeMax (m1 x1 x2 h : ℝ) (hx : h ≠ x2) :
    ∃ m2 : ℝ, hingeM2 (fin m1) (fin x1) (fin x2) (fin h) = fin m2 ∧ m2 * (h - x2) = m1 * (h - x1) ∧
      (IsHinge (fun x => hingeMax (fin x) (fin m1) (fin x1) (fin x2) (fin h)) h (m1 * (h - x1)) m1 m2 ↔ m1 ≤ m2) ∧
      (IsHinge (fun x => hingeMax (fin x) (fin m1) (fin x1) (fin x2) (fin h)) h (m1 * (h - x1)) m2 m1 ↔ m2 ≤ m1) := by
  have hne : h - x2 ≠ 0 := sub_ne_zero.mpr hx
  have e : hingeM2 (fin m1) (fin x1) (fin x2) (fin h) = fin (m1 * (h - x1) / (h - x2)) := by
    unfold hingeM2; simp only [fin_sub, fin_mul]; exact fin_div _ _ hne
  have e2 : m1 * (h - x1) / (h - x2) * (h - x2) = m1 * (h - x1) := by field_simp
  refine ⟨_, e, e2, ?_⟩
  generalize m1 * (h - x1) / (h - x2) = m2 at e e2
  apply isHinge_max
  intro x
  simp only [hingeMax, e, fin_sub, fin_mul, maximum_fin, fin_inj]
  have a1 : m1 * (x - x1) = m1 * (h - x1) + m1 * (x - h) := by ring
  have a2 : m2 * (x - x2) = m1 * (h - x1) + m2 * (x - h) := by rw [← e2]; ring
  rw [a1, a2]

/-- C52: `HingeSaturation` (xh ≠ x1) has its documented form -- rising line `m1 (x - x1)` before the hinge, slope
`m2` after it -- iff `m2 ≤ m1 = yh/(xh - x1)`. A slope of magnitude at most 1e-15 is replaced by 0. -/
theorem C52_hingeSaturation (xh yh x1 m2 : ℝ) (hx : xh ≠ x1) :
    (1 / 10 ^ 15 < |m2| →
      (IsHinge (fun x => hingeSaturation (fin x) (fin xh) (fin yh) (fin x1) (fin m2)) xh yh (yh / (xh - x1)) m2
        ↔ m2 ≤ yh / (xh - x1))) ∧
    (|m2| ≤ 1 / 10 ^ 15 →
      (IsHinge (fun x => hingeSaturation (fin x) (fin xh) (fin yh) (fin x1) (fin m2)) xh yh (yh / (xh - x1)) 0
        ↔ 0 ≤ yh / (xh - x1))) ∧
    (∀ x : ℝ, yh + yh / (xh - x1) * (x - xh) = yh / (xh - x1) * (x - x1)) ∧
    hingeSaturation (fin xh) (fin xh) (fin yh) (fin x1) (fin m2) = fin yh := by
  have hne : xh - x1 ≠ 0 := sub_ne_zero.mpr hx
  have hline : ∀ x : ℝ, yh + yh / (xh - x1) * (x - xh) = yh / (xh - x1) * (x - x1) := by
    intro x
    have : yh / (xh - x1) * (xh - x1) = yh := by field_simp
    linear_combination -this
  have hbig : 1 / 10 ^ 15 < |m2| → ∀ x : ℝ, hingeSaturation (fin x) (fin xh) (fin yh) (fin x1) (fin m2) =
      fin (min (yh + yh / (xh - x1) * (x - xh)) (yh + m2 * (x - xh))) := by
    intro hb x
    have hm2 : m2 ≠ 0 := by
      intro h0; rw [h0, abs_zero] at hb; norm_num at hb
    have hlt : Fl.lt (fin (1 / 10 ^ 15)) (Fl.abs (fin m2)) := hb
    unfold hingeSaturation
    simp only [hlt, if_true, fin_sub]
    rw [fin_div _ _ hne, fin_div _ _ hm2]
    simp only [fin_sub, fin_mul, minimum_fin, fin_inj]
    rw [hline]
    congr 1
    field_simp; ring
  have hsmall : |m2| ≤ 1 / 10 ^ 15 → ∀ x : ℝ, hingeSaturation (fin x) (fin xh) (fin yh) (fin x1) (fin m2) =
      fin (min (yh + yh / (xh - x1) * (x - xh)) (yh + 0 * (x - xh))) := by
    intro hb x
    have hlt : ¬ Fl.lt (fin (1 / 10 ^ 15)) (Fl.abs (fin m2)) := not_lt.mpr hb
    unfold hingeSaturation
    simp only [hlt, if_false, fin_sub]
    rw [fin_div _ _ hne]
    simp only [fin_mul, minimum_fin, fin_inj]
    rw [hline]
    congr 1
    ring
  refine ⟨fun hb => (isHinge_min (hbig hb)).1, fun hb => (isHinge_min (hsmall hb)).1, hline, ?_⟩
  by_cases hb : 1 / 10 ^ 15 < |m2|
  · rw [hbig hb]; simp
  · rw [hsmall (not_lt.mp hb)]; simp

/-- C52: `HingeAtPoint` with non-zero slopes passes through `(xh, yh)` with slopes m1 left, m2 right iff `m2 ≤ m1`
(swapped iff `m1 ≤ m2`). -/
theorem C52_hingeAtPoint (xh yh m1 m2 : ℝ) (h1 : m1 ≠ 0) (h2 : m2 ≠ 0) :
    (IsHinge (fun x => hingeAtPoint (fin x) (fin xh) (fin yh) (fin m1) (fin m2)) xh yh m1 m2 ↔ m2 ≤ m1) ∧
    (IsHinge (fun x => hingeAtPoint (fin x) (fin xh) (fin yh) (fin m1) (fin m2)) xh yh m2 m1 ↔ m1 ≤ m2) := by
  apply isHinge_min
  intro x
  unfold hingeAtPoint
  rw [fin_div _ _ h1, fin_div _ _ h2]
  simp only [fin_sub, fin_mul, minimum_fin, fin_inj]
  congr 1
  · field_simp; ring
  · field_simp; ring

/-- non-vacuity of C52: the docstring example of HingeMin, `min(2 x, -2 (x - 10))`, hinge at (5, 10) -/
example : IsHinge (fun x => hingeMin (fin x) (fin 2) (fin 0) (fin 10) (fin 5)) 5 10 2 (-2) := by
  obtain ⟨m2, _, h2, h3, _⟩ := C52_hingeMin 2 0 10 5 (by norm_num)
  have : m2 = -2 := by linarith
  subst this
  have := h3.mpr (by norm_num)
  norm_num at this
  exact this

/-! ### C104: flat plateaus -/

/-- C104 (violated): `HingeAtPoint` with a zero slope on either side -- a flat plateau -- is NaN everywhere. -/
theorem C104_hingeAtPoint_flat (x xh yh : ℝ) (m : Fl) :
    hingeAtPoint (fin x) (fin xh) (fin yh) m (fin 0) = nan ∧
    hingeAtPoint (fin x) (fin xh) (fin yh) (fin 0) m = nan := by
  have e : (fin 0 : Fl) * (fin x - (fin xh - fin yh / fin 0)) = nan := by
    have : (fin yh / fin 0 : Fl) = if 0 < yh then pinf else if yh < 0 then ninf else nan := by
      show (if (0:ℝ) = 0 then _ else _) = _
      rw [if_pos rfl]
    rw [this]
    have p : (fin 0 : Fl) * pinf = nan := by show infMul true 0 = nan; simp [infMul]
    have q : (fin 0 : Fl) * ninf = nan := by show infMul false 0 = nan; simp [infMul]
    split
    · exact p
    · split
      · exact q
      · rfl
  constructor
  · unfold hingeAtPoint; rw [e]; simp
  · unfold hingeAtPoint; rw [e]; simp [Fl.minimum]

/-- C104 (violated): so does `Saturation` whose angle makes the plateau exactly flat, `theta = arctan m1`. -/
theorem C104_saturation_flat (x x1 xs s : ℝ) (hx : xs ≠ x1) :
    saturation (fin x) (fin x1) (fin xs) (fin s) (fin (Real.arctan (s / (xs - x1)))) = nan := by
  have hne : xs - x1 ≠ 0 := sub_ne_zero.mpr hx
  have e1 : satM1 (fin x1) (fin xs) (fin s) = fin (s / (xs - x1)) := by
    unfold satM1; rw [fin_sub, fin_div _ _ hne]
  have e2 : satM2 (fin x1) (fin xs) (fin s) (fin (Real.arctan (s / (xs - x1)))) = fin 0 := by
    unfold satM2; rw [e1]
    show Fl.tan (fin (Real.arctan (s / (xs - x1)) + -Real.arctan (s / (xs - x1)))) = _
    rw [add_neg_cancel]; simp [Fl.tan]
  unfold saturation satX2
  rw [e2]
  have : (fin s / fin 0 : Fl) = if 0 < s then pinf else if s < 0 then ninf else nan := by
    show (if (0:ℝ) = 0 then _ else _) = _
    rw [if_pos rfl]
  rw [this]
  have p : (fin 0 : Fl) * pinf = nan := by show infMul true 0 = nan; simp [infMul]
  have q : (fin 0 : Fl) * ninf = nan := by show infMul false 0 = nan; simp [infMul]
  have : (fin 0 : Fl) * (fin x - (fin xs - if 0 < s then pinf else if s < 0 then ninf else nan)) = nan := by
    split
    · exact p
    · split
      · exact q
      · rfl
  rw [this]; simp

/-! ### C53: TwoLine and Saturation -/

/-- C53: `TwoLine` is the lower of its two lines; if the slopes differ the lines meet exactly at `(xs, s)`. -/
theorem C53_twoLine (x1 x2 m1 m2 : ℝ) :
    (∀ x : ℝ, twoLine (fin x) (fin x1) (fin x2) (fin m1) (fin m2) = fin (min (m1 * (x - x1)) (m2 * (x - x2)))) ∧
    (m1 ≠ m2 → ∃ xs s : ℝ, twoLineXs (fin x1) (fin x2) (fin m1) (fin m2) = fin xs ∧
      twoLineS (fin x1) (fin x2) (fin m1) (fin m2) = fin s ∧
      ∀ x y : ℝ, (y = m1 * (x - x1) ∧ y = m2 * (x - x2)) ↔ (x = xs ∧ y = s)) := by
  refine ⟨fun x => by simp [twoLine, minimum_fin], fun hm => ?_⟩
  have hne : m1 - m2 ≠ 0 := sub_ne_zero.mpr hm
  have e : twoLineXs (fin x1) (fin x2) (fin m1) (fin m2) = fin ((m1 * x1 - m2 * x2) / (m1 - m2)) := by
    unfold twoLineXs; simp only [fin_mul, fin_sub]; exact fin_div _ _ hne
  refine ⟨_, _, e, by unfold twoLineS; rw [e]; simp only [fin_sub, fin_mul]; rfl, ?_⟩
  intro x y
  constructor
  · rintro ⟨h1, h2⟩
    have hx : x = (m1 * x1 - m2 * x2) / (m1 - m2) := by
      rw [eq_div_iff hne]; linarith
    exact ⟨hx, by rw [h1, ← hx]⟩
  · rintro ⟨rfl, rfl⟩
    refine ⟨rfl, ?_⟩
    field_simp; ring

/-- C53: `Saturation` evaluated at a `TwoLine`'s `x1`, `xs`, `s`, `theta` is the same curve (different slopes, plateau
not flat, different x-intercepts), and the derived `m1`, `m2`, `x2` are those of the `TwoLine`. -/
theorem C53_saturation (x1 x2 m1 m2 : ℝ) (hm : m1 ≠ m2) (h2 : m2 ≠ 0) (hx : x1 ≠ x2) :
    let xs := twoLineXs (fin x1) (fin x2) (fin m1) (fin m2)
    let s := twoLineS (fin x1) (fin x2) (fin m1) (fin m2)
    let th := twoLineTheta (fin m1) (fin m2)
    satM1 (fin x1) xs s = fin m1 ∧ satM2 (fin x1) xs s th = fin m2 ∧ satX2 (fin x1) xs s th = fin x2 ∧
    ∀ x : ℝ, saturation (fin x) (fin x1) xs s th = twoLine (fin x) (fin x1) (fin x2) (fin m1) (fin m2) := by
  have hne : m1 - m2 ≠ 0 := sub_ne_zero.mpr hm
  have e : twoLineXs (fin x1) (fin x2) (fin m1) (fin m2) = fin ((m1 * x1 - m2 * x2) / (m1 - m2)) := by
    unfold twoLineXs; simp only [fin_mul, fin_sub]; exact fin_div _ _ hne
  have es : twoLineS (fin x1) (fin x2) (fin m1) (fin m2) = fin (m1 * ((m1 * x1 - m2 * x2) / (m1 - m2) - x1)) := by
    unfold twoLineS; rw [e]; simp
  have et : twoLineTheta (fin m1) (fin m2) = fin (Real.arctan m1 - Real.arctan m2) := by
    unfold twoLineTheta; simp [Fl.arctan]
  simp only []
  rw [e, es, et]
  have hxs : (m1 * x1 - m2 * x2) / (m1 - m2) - x1 ≠ 0 := by
    intro h0
    have : m2 * (x1 - x2) = 0 := by
      have h3 : (m1 * x1 - m2 * x2) / (m1 - m2) = x1 := by linarith
      rw [div_eq_iff hne] at h3
      linarith
    rcases mul_eq_zero.mp this with h | h
    · exact h2 h
    · exact hx (by linarith)
  have hmeet : m1 * ((m1 * x1 - m2 * x2) / (m1 - m2) - x1) = m2 * ((m1 * x1 - m2 * x2) / (m1 - m2) - x2) := by
    field_simp; ring
  obtain ⟨xs, hxsd⟩ : ∃ xs, xs = (m1 * x1 - m2 * x2) / (m1 - m2) := ⟨_, rfl⟩
  rw [← hxsd] at hxs hmeet ⊢
  have a1 : satM1 (fin x1) (fin xs) (fin (m1 * (xs - x1))) = fin m1 := by
    unfold satM1; rw [fin_sub, fin_div _ _ hxs, fin_inj]; field_simp
  have a2 : satM2 (fin x1) (fin xs) (fin (m1 * (xs - x1))) (fin (Real.arctan m1 - Real.arctan m2)) = fin m2 := by
    unfold satM2; rw [a1]
    show Fl.tan (fin (Real.arctan m1 + -(Real.arctan m1 - Real.arctan m2))) = _
    have : Real.arctan m1 + -(Real.arctan m1 - Real.arctan m2) = Real.arctan m2 := by ring
    rw [this]
    show fin (Real.tan (Real.arctan m2)) = _
    rw [Real.tan_arctan]
  have a3 : satX2 (fin x1) (fin xs) (fin (m1 * (xs - x1))) (fin (Real.arctan m1 - Real.arctan m2)) = fin x2 := by
    unfold satX2; rw [a2, fin_div _ _ h2, fin_sub, fin_inj, hmeet]; field_simp; ring
  refine ⟨a1, a2, a3, ?_⟩
  intro x
  unfold saturation twoLine
  rw [a1, a2, a3]

/-- C53: the angle reported by `HingeMin`/`HingeMax` (an arctan2) and by `TwoLine` (a difference of arctangents)
are the same number for every pair of slopes. -/
theorem C53_angles_agree (m1 m2 : ℝ) : hingeTheta (fin m1) (fin m2) = twoLineTheta (fin m1) (fin m2) := by
  have e1 : twoLineTheta (fin m1) (fin m2) = fin (Real.arctan m1 - Real.arctan m2) := by
    unfold twoLineTheta; simp [Fl.arctan]
  have e2 : hingeTheta (fin m1) (fin m2) = fin (Complex.arg ⟨1 + m1 * m2, m1 - m2⟩) := by
    unfold hingeTheta; simp [Fl.arctan2]
  rw [e1, e2, fin_inj]
  have hc1 := Real.cos_arctan_pos m1
  have hc2 := Real.cos_arctan_pos m2
  have hs1 : Real.sin (Real.arctan m1) = m1 * Real.cos (Real.arctan m1) := by
    have := Real.tan_arctan m1
    rw [Real.tan_eq_sin_div_cos, div_eq_iff hc1.ne'] at this
    exact this
  have hs2 : Real.sin (Real.arctan m2) = m2 * Real.cos (Real.arctan m2) := by
    have := Real.tan_arctan m2
    rw [Real.tan_eq_sin_div_cos, div_eq_iff hc2.ne'] at this
    exact this
  obtain ⟨θ, hθ⟩ : ∃ θ, θ = Real.arctan m1 - Real.arctan m2 := ⟨_, rfl⟩
  have hcos : Real.cos θ = (Real.cos (Real.arctan m1) * Real.cos (Real.arctan m2)) * (1 + m1 * m2) := by
    rw [hθ, Real.cos_sub, hs1, hs2]; ring
  have hsin : Real.sin θ = (Real.cos (Real.arctan m1) * Real.cos (Real.arctan m2)) * (m1 - m2) := by
    rw [hθ, Real.sin_sub, hs1, hs2]; ring
  rw [← hθ]
  have hK : 0 < Real.cos (Real.arctan m1) * Real.cos (Real.arctan m2) := mul_pos hc1 hc2
  obtain ⟨K, hKd⟩ : ∃ K, K = Real.cos (Real.arctan m1) * Real.cos (Real.arctan m2) := ⟨_, rfl⟩
  rw [← hKd] at hK hcos hsin
  have hz : (⟨1 + m1 * m2, m1 - m2⟩ : ℂ) = ((1 / K : ℝ) : ℂ) * (Complex.cos θ + Complex.sin θ * Complex.I) := by
    rw [← Complex.ofReal_cos, ← Complex.ofReal_sin, hcos, hsin]
    apply Complex.ext <;> simp <;> field_simp
  rw [hz, Complex.arg_mul_cos_add_sin_mul_I (by positivity)]
  constructor
  · have := Real.neg_pi_div_two_lt_arctan m1
    have := Real.arctan_lt_pi_div_two m2
    rw [hθ]; linarith
  · have := Real.neg_pi_div_two_lt_arctan m2
    have := Real.arctan_lt_pi_div_two m1
    rw [hθ]; linarith

/-! ### C54: steps -/

/-- C54: `HeavySide` is `y0 + y1` below `x0` and `y0` above; at `x0` it is `y1 (y0 + y1)/2 + y0`, which is the midpoint
of the two levels iff there is no step or `y0 + y1 = 1`. -/
theorem C54_heavySide (x x0 y0 y1 : ℝ) :
    (x < x0 → heavySide (fin x) (fin x0) (fin y0) (fin y1) = fin (y0 + y1)) ∧
    (x > x0 → heavySide (fin x) (fin x0) (fin y0) (fin y1) = fin y0) ∧
    heavySide (fin x0) (fin x0) (fin y0) (fin y1) = fin (y1 * ((y0 + y1) / 2) + y0) ∧
    (heavySide (fin x0) (fin x0) (fin y0) (fin y1) = fin ((y0 + (y0 + y1)) / 2) ↔ y1 = 0 ∨ y0 + y1 = 1) := by
  have e : heavySide (fin x0) (fin x0) (fin y0) (fin y1) = fin (y1 * ((y0 + y1) / 2) + y0) := by
    simp only [heavySide, fin_sub, Fl.heaviside, sub_self, lt_irrefl, if_false, if_true, fin_add, fin_mul, fin_inj]
    ring
  refine ⟨fun h => ?_, fun h => ?_, e, ?_⟩
  · have h1 : ¬ (x0 - x < 0) := by linarith
    have h2 : ¬ (x0 - x = 0) := by intro h3; linarith
    simp only [heavySide, fin_sub, Fl.heaviside, h1, h2, if_false, fin_mul, fin_add, fin_inj]; ring
  · have h1 : x0 - x < 0 := by linarith
    simp only [heavySide, fin_sub, Fl.heaviside, h1, if_true, fin_mul, fin_add, fin_inj]; ring
  · rw [e, fin_inj]
    constructor
    · intro h
      have : y1 * (y0 + y1 - 1) = 0 := by linarith
      rcases mul_eq_zero.mp this with h | h
      · exact Or.inl h
      · exact Or.inr (by linarith)
    · rintro (h | h)
      · subst h; ring
      · rw [h]; linarith

/-- the bell curve with mean mu, width sigma, height A -/
def bell (A mu sigma x : ℝ) : ℝ := A * Real.exp (-(((x - mu) / sigma) ^ 2 / 2))

theorem gaussianF_fin (x mu sigma A : ℝ) (hs : sigma ≠ 0) :
    gaussianF (fin x) (fin mu) (fin sigma) (fin A) = fin (bell A mu sigma x) := by
  unfold gaussianF bell
  rw [fin_sub, fin_div _ _ hs, sq_fin, fin_mul, exp_fin, fin_mul, fin_inj]
  congr 2; ring

/-- C54: the composite functions: Gaussian plus a step (midpoint at the transition); Gaussian truncated below `x0`;
plateau `y1` below `x0` and Gaussian above -- but the *sum* of both at `x0` itself. -/
theorem C54_composite (x x0 y0 y1 mu sigma A : ℝ) (hs : sigma ≠ 0) :
    (gaussianPlusHS (fin x) (fin x0) (fin y0) (fin y1) (fin mu) (fin sigma) (fin A) =
      fin (bell A mu sigma x + y0 + (if x < x0 then y1 else if x = x0 then y1 / 2 else 0))) ∧
    (gaussianTimesHS (fin x) (fin x0) (fin mu) (fin sigma) (fin A) =
      fin (if x < x0 then 0 else bell A mu sigma x)) ∧
    (gaussianTimesPlusHS (fin x) (fin x0) (fin y1) (fin mu) (fin sigma) (fin A) =
      fin (if x < x0 then y1 else if x = x0 then bell A mu sigma x + y1 else bell A mu sigma x)) := by
  rcases lt_trichotomy x x0 with h | h | h
  · have h1 : ¬ (x0 - x < 0) := by linarith
    have h2 : ¬ (x0 - x = 0) := by intro h3; linarith
    have h3 : x - x0 < 0 := by linarith
    simp only [gaussianPlusHS, gaussianTimesHS, gaussianTimesPlusHS, gaussianF_fin _ _ _ _ hs, fin_sub, Fl.heaviside,
      h1, h2, h3, h, if_true, if_false, fin_mul, fin_add, fin_inj]
    refine ⟨by ring, by ring, by ring⟩
  · subst h
    simp only [gaussianPlusHS, gaussianTimesHS, gaussianTimesPlusHS, gaussianF_fin _ _ _ _ hs, fin_sub, Fl.heaviside,
      sub_self, lt_irrefl, if_true, if_false, fin_mul, fin_add, fin_inj]
    refine ⟨by ring, by ring, by ring⟩
  · have h1 : x0 - x < 0 := by linarith
    have h2 : ¬ (x - x0 < 0) := by linarith
    have h3 : ¬ (x - x0 = 0) := by intro h3; linarith
    have h4 : ¬ (x < x0) := by linarith
    have h5 : ¬ (x = x0) := by intro h3; linarith
    simp only [gaussianPlusHS, gaussianTimesHS, gaussianTimesPlusHS, gaussianF_fin _ _ _ _ hs, fin_sub, Fl.heaviside,
      h1, h2, h3, h4, h5, if_true, if_false, fin_mul, fin_add, fin_inj]
    refine ⟨by ring, by ring, by ring⟩

/-! ### C55: Gaussians -/

/-- C55: a Gaussian is symmetric about `mu`, positive and at most its height `A`, which it takes only at `mu`; it
decreases away from `mu`. -/
theorem C55_gaussian (mu sigma A : ℝ) (hs : sigma ≠ 0) (hA : 0 < A) :
    (∀ d : ℝ, gaussianF (fin (mu + d)) (fin mu) (fin sigma) (fin A) =
      gaussianF (fin (mu - d)) (fin mu) (fin sigma) (fin A)) ∧
    (∀ x : ℝ, ∃ v : ℝ, gaussianF (fin x) (fin mu) (fin sigma) (fin A) = fin v ∧ 0 < v ∧ v ≤ A ∧ (v = A ↔ x = mu)) ∧
    (∀ x z v w : ℝ, gaussianF (fin x) (fin mu) (fin sigma) (fin A) = fin v →
      gaussianF (fin z) (fin mu) (fin sigma) (fin A) = fin w → |x - mu| < |z - mu| → w < v) := by
  refine ⟨fun d => ?_, fun x => ?_, ?_⟩
  · rw [gaussianF_fin _ _ _ _ hs, gaussianF_fin _ _ _ _ hs, fin_inj]
    unfold bell
    congr 3; ring
  · refine ⟨_, gaussianF_fin _ _ _ _ hs, ?_, ?_, ?_⟩
    · unfold bell; positivity
    · unfold bell
      have : Real.exp (-(((x - mu) / sigma) ^ 2 / 2)) ≤ 1 := Real.exp_le_one_iff.mpr (by
        have := sq_nonneg ((x - mu) / sigma); linarith)
      nlinarith
    · unfold bell
      constructor
      · intro h
        have h1 : Real.exp (-(((x - mu) / sigma) ^ 2 / 2)) = 1 := by
          have : A * (Real.exp (-(((x - mu) / sigma) ^ 2 / 2)) - 1) = 0 := by linarith
          rcases mul_eq_zero.mp this with h | h
          · exact absurd h hA.ne'
          · linarith
        rw [Real.exp_eq_one_iff] at h1
        have h2 : ((x - mu) / sigma) ^ 2 = 0 := by linarith
        have h3 : (x - mu) / sigma = 0 := pow_eq_zero_iff (two_ne_zero) |>.mp h2
        rcases div_eq_zero_iff.mp h3 with h | h
        · linarith
        · exact absurd h hs
      · rintro rfl; simp
  · intro x z v w hv hw hlt
    rw [gaussianF_fin _ _ _ _ hs, fin_inj] at hv hw
    rw [← hv, ← hw]
    unfold bell
    apply mul_lt_mul_of_pos_left _ hA
    apply Real.exp_lt_exp.mpr
    have h1 : (x - mu) ^ 2 < (z - mu) ^ 2 := sq_lt_sq.mpr hlt
    have h2 : 0 < sigma ^ 2 := by positivity
    have h3 : ((x - mu) / sigma) ^ 2 < ((z - mu) / sigma) ^ 2 := by
      rw [div_pow, div_pow]; exact div_lt_div_of_pos_right h1 h2
    linarith

open MeasureTheory in
/-- C55: the integral of `GaussianNormalized` over the real line is `n` (sigma > 0); for a negative sigma, which the
fit does not exclude, it is `-n`. -/
theorem C55_normalized (mu sigma n : ℝ) (hs : sigma ≠ 0) :
    ∃ g : ℝ → ℝ, (∀ x, gaussianNormF (fin x) (fin mu) (fin sigma) (fin n) = fin (g x)) ∧
      ∫ x, g x = (if 0 < sigma then n else -n) := by
  have hp : 0 < Real.sqrt (2 * Real.pi) := Real.sqrt_pos.mpr (by positivity)
  have hden : Real.sqrt (2 * Real.pi) * sigma ≠ 0 := mul_ne_zero hp.ne' hs
  refine ⟨fun x => n / (Real.sqrt (2 * Real.pi) * sigma) * Real.exp (-(1 / (2 * sigma ^ 2)) * (x - mu) ^ 2), ?_, ?_⟩
  · intro x
    unfold gaussianNormF
    rw [Fl.sqrt_fin _ (by positivity), fin_mul, fin_div _ _ hden, fin_sub, fin_div _ _ hs, sq_fin, fin_mul, exp_fin,
      fin_mul, fin_inj]
    congr 2
    field_simp
  · rw [integral_const_mul, integral_sub_right_eq_self (fun y => Real.exp (-(1 / (2 * sigma ^ 2)) * y ^ 2)) mu,
      integral_gaussian]
    have e : Real.pi / (1 / (2 * sigma ^ 2)) = 2 * Real.pi * sigma ^ 2 := by field_simp
    have e3 : Real.sqrt (2 * Real.pi * sigma ^ 2) = Real.sqrt (2 * Real.pi) * |sigma| := by
      rw [Real.sqrt_mul (by positivity), Real.sqrt_sq_eq_abs]
    rw [e, e3]
    split
    · next h => rw [abs_of_pos h]; field_simp
    · next h =>
      have : sigma < 0 := lt_of_le_of_ne (not_lt.mp h) hs
      rw [abs_of_neg this]; field_simp

/-- C55: `GaussianLn` is a Gaussian in `ln x`: height `A` at `x = e^m`, symmetric under `x ↦ e^{2m}/x`. -/
theorem C55_ln_shape (m s A x : ℝ) (hs : s ≠ 0) (hx : 0 < x) :
    gaussianLnF (fin x) (fin m) (fin s) (fin A) = fin (bell A m s (Real.log x)) ∧
    gaussianLnF (fin (Real.exp m)) (fin m) (fin s) (fin A) = fin A ∧
    gaussianLnF (fin (Real.exp (2 * m) / x)) (fin m) (fin s) (fin A) =
      gaussianLnF (fin x) (fin m) (fin s) (fin A) := by
  have key : ∀ x : ℝ, 0 < x →
      gaussianLnF (fin x) (fin m) (fin s) (fin A) = fin (bell A m s (Real.log x)) := by
    intro x hx
    have := gaussianF_fin (Real.log x) m s A hs
    unfold gaussianF at this
    unfold gaussianLnF
    rw [Fl.log_fin _ hx]
    exact this
  refine ⟨key x hx, ?_, ?_⟩
  · rw [key _ (Real.exp_pos m), Real.log_exp]; simp [bell]
  · rw [key _ (by positivity), key x hx, Real.log_div (Real.exp_pos _).ne' hx.ne', Real.log_exp, fin_inj]
    unfold bell
    congr 3; ring

/-- C55: the normal parameters are positive and determine the log-normal ones:
`s² = ln(1 + σ²/μ²)`, `m = ln μ - s²/2`. -/
theorem C55_normal_parameters (m s : ℝ) (hs : s ≠ 0) :
    ∃ mu sigma : ℝ, normalParameters (fin m) (fin s) = (fin mu, fin sigma) ∧ 0 < mu ∧ 0 < sigma ∧
      s ^ 2 = Real.log (1 + sigma ^ 2 / mu ^ 2) ∧ m = Real.log mu - s ^ 2 / 2 := by
  have h1 : 1 < Real.exp (s ^ 2) := Real.one_lt_exp_iff.mpr (by positivity)
  have hpos : 0 < Real.exp (s ^ 2 + 2 * m) * (Real.exp (s ^ 2) - 1) := mul_pos (Real.exp_pos _) (by linarith)
  refine ⟨Real.exp (m + s ^ 2 / 2), Real.sqrt (Real.exp (s ^ 2 + 2 * m) * (Real.exp (s ^ 2) - 1)), ?_,
    Real.exp_pos _, Real.sqrt_pos.mpr hpos, ?_, ?_⟩
  · unfold normalParameters
    rw [sq_fin, fin_div _ _ (by norm_num)]
    simp only [fin_add, fin_mul, exp_fin, fin_sub]
    rw [Fl.sqrt_fin _ hpos.le]
  · rw [Real.sq_sqrt hpos.le, ← Real.exp_nat_mul]
    have e : ((2 : ℕ) : ℝ) * (m + s ^ 2 / 2) = s ^ 2 + 2 * m := by push_cast; ring
    rw [e, mul_div_right_comm, div_self (Real.exp_pos _).ne', one_mul, add_sub_cancel, Real.log_exp]
  · rw [Real.log_exp]; ring

/-! ### C105: initial guess of a Gaussian -/

theorem npSum_zip_fin (f : Fl → Fl → Fl) (g : ℝ → ℝ → ℝ) (hfg : ∀ a b, f (fin a) (fin b) = fin (g a b))
    (xs ys : List ℝ) : npSum (List.zipWith f (xs.map fin) (ys.map fin)) = fin (List.zipWith g xs ys).sum := by
  induction xs generalizing ys with
  | nil => rfl
  | cons a xs ih =>
    cases ys with
    | nil => rfl
    | cons b ys =>
      have := ih ys
      unfold npSum at this ⊢
      simp only [List.map_cons, List.zipWith_cons_cons, Fl.sumAll_cons, this, hfg, fin_add, List.sum_cons]

theorem npSum_map_fin (ys : List ℝ) : npSum (ys.map fin) = fin ys.sum := by
  unfold npSum
  have := Fl.sumAll_fin' ys fin id (fun _ _ => rfl)
  simpa using this

theorem foldl_maximum_fin (a : ℝ) (l : List ℝ) :
    ∃ v, (l.map fin).foldl Fl.maximum (fin a) = fin v ∧ (v = a ∨ v ∈ l) ∧ a ≤ v ∧ ∀ b ∈ l, b ≤ v := by
  induction l generalizing a with
  | nil => exact ⟨a, rfl, Or.inl rfl, le_rfl, by simp⟩
  | cons c l ih =>
    obtain ⟨v, h1, h2, h3, h4⟩ := ih (max a c)
    refine ⟨v, by simpa [maximum_fin] using h1, ?_, (le_max_left a c).trans h3, ?_⟩
    · rcases h2 with h2 | h2
      · rcases max_choice a c with h | h
        · exact Or.inl (h2.trans h)
        · exact Or.inr (by rw [h2, h]; simp)
      · exact Or.inr (by simp [h2])
    · intro b hb
      rcases List.mem_cons.mp hb with rfl | hb
      · exact (le_max_right a b).trans h3
      · exact h4 b hb

theorem npMax_fin (l : List ℝ) (hl : l ≠ []) :
    ∃ v, npMax (l.map fin) = fin v ∧ v ∈ l ∧ ∀ b ∈ l, b ≤ v := by
  cases l with
  | nil => exact absurd rfl hl
  | cons a l =>
    obtain ⟨v, h1, h2, h3, h4⟩ := foldl_maximum_fin a l
    refine ⟨v, h1, ?_, ?_⟩
    · rcases h2 with h | h
      · simp [h]
      · simp [h]
    · intro b hb
      rcases List.mem_cons.mp hb with rfl | hb
      · exact h3
      · exact h4 b hb

theorem zip_sum_le (g k : ℝ → ℝ → ℝ) (xs ys : List ℝ) (h : ∀ a ∈ xs, ∀ b ∈ ys, g a b ≤ k a b) :
    (List.zipWith g xs ys).sum ≤ (List.zipWith k xs ys).sum := by
  induction xs generalizing ys with
  | nil => simp
  | cons a xs ih =>
    cases ys with
    | nil => simp
    | cons b ys =>
      simp only [List.zipWith_cons_cons, List.sum_cons]
      have h1 := h a (by simp) b (by simp)
      have h2 := ih ys (fun a ha b hb => h a (by simp [ha]) b (by simp [hb]))
      linarith

theorem zip_sum_const (c : ℝ) (xs ys : List ℝ) (h : xs.length = ys.length) :
    (List.zipWith (fun _ b => c * b) xs ys).sum = c * ys.sum := by
  induction xs generalizing ys with
  | nil => cases ys <;> simp at h ⊢
  | cons a xs ih =>
    cases ys with
    | nil => simp at h
    | cons b ys => simp only [List.zipWith_cons_cons, List.sum_cons, ih ys (by simpa using h)]; ring

/-- C105: for non-negative data with a positive sum the initial guess of `Gaussian` and `GaussianNormalized` is
finite: the centre lies between any bounds of the abscissae, the width is at most their distance, the height is the
largest datum (for the normalised form: the curve at its centre has that height). -/
theorem C105_gaussian_guess (xs ys : List ℝ) (lo hi : ℝ) (hl : xs.length = ys.length) (h3 : 3 ≤ xs.length)
    (hx : ∀ a ∈ xs, lo ≤ a ∧ a ≤ hi) (hy : ∀ b ∈ ys, 0 ≤ b) (hsum : 0 < ys.sum) :
    ∃ mu sigma peak n : ℝ, gaussianP0 (xs.map fin) (ys.map fin) = .ok [fin mu, fin sigma, fin peak] ∧
      gaussianNormP0 (xs.map fin) (ys.map fin) = .ok [fin mu, fin sigma, fin n] ∧
      lo ≤ mu ∧ mu ≤ hi ∧ 0 ≤ sigma ∧ sigma ≤ hi - lo ∧ peak ∈ ys ∧ (∀ b ∈ ys, b ≤ peak) ∧
      (sigma ≠ 0 → gaussianNormF (fin mu) (fin mu) (fin sigma) (fin n) = fin peak) := by
  have hne : ys ≠ [] := by
    intro h; rw [h] at hl; rw [hl] at h3; simp at h3
  obtain ⟨peak, hp1, hp2, hp3⟩ := npMax_fin ys hne
  have hm : wMean (xs.map fin) (ys.map fin) = fin ((List.zipWith (· * ·) xs ys).sum / ys.sum) := by
    unfold wMean
    rw [npSum_zip_fin (· * ·) (· * ·) (fun a b => rfl), npSum_map_fin, fin_div _ _ hsum.ne']
  obtain ⟨mu, hmu⟩ : ∃ mu, mu = (List.zipWith (· * ·) xs ys).sum / ys.sum := ⟨_, rfl⟩
  rw [← hmu] at hm
  have hv : wVar (xs.map fin) (ys.map fin) =
      fin ((List.zipWith (fun a b => (a - mu) ^ 2 * b) xs ys).sum / ys.sum) := by
    unfold wVar
    rw [hm, npSum_zip_fin _ (fun a b => (a - mu) ^ 2 * b) (fun a b => by simp), npSum_map_fin,
      fin_div _ _ hsum.ne']
  have hlo : lo ≤ mu := by
    rw [hmu, le_div_iff₀ hsum, ← zip_sum_const lo xs ys hl]
    exact zip_sum_le _ _ _ _ (fun a ha b hb => mul_le_mul_of_nonneg_right (hx a ha).1 (hy b hb))
  have hhi : mu ≤ hi := by
    rw [hmu, div_le_iff₀ hsum, ← zip_sum_const hi xs ys hl]
    exact zip_sum_le _ _ _ _ (fun a ha b hb => mul_le_mul_of_nonneg_right (hx a ha).2 (hy b hb))
  have hv0 : 0 ≤ (List.zipWith (fun a b => (a - mu) ^ 2 * b) xs ys).sum / ys.sum := by
    rw [le_div_iff₀ hsum, ← zip_sum_const 0 xs ys hl]
    exact zip_sum_le _ _ _ _ (fun a ha b hb => mul_le_mul_of_nonneg_right (sq_nonneg _) (hy b hb))
  have hv1 : (List.zipWith (fun a b => (a - mu) ^ 2 * b) xs ys).sum / ys.sum ≤ (hi - lo) ^ 2 := by
    rw [div_le_iff₀ hsum, ← zip_sum_const ((hi - lo) ^ 2) xs ys hl]
    refine zip_sum_le _ _ _ _ (fun a ha b hb => mul_le_mul_of_nonneg_right ?_ (hy b hb))
    have := hx a ha
    apply sq_le_sq'
    · linarith
    · linarith
  obtain ⟨V, hV⟩ : ∃ V, V = (List.zipWith (fun a b => (a - mu) ^ 2 * b) xs ys).sum / ys.sum := ⟨_, rfl⟩
  rw [← hV] at hv hv0 hv1
  refine ⟨mu, Real.sqrt V, peak, peak * Real.sqrt V * Real.sqrt (2 * Real.pi), ?_, ?_, hlo, hhi, Real.sqrt_nonneg _, ?_,
    hp2, hp3, ?_⟩
  · unfold gaussianP0
    rw [if_neg (by simp; omega), hm, hv, hp1, Fl.sqrt_fin _ hv0]
  · unfold gaussianNormP0
    rw [if_neg (by simp; omega), hm, hv, hp1, Fl.sqrt_fin _ hv0, Fl.sqrt_fin _ (by positivity)]
    rfl
  · rw [Real.sqrt_le_left (by linarith)]; exact hv1
  · intro hs
    have hp : 0 < Real.sqrt (2 * Real.pi) := Real.sqrt_pos.mpr (by positivity)
    unfold gaussianNormF
    rw [Fl.sqrt_fin _ (by positivity), fin_mul, fin_div _ _ (mul_ne_zero hp.ne' hs), fin_sub, fin_div _ _ hs, sq_fin,
      fin_mul, exp_fin, fin_mul, fin_inj, sub_self]
    simp
    field_simp

/-! ### C56: exponentials and power laws -/

/-- C56: `ExponentialCDF` needs `set_y0` first; then for positive `y0` and rate it starts at 0, increases strictly,
stays below `y0` and comes arbitrarily close to it. -/
theorem C56_cdf (y0 c : ℝ) (hy : 0 < y0) (hc : 0 < c) :
    exponentialCDF none (fin 0) (fin c) = .error .attributeError ∧
    exponentialCDF (some (fin y0)) (fin 0) (fin c) = .ok (fin 0) ∧
    ∃ g : ℝ → ℝ, (∀ x, exponentialCDF (some (fin y0)) (fin x) (fin c) = .ok (fin (g x))) ∧ StrictMono g ∧
      (∀ x, g x < y0) ∧ Filter.Tendsto g Filter.atTop (nhds y0) := by
  refine ⟨rfl, ?_, fun x => y0 * (1 - Real.exp (-(c * x))), fun x => ?_, ?_, ?_, ?_⟩
  · unfold exponentialCDF
    simp
  · unfold exponentialCDF; simp
  · intro a b hab
    apply mul_lt_mul_of_pos_left _ hy
    have : Real.exp (-(c * b)) < Real.exp (-(c * a)) := Real.exp_lt_exp.mpr (by nlinarith)
    linarith
  · intro x
    have := Real.exp_pos (-(c * x))
    nlinarith
  · have h1 : Filter.Tendsto (fun x : ℝ => Real.exp (-(c * x))) Filter.atTop (nhds 0) := by
      apply Real.tendsto_exp_atBot.comp
      apply Filter.tendsto_neg_atTop_atBot.comp
      exact Filter.tendsto_id.const_mul_atTop hc
    have h2 := (h1.const_sub 1).const_mul y0
    simpa using h2

/-- C56: the `PlusC` forms add the constant; the exponential halves after `ln 2 / c`; a power law is linear in
log-log with slope `b`; the off-centre law is the shifted power law. -/
theorem C56_forms (A b c d x x0 : ℝ) :
    exponentialPlusCF (fin x) (fin c) (fin A) (fin d) = exponentialF (fin x) (fin c) (fin A) + fin d ∧
    (c ≠ 0 → exponentialF (fin (x + Real.log 2 / c)) (fin c) (fin A) =
      exponentialF (fin x) (fin c) (fin A) / fin 2) ∧
    exponentialF (fin 0) (fin c) (fin A) = fin A ∧
    powerLawPlusCF (fin x) (fin A) b (fin c) = powerLawF (fin x) (fin A) b + fin c ∧
    powerLawOffCenterF (fin x) (fin A) b (fin x0) = powerLawF (fin (x - x0)) (fin A) b ∧
    (0 < x → 0 < A → Fl.log (powerLawF (fin x) (fin A) b) = fin (Real.log A + b * Real.log x)) := by
  refine ⟨rfl, fun hc => ?_, ?_, rfl, ?_, fun hx hA => ?_⟩
  · simp only [exponentialF, fin_mul, fin_neg, exp_fin]
    rw [fin_div _ _ (by norm_num), fin_inj]
    have : -(c * (x + Real.log 2 / c)) = -(c * x) - Real.log 2 := by field_simp; ring
    rw [this, Real.exp_sub, Real.exp_log (by norm_num)]
    ring
  · simp [exponentialF]
  · simp [powerLawOffCenterF, powerLawF]
  · unfold powerLawF
    rw [Fl.rpow_fin _ _ hx, fin_mul, Fl.log_fin _ (mul_pos hA (Real.rpow_pos_of_pos hx b)), fin_inj,
      Real.log_mul hA.ne' (Real.rpow_pos_of_pos hx b).ne', Real.log_rpow hx]

/-! ### C101: Moyal and the reported formulas -/

/-- C101 (violated): the "asymmetric" Moyal curve is symmetric about `mu` for all parameters. -/
theorem C101_moyal_symmetric (mu sigma A d : ℝ) (hs : sigma ≠ 0) :
    moyalF (fin (mu + d)) (fin mu) (fin sigma) (fin A) = moyalF (fin (mu - d)) (fin mu) (fin sigma) (fin A) := by
  unfold moyalF
  simp only [fin_sub]
  rw [fin_div _ _ hs, fin_div _ _ hs, sq_fin, sq_fin]
  have : ((mu + d - mu) / sigma) ^ 2 = ((mu - d - mu) / sigma) ^ 2 := by ring
  rw [this]

/-- C101 (violated): the LaTeX formula reported for `Moyal` is not the fitted curve: they differ at the peak as soon
as `A ≠ 0`. The one reported for `GaussianLn` lacks the minus sign: it differs at every `x ≠ e^m`. -/
theorem C101_reported_formula (mu sigma A : ℝ) (hs : sigma ≠ 0) (hA : A ≠ 0) :
    moyalTeX (fin mu) (fin mu) (fin sigma) (fin A) ≠ moyalF (fin mu) (fin mu) (fin sigma) (fin A) ∧
    ∀ x m s : ℝ, 0 < x → s ≠ 0 → x ≠ Real.exp m →
      gaussianLnTeX (fin x) (fin m) (fin s) (fin A) ≠ gaussianLnF (fin x) (fin m) (fin s) (fin A) := by
  constructor
  · unfold moyalTeX moyalF
    simp only [fin_sub, sub_self]
    rw [fin_div _ _ hs]
    simp only [zero_div, sq_fin, exp_fin, fin_sub, fin_mul, ne_eq, fin_inj]
    intro h
    have h1 := mul_left_cancel₀ hA h
    obtain ⟨t, ht⟩ : ∃ t, t = Real.exp (1 / 2 * ((0:ℝ) ^ 2 - Real.exp (0 ^ 2))) := ⟨_, rfl⟩
    rw [← ht] at h1
    have hpos : 0 < t := ht ▸ Real.exp_pos _
    have := Real.add_one_lt_exp hpos.ne'
    linarith
  · intro x m s hx hs' hxm
    unfold gaussianLnTeX gaussianLnF
    have hlog : Real.log x - m ≠ 0 := by
      intro h
      apply hxm
      have : Real.log x = m := by linarith
      rw [← this, Real.exp_log hx]
    rw [Fl.log_fin _ hx, fin_sub, sq_fin, sq_fin, fin_mul, fin_div _ _ (by positivity), fin_div _ _ hs', sq_fin, fin_mul,
      exp_fin, exp_fin, fin_mul, fin_mul, ne_eq, fin_inj]
    intro h
    have h1 := Real.exp_injective (mul_left_cancel₀ hA h)
    have h2 : 0 < ((Real.log x - m) / s) ^ 2 := by positivity
    have h3 : (Real.log x - m) ^ 2 / (2 * s ^ 2) = ((Real.log x - m) / s) ^ 2 / 2 := by field_simp
    rw [h3] at h1
    linarith

/-! ### C100: LaTeX parameters -/

/-- C100 (violated): `GaussianLn.TeX_popt` and `ExponentialCDF.set_TeX_info` always raise AttributeError. -/
theorem C100_no_parent_attribute {α : Type} (rest : Except PyErr α) (y0 : Option Fl) :
    gaussianLnTeXPopt rest = .error .attributeError ∧ expCDFSetTeXInfo y0 rest = .error .attributeError := by
  constructor
  · rfl
  · cases y0 <;> rfl

/-! ### C102: initial guesses that cannot be evaluated -/

theorem ediff1d_short (l : List Fl) (h : l.length < 2) : ediff1d l = [] := by
  match l, h with
  | [], _ => rfl
  | [_], _ => rfl

theorem compress_length_le {α β : Type} (m : List Bool) (a : List α) (b : List β) (h : a.length = b.length) :
    (compress m a).length = (compress m b).length := by
  induction m generalizing a b with
  | nil => cases a <;> cases b <;> simp [compress] at h ⊢
  | cons c m ih =>
    cases a with
    | nil =>
      cases b with
      | nil => simp [compress]
      | cons _ _ => simp at h
    | cons x a =>
      cases b with
      | nil => simp at h
      | cons y b =>
        have := ih a b (by simpa using h)
        cases c <;> simp [compress, this]

/-- how many used abscissae satisfy `p` -/
def countSide (p : Fl → Prop) (x : List Fl) : ℕ := (x.filter (fun t => decide (p t))).length

theorem selBy_self_length (p : Fl → Prop) (x : List Fl) : (selBy p x x).length = countSide p x := by
  unfold selBy countSide
  induction x with
  | nil => rfl
  | cons a x ih =>
    by_cases h : p a
    · simp [compress, h, ih]
    · simp [compress, h, ih]

theorem estimateLine_short (p : Fl → Prop) (x y : List Fl) (h : countSide p x < 2) : (estimateLine p x y).2 = nan := by
  unfold estimateLine
  simp only []
  rw [ediff1d_short (selBy p x x) (by rw [selBy_self_length]; exact h), List.zipWith_nil_right]
  simp [npNanMedian, npMedian]

/-- C102 (violated): with fewer than two used abscissae on one side of the guessed transition (e.g. all data below
the default guess of 400 or 425) the initial guess is useless: for `TwoLine` and `Saturation` it contains NaN, ... -/
theorem C102_nan_guess (g gs : Fl) (x y : List Fl) (h4 : 4 ≤ x.length)
    (h : countSide (fun t => Fl.le t g) x < 2 ∨ countSide (fun t => ¬ Fl.le t g) x < 2) :
    (∃ p, twoLineP0 g x y = .ok p ∧ nan ∈ p) ∧ (∃ p, saturationP0 (g, gs) x y = .ok p ∧ nan ∈ p) := by
  constructor
  · unfold twoLineP0
    rw [if_neg (by omega)]
    refine ⟨_, rfl, ?_⟩
    rcases h with h | h
    · rw [estimateLine_short _ _ _ h]; simp
    · rw [estimateLine_short (fun t => ¬ Fl.le t g) _ _ h]; simp
  · unfold saturationP0
    rw [if_neg (by omega)]
    refine ⟨_, rfl, ?_⟩
    rcases h with h | h
    · simp only [estimateLine_short _ _ _ h]
      simp [Fl.arctan]
    · simp only [estimateLine_short (fun t => ¬ Fl.le t g) _ _ h]
      simp [Fl.arctan]

/-- ... and for `HingeAtPoint` the curve at the initial guess is NaN at *every* abscissa. -/
theorem C102_hingeAtPoint (xh : ℝ) (gy : Fl) (xs ys : List ℝ) (h4 : 4 ≤ xs.length) (hl : xs.length = ys.length)
    (h : countSide (fun t => Fl.le (fin xh) t) (xs.map fin) < 2) :
    ∃ yh m1, hingeAtPointP0 (fin xh, gy) (xs.map fin) (ys.map fin) = .ok [fin xh, fin yh, m1, fin 0] ∧
      ∀ t : ℝ, hingeAtPoint (fin t) (fin xh) (fin yh) m1 (fin 0) = nan := by
  have hyh : ∀ i, i < ys.length → ∃ v, (ys.map fin).getD i nan = fin v := by
    intro i hi
    refine ⟨ys[i], ?_⟩
    rw [List.getD_eq_getElem _ _ (by simpa using hi)]
    simp
  obtain ⟨yh, hyh'⟩ := hyh (argminIdx ((xs.map fin).map (fun t => (t - fin xh).abs))) (by
    -- some abscissa is nearest to the guess
    unfold argminIdx
    have hne : xs ≠ [] := by rintro rfl; simp at h4
    obtain ⟨v, hv, hmin⟩ : ∃ v ∈ xs, ∀ u ∈ xs, |v - xh| ≤ |u - xh| := by
      clear h h4 hl hyh
      induction xs with
      | nil => exact absurd rfl hne
      | cons a xs ih =>
        by_cases hx : xs = []
        · subst hx; exact ⟨a, by simp, by simp⟩
        · obtain ⟨v, hv, hm⟩ := ih hx
          by_cases hav : |a - xh| ≤ |v - xh|
          · refine ⟨a, by simp, ?_⟩
            intro u hu
            rcases List.mem_cons.mp hu with rfl | hu
            · exact le_rfl
            · exact hav.trans (hm u hu)
          · refine ⟨v, by simp [hv], ?_⟩
            intro u hu
            rcases List.mem_cons.mp hu with rfl | hu
            · exact le_of_not_ge hav
            · exact hm u hu
    obtain ⟨i, hi, hiv⟩ := List.getElem_of_mem hv
    rw [← hl]
    have : (List.range ((xs.map fin).map (fun t => (t - fin xh).abs)).length).length = xs.length := by simp
    rw [← this]
    apply List.findIdx_lt_length_of_exists
    refine ⟨i, by simpa using hi, ?_⟩
    simp only [decide_eq_true_eq]
    intro j hj
    have hj' : j < xs.length := by simpa using hj
    rw [List.getD_eq_getElem _ _ (by simpa using hi), List.getD_eq_getElem _ _ hj]
    simp only [List.getElem_map, fin_sub, Fl.abs, le_fin, hiv]
    exact hmin _ (List.getElem_mem hj'))
  unfold hingeAtPointP0
  rw [if_neg (by simp; omega)]
  simp only [hyh', selBy_self_length]
  rw [if_neg (by omega : ¬ 2 ≤ countSide (fun t => Fl.le (fin xh) t) (xs.map fin))]
  exact ⟨yh, _, rfl, fun t => (C104_hingeAtPoint_flat t xh yh _).1⟩

/-- `HingeMin`: the guess has `x2 = h`, so the second slope is infinite and the curve is `-inf` at every abscissa
below the hinge (rising first line). -/
theorem C102_hingeMin (h : ℝ) (x y : List Fl) (h4 : 4 ≤ x.length)
    (hc : countSide (fun t => Fl.le (fin h) t) x < 2) :
    ∃ m1 x1, hingeP0 (fin h) x y = .ok [m1, x1, fin h, fin h] ∧
      ∀ a b t : ℝ, m1 = fin a → x1 = fin b → 0 < a * (h - b) → t < h →
        hingeMin (fin t) m1 x1 (fin h) (fin h) = ninf := by
  unfold hingeP0
  rw [if_neg (by omega)]
  simp only [selBy_self_length]
  rw [if_neg (by omega : ¬ 2 ≤ countSide (fun t => Fl.le (fin h) t) x)]
  refine ⟨_, _, rfl, ?_⟩
  intro a b t ha hb hpos ht
  rw [hb, ha]
  have e : hingeM2 (fin a) (fin b) (fin h) (fin h) = pinf := by
    unfold hingeM2
    simp only [fin_sub, fin_mul, sub_self]
    show (if (0:ℝ) = 0 then _ else _) = _
    simp [hpos]
  unfold hingeMin
  rw [e, fin_sub, fin_sub, fin_mul]
  have e2 : (pinf * fin (t - h) : Fl) = ninf := by
    show infMul true (t - h) = _
    unfold infMul
    have h1 : ¬ (t - h = 0) := by intro h0; linarith
    have h2 : ¬ (0 < t - h) := by intro h0; linarith
    simp [h1, h2]
  rw [e2]
  unfold Fl.minimum
  simp [Fl.le]

/-! ### C103: ignored guesses -/

/-- C103 (violated): `guess_s` of `Saturation` and `guess_yh` of `HingeAtPoint` never influence the initial guess, and
`guess_y0`/`guess_y1` of `HeavySide` are ignored unless both are given. -/
theorem C103_ignored_guesses (g a b : Fl) (g0 : Option Fl) (x y : List Fl) :
    saturationP0 (g, a) x y = saturationP0 (g, b) x y ∧
    hingeAtPointP0 (g, a) x y = hingeAtPointP0 (g, b) x y ∧
    heavySideP0 g0 (some a) none x y = heavySideP0 g0 none none x y ∧
    heavySideP0 g0 none (some a) x y = heavySideP0 g0 none none x y ∧
    (3 ≤ x.length → ∃ x0, heavySideP0 g0 (some a) (some b) x y = .ok [x0, a, b]) := by
  refine ⟨rfl, rfl, rfl, rfl, fun h => ?_⟩
  unfold heavySideP0
  rw [if_neg (by omega)]
  exact ⟨_, rfl⟩

end
end SW
