import Verif.Props.Scaling
import Verif.FitGuess

/-!
# Property C225: fits and units of measurement

The data in other units: every abscissa multiplied by `k > 0`, every ordinate by `c > 0`.  A curve of a class, its parameters converted
by their dimensions, is the old curve converted; and the initial guess from the converted data is the converted guess.
Everything holds for missing and infinite values as well.
-/

set_option linter.unusedSectionVars false

namespace SW
noncomputable section
open Classical

/-! ### Specification -/

/-- the values in another unit -/
def inUnits (k : ℝ) (l : List Fl) : List Fl := l.map (times k)

/-- parameters converted, each by its own factor -/
def convert (ks : List ℝ) (p : List Fl) : List Fl := List.zipWith times ks p

/-! ### a positive factor and numpy -/

section
variable {k : ℝ} (hk : 0 < k)
include hk

theorem times_neg (x : Fl) : times k (-x) = -times k x := by
  unfold times; exact neg_mul' x _

theorem times_sub (x y : Fl) : times k (x - y) = times k x - times k y := by
  have e : ∀ a b : Fl, a - b = a + -b := fun a b => rfl
  rw [e, e, times_add hk, times_neg hk]

theorem times_lt (x y : Fl) : Fl.lt (times k x) (times k y) ↔ Fl.lt x y := by
  cases x <;> cases y <;> simp only [times_pinf hk, times_ninf hk, times_fin, times_nan, Fl.lt]
  exact mul_lt_mul_iff_left₀ hk

theorem times_le (x y : Fl) : Fl.le (times k x) (times k y) ↔ Fl.le x y := by
  cases x <;> cases y <;> simp only [times_pinf hk, times_ninf hk, times_fin, times_nan, Fl.le]
  exact mul_le_mul_iff_left₀ hk

theorem times_abs (x : Fl) : Fl.abs (times k x) = times k (Fl.abs x) := by
  cases x <;> simp only [times_pinf hk, times_ninf hk, times_fin, times_nan, Fl.abs]
  rw [abs_mul, abs_of_pos hk]

theorem times_isFinite (x : Fl) : (times k x).isFinite ↔ x.isFinite := by
  cases x <;> simp [times_pinf hk, times_ninf hk, times_fin, times_nan]

theorem times_minimum (x y : Fl) : Fl.minimum (times k x) (times k y) = times k (Fl.minimum x y) := by
  unfold Fl.minimum
  rw [times_isNaN hk, times_isNaN hk]
  simp only [times_le hk]
  split_ifs <;> rfl

theorem times_maximum (x y : Fl) : Fl.maximum (times k x) (times k y) = times k (Fl.maximum x y) := by
  unfold Fl.maximum
  rw [times_isNaN hk, times_isNaN hk]
  simp only [times_le hk]
  split_ifs <;> rfl

theorem heaviside_times (x h : Fl) : Fl.heaviside (times k x) h = Fl.heaviside x h := by
  cases x with
  | nan => rfl
  | pinf => rw [times_pinf hk]
  | ninf => rw [times_ninf hk]
  | fin a =>
    rw [times_fin]
    unfold Fl.heaviside
    simp only [mul_eq_zero, hk.ne', or_false, mul_neg_iff, hk, hk.not_gt, and_false, and_true, false_or]

theorem log_times (x : Fl) : Fl.log (times k x) = Fl.log x + .fin (Real.log k) := by
  cases x with
  | nan => rfl
  | pinf => rw [times_pinf hk]; rfl
  | ninf => rw [times_ninf hk]; rfl
  | fin a =>
    rw [times_fin]
    unfold Fl.log
    simp only [mul_eq_zero, hk.ne', or_false, mul_neg_iff, hk, hk.not_gt, and_false, and_true, false_or]
    split_ifs with h1 h2
    · rfl
    · rfl
    · rw [Real.log_mul h2 hk.ne']; rfl

theorem npMax_units (l : List Fl) : npMax (inUnits k l) = times k (npMax l) := by
  have : ∀ (l : List Fl) (a : Fl), (inUnits k l).foldl Fl.maximum (times k a) = times k (l.foldl Fl.maximum a) := by
    intro l
    induction l with
    | nil => intro a; rfl
    | cons b l ih => intro a; show (inUnits k l).foldl _ (Fl.maximum (times k a) (times k b)) = _; rw [times_maximum hk, ih]; rfl
  cases l with
  | nil => rfl
  | cons a l => exact this l a

theorem npMin_units (l : List Fl) : npMin (inUnits k l) = times k (npMin l) := by
  have : ∀ (l : List Fl) (a : Fl), (inUnits k l).foldl Fl.minimum (times k a) = times k (l.foldl Fl.minimum a) := by
    intro l
    induction l with
    | nil => intro a; rfl
    | cons b l ih => intro a; show (inUnits k l).foldl _ (Fl.minimum (times k a) (times k b)) = _; rw [times_minimum hk, ih]; rfl
  cases l with
  | nil => rfl
  | cons a l => exact this l a

theorem npSum_units (l : List Fl) : npSum (inUnits k l) = times k (npSum l) := by
  have := sumAll_times hk l id
  simpa [inUnits, npSum] using this

theorem npMean_units (l : List Fl) : npMean (inUnits k l) = times k (npMean l) := by
  unfold npMean
  rw [npSum_units hk, times_div_left hk]
  simp [inUnits]

theorem getD_units (l : List Fl) (i : ℕ) : (inUnits k l).getD i .nan = times k (l.getD i .nan) := by
  unfold inUnits
  rw [List.getD_eq_getElem?_getD, List.getD_eq_getElem?_getD, List.getElem?_map]
  cases l[i]? <;> rfl

theorem npMedian_units (l : List Fl) : npMedian (inUnits k l) = times k (npMedian l) := by
  unfold npMedian
  have h1 : (inUnits k l = [] ∨ ∃ a ∈ inUnits k l, a.isNaN) ↔ (l = [] ∨ ∃ a ∈ l, a.isNaN) := by
    unfold inUnits
    simp only [List.map_eq_nil_iff, List.mem_map, exists_exists_and_eq_and, times_isNaN hk]
  have h2 : (inUnits k l).length = l.length := by simp [inUnits]
  have h3 : (inUnits k l).mergeSort (fun a b => decide (Fl.le a b)) = inUnits k (l.mergeSort (fun a b => decide (Fl.le a b))) := by
    unfold inUnits
    rw [List.map_mergeSort]
    intro a _ b _
    simp only [times_le hk]
  simp only [h1, h2, h3, getD_units hk]
  split
  · rfl
  · split
    · rfl
    · rw [← times_add hk, times_div_left hk]

theorem npNanMedian_units (l : List Fl) : npNanMedian (inUnits k l) = times k (npNanMedian l) := by
  unfold npNanMedian
  rw [← npMedian_units hk]
  congr 1
  unfold inUnits
  rw [List.filter_map]
  congr 1
  apply List.filter_congr
  intro a _
  simp [times_isNaN hk]

theorem ediff1d_units : ∀ l : List Fl, ediff1d (inUnits k l) = inUnits k (ediff1d l)
  | [] => rfl
  | [_] => rfl
  | a :: b :: l => by
    show (times k b - times k a) :: ediff1d (inUnits k (b :: l)) = times k (b - a) :: inUnits k (ediff1d (b :: l))
    rw [ediff1d_units (b :: l), times_sub hk]

theorem compress_units (m : List Bool) (l : List Fl) : compress m (inUnits k l) = inUnits k (compress m l) := by
  induction m generalizing l with
  | nil => cases l <;> rfl
  | cons b m ih =>
    cases l with
    | nil => cases b <;> rfl
    | cons a l =>
      cases b
      · exact ih l
      · show times k a :: compress m (inUnits k l) = times k a :: inUnits k (compress m l)
        rw [ih]

end

section
variable {k c : ℝ} (hk : 0 < k) (hc : 0 < c)
include hk hc

theorem mulU (x y : Fl) : times k x * times c y = times (k * c) (x * y) := by
  rw [times_mul_left hk, times_mul_right hc, times_times hc hk, mul_comm]

theorem divU (x y : Fl) : times c x / times k y = times (c / k) (x / y) := by
  rw [times_div_left hc, times_div_right hk, times_times (by positivity) hc]
  congr 1; field_simp

theorem slopeU (m x : Fl) : times (c / k) m * times k x = times c (m * x) := by
  rw [mulU (div_pos hc hk) hk]
  congr 1; field_simp

/-! ### Part A: the curves -/

/-- Straight lines: the slope is an ordinate per abscissa, the intercepts are an ordinate and an abscissa -/
theorem C225_lines (x m b x0 : Fl) :
    lineF (times k x) (times (c / k) m) (times c b) = times c (lineF x m b) ∧
    lineXF (times k x) (times (c / k) m) (times k x0) = times c (lineXF x m x0) ∧
    xIntercept (times (c / k) m) (times c b) = times k (xIntercept m b) ∧
    yIntercept (times (c / k) m) (times k x0) = times c (yIntercept m x0) := by
  refine ⟨?_, ?_, ?_, ?_⟩
  · unfold lineF; rw [slopeU hk hc, times_add hc]
  · unfold lineXF; rw [← times_sub hk, slopeU hk hc]
  · unfold xIntercept
    rw [← times_neg hc, divU (div_pos hc hk) hc]
    congr 1; field_simp
  · unfold yIntercept
    rw [← times_neg hk, Fl.mul_comm', slopeU hk hc, Fl.mul_comm']

/-- Two lines, hinges and the hinge at a point -/
theorem C225_hinges (x x1 x2 m1 m2 h xh yh : Fl) :
    twoLine (times k x) (times k x1) (times k x2) (times (c / k) m1) (times (c / k) m2) = times c (twoLine x x1 x2 m1 m2) ∧
    twoLineXs (times k x1) (times k x2) (times (c / k) m1) (times (c / k) m2) = times k (twoLineXs x1 x2 m1 m2) ∧
    twoLineS (times k x1) (times k x2) (times (c / k) m1) (times (c / k) m2) = times c (twoLineS x1 x2 m1 m2) ∧
    hingeMin (times k x) (times (c / k) m1) (times k x1) (times k x2) (times k h) = times c (hingeMin x m1 x1 x2 h) ∧
    hingeMax (times k x) (times (c / k) m1) (times k x1) (times k x2) (times k h) = times c (hingeMax x m1 x1 x2 h) ∧
    hingeM2 (times (c / k) m1) (times k x1) (times k x2) (times k h) = times (c / k) (hingeM2 m1 x1 x2 h) ∧
    hingeAtPoint (times k x) (times k xh) (times c yh) (times (c / k) m1) (times (c / k) m2)
      = times c (hingeAtPoint x xh yh m1 m2) ∧
    satM1 (times k x1) (times k xh) (times c yh) = times (c / k) (satM1 x1 xh yh) := by
  have hck := div_pos hc hk
  have hxs : twoLineXs (times k x1) (times k x2) (times (c / k) m1) (times (c / k) m2) = times k (twoLineXs x1 x2 m1 m2) := by
    unfold twoLineXs
    rw [slopeU hk hc, slopeU hk hc, ← times_sub hc, ← times_sub hck, divU hck hc]
    congr 1; field_simp
  have hm2 : hingeM2 (times (c / k) m1) (times k x1) (times k x2) (times k h) = times (c / k) (hingeM2 m1 x1 x2 h) := by
    unfold hingeM2
    rw [← times_sub hk, ← times_sub hk, slopeU hk hc, divU hk hc]
  have hx : ∀ m, times c yh / times (c / k) m = times k (yh / m) := fun m => by
    rw [divU hck hc]; congr 1; field_simp
  refine ⟨?_, hxs, ?_, ?_, ?_, hm2, ?_, ?_⟩
  · unfold twoLine; rw [← times_sub hk, ← times_sub hk, slopeU hk hc, slopeU hk hc, times_minimum hc]
  · unfold twoLineS; rw [hxs, ← times_sub hk, slopeU hk hc]
  · unfold hingeMin; rw [hm2, ← times_sub hk, ← times_sub hk, slopeU hk hc, slopeU hk hc, times_minimum hc]
  · unfold hingeMax; rw [hm2, ← times_sub hk, ← times_sub hk, slopeU hk hc, slopeU hk hc, times_maximum hc]
  · unfold hingeAtPoint
    rw [hx, hx, ← times_sub hk, ← times_sub hk, ← times_sub hk, ← times_sub hk, slopeU hk hc, slopeU hk hc, times_minimum hc]
  · unfold satM1; rw [← times_sub hk, divU hk hc]

theorem zU (x mu sigma : Fl) : (times k x - times k mu) / times k sigma = (x - mu) / sigma := by
  rw [← times_sub hk, times_div_both hk]

theorem gaussU (x mu sigma A : Fl) : gaussianF (times k x) (times k mu) (times k sigma) (times c A) = times c (gaussianF x mu sigma A) := by
  unfold gaussianF; rw [zU hk hc, times_mul_left hc]

theorem hsU (x0 x h : Fl) : Fl.heaviside (times k x0 - times k x) h = Fl.heaviside (x0 - x) h := by
  rw [← times_sub hk, heaviside_times hk]

/-- Peaks: centre and width are abscissas, the height an ordinate, the norm a product of both; in `GaussianLn` the centre is the
logarithm of an abscissa, so it is shifted, and the width has no unit -/
theorem C225_peaks (x mu sigma A n m s : Fl) :
    gaussianF (times k x) (times k mu) (times k sigma) (times c A) = times c (gaussianF x mu sigma A) ∧
    gaussianNormF (times k x) (times k mu) (times k sigma) (times (c * k) n) = times c (gaussianNormF x mu sigma n) ∧
    moyalF (times k x) (times k mu) (times k sigma) (times c A) = times c (moyalF x mu sigma A) ∧
    gaussianLnF (times k x) (m + .fin (Real.log k)) s (times c A) = times c (gaussianLnF x m s A) := by
  refine ⟨gaussU hk hc x mu sigma A, ?_, ?_, ?_⟩
  · unfold gaussianNormF
    rw [zU hk hc, times_mul_right hk, divU hk (mul_pos hc hk), times_mul_left (by positivity)]
    congr 1; field_simp
  · unfold moyalF; rw [zU hk hc, times_mul_left hc]
  · unfold gaussianLnF
    rw [log_times hk, times_mul_left hc]
    have e : Fl.log x + .fin (Real.log k) - (m + .fin (Real.log k)) = Fl.log x - m := by
      generalize Fl.log x = L
      cases L <;> cases m <;> try rfl
      rw [Fl.fin_add, Fl.fin_add, Fl.fin_sub, Fl.fin_sub]; congr 1; ring
    rw [e]

/-- Composites -/
theorem C225_composites (x x0 y0 y1 mu sigma A : Fl) :
    gaussianPlusHS (times k x) (times k x0) (times c y0) (times c y1) (times k mu) (times k sigma) (times c A)
      = times c (gaussianPlusHS x x0 y0 y1 mu sigma A) ∧
    gaussianTimesHS (times k x) (times k x0) (times k mu) (times k sigma) (times c A) = times c (gaussianTimesHS x x0 mu sigma A) ∧
    gaussianTimesPlusHS (times k x) (times k x0) (times c y1) (times k mu) (times k sigma) (times c A)
      = times c (gaussianTimesPlusHS x x0 y1 mu sigma A) ∧
    (x ≠ x0 → heavySide (times k x) (times k x0) (times c y0) (times c y1) = times c (heavySide x x0 y0 y1)) := by
  refine ⟨?_, ?_, ?_, ?_⟩
  · unfold gaussianPlusHS; rw [gaussU hk hc, hsU hk hc, times_mul_left hc, times_add hc, times_add hc]
  · unfold gaussianTimesHS; rw [gaussU hk hc, hsU hk hc, times_mul_left hc]
  · unfold gaussianTimesPlusHS; rw [gaussU hk hc, hsU hk hc, hsU hk hc, times_mul_left hc, times_mul_left hc, times_add hc]
  · intro hx
    unfold heavySide
    rw [hsU hk hc]
    have e : ∀ h h', Fl.heaviside (x0 - x) h = Fl.heaviside (x0 - x) h' := by
      intro h h'
      cases x <;> cases x0 <;> try rfl
      rename_i a b
      rw [Fl.fin_sub]
      unfold Fl.heaviside
      have : b - a ≠ 0 := fun h0 => hx (by rw [sub_eq_zero.mp h0])
      simp only [if_neg this]
    rw [e _ (.fin (1 / 2) * (y0 + y1)), times_mul_left hc, times_add hc]

/-- Exponentials and power laws: the rate is per abscissa, the amplitude of a power law of exponent `b` an ordinate per abscissa to
the power `b` -/
theorem C225_decays (x r A d x0 : Fl) (b : ℝ) :
    exponentialF (times k x) (times (1 / k) r) (times c A) = times c (exponentialF x r A) ∧
    exponentialPlusCF (times k x) (times (1 / k) r) (times c A) (times c d) = times c (exponentialPlusCF x r A d) ∧
    exponentialCDF (some (times c A)) (times k x) (times (1 / k) r) = (exponentialCDF (some A) x r).map (times c) ∧
    powerLawF (times k x) (times (c / k ^ b) A) b = times c (powerLawF x A b) ∧
    powerLawPlusCF (times k x) (times (c / k ^ b) A) b (times c d) = times c (powerLawPlusCF x A b d) ∧
    powerLawOffCenterF (times k x) (times (c / k ^ b) A) b (times k x0) = times c (powerLawOffCenterF x A b x0) := by
  have e : times (1 / k) r * times k x = r * x := by
    rw [mulU (by positivity) hk, show 1 / k * k = 1 by field_simp]
    generalize r * x = z
    cases z <;> simp [times_pinf one_pos, times_ninf one_pos, times_fin, times_nan]
  have hkb : 0 < k ^ b := Real.rpow_pos_of_pos hk b
  have p : ∀ z, times (c / k ^ b) A * Fl.rpow (times k z) b = times c (A * Fl.rpow z b) := by
    intro z
    rw [rpow_times hk, slopeU hkb hc]
  refine ⟨?_, ?_, ?_, ?_, ?_, ?_⟩
  · unfold exponentialF; rw [e, times_mul_left hc]
  · unfold exponentialPlusCF; rw [e, times_mul_left hc, times_add hc]
  · unfold exponentialCDF; rw [e]; exact congrArg Except.ok (times_mul_left hc _ _)
  · unfold powerLawF; exact p x
  · unfold powerLawPlusCF; rw [p, times_add hc]
  · unfold powerLawOffCenterF; rw [← times_sub hk, p]

/-- the saturation curve: the angle between the two segments is the one between the converted slopes -/
theorem C225_saturation (x : Fl) (x1 xs s theta : ℝ) (h : xs ≠ x1) :
    ∃ m1 m2 : ℝ, satM1 (.fin x1) (.fin xs) (.fin s) = .fin m1 ∧ satM2 (.fin x1) (.fin xs) (.fin s) (.fin theta) = .fin m2 ∧
      saturation (times k x) (times k (.fin x1)) (times k (.fin xs)) (times c (.fin s))
          (.fin (Real.arctan (c / k * m1) - Real.arctan (c / k * m2)))
        = times c (saturation x (.fin x1) (.fin xs) (.fin s) (.fin theta)) := by
  have hck := div_pos hc hk
  have e1 : satM1 (.fin x1) (.fin xs) (.fin s) = .fin (s / (xs - x1)) := by
    unfold satM1; rw [Fl.fin_sub, Fl.fin_div _ _ (sub_ne_zero.mpr h)]
  have e2 : satM2 (.fin x1) (.fin xs) (.fin s) (.fin theta) = .fin (Real.tan (Real.arctan (s / (xs - x1)) + -theta)) := by
    unfold satM2; rw [e1]; rfl
  have e1' : satM1 (times k (.fin x1)) (times k (.fin xs)) (times c (.fin s)) = times (c / k) (satM1 (.fin x1) (.fin xs) (.fin s)) := by
    unfold satM1; rw [← times_sub hk, divU hk hc]
  refine ⟨_, _, e1, e2, ?_⟩
  generalize Real.tan (Real.arctan (s / (xs - x1)) + -theta) = m2 at *
  generalize s / (xs - x1) = m1 at *
  have e2' : satM2 (times k (.fin x1)) (times k (.fin xs)) (times c (.fin s))
      (.fin (Real.arctan (c / k * m1) - Real.arctan (c / k * m2))) = times (c / k) (.fin m2) := by
    unfold satM2
    rw [e1', e1, times_fin]
    show Fl.fin (Real.tan (Real.arctan (m1 * (c / k)) + -(Real.arctan (c / k * m1) - Real.arctan (c / k * m2)))) = _
    rw [times_fin, mul_comm m1, show Real.arctan (c / k * m1) + -(Real.arctan (c / k * m1) - Real.arctan (c / k * m2))
      = Real.arctan (c / k * m2) by ring, Real.tan_arctan, mul_comm]
  unfold saturation satX2
  rw [e2', e1', e2, e1]
  have hx : times c (.fin s) / times (c / k) (.fin m2) = times k (.fin s / .fin m2) := by
    rw [divU hck hc]; congr 1; field_simp
  rw [hx, ← times_sub hk, ← times_sub hk, ← times_sub hk, slopeU hk hc, slopeU hk hc, times_minimum hc]

/-- the hinge with a saturation, while the second slope is above the threshold `1e-15` in both systems of units -/
theorem C225_hingeSaturation (x xh yh x1 m2 : Fl) (h : Fl.lt (.fin (1 / 10 ^ 15)) m2.abs)
    (h' : Fl.lt (.fin (1 / 10 ^ 15)) (times (c / k) m2).abs) :
    hingeSaturation (times k x) (times k xh) (times c yh) (times k x1) (times (c / k) m2) = times c (hingeSaturation x xh yh x1 m2) := by
  have hck := div_pos hc hk
  have hx : times c yh / times (c / k) m2 = times k (yh / m2) := by
    rw [divU hck hc]; congr 1; field_simp
  unfold hingeSaturation
  simp only [if_pos h, if_pos h']
  rw [hx, ← times_sub hk, ← times_sub hk, ← times_sub hk, ← times_sub hk, divU hk hc, slopeU hk hc, slopeU hk hc, times_minimum hc]

/-! ### Part B: the initial guesses -/

omit hc in
theorem length_units (l : List Fl) : (inUnits k l).length = l.length := by simp [inUnits]

theorem selBy_units (p p' : Fl → Prop) (hp : ∀ t, p' (times k t) ↔ p t) (x a : List Fl) :
    selBy p' (inUnits k x) (inUnits c a) = inUnits c (selBy p x a) := by
  unfold selBy
  rw [compress_units hc]
  congr 2
  unfold inUnits
  rw [List.map_map]
  apply List.map_congr_left
  intro t _
  simp only [Function.comp_apply, hp]

theorem zip_units {r : ℝ} (f f' : Fl → Fl → Fl) (hf : ∀ a b, f' (times k a) (times c b) = times r (f a b)) :
    ∀ x y : List Fl, List.zipWith f' (inUnits k x) (inUnits c y) = inUnits r (List.zipWith f x y)
  | [], _ => rfl
  | _ :: _, [] => rfl
  | a :: x, b :: y => by
    show f' (times k a) (times c b) :: List.zipWith f' (inUnits k x) (inUnits c y) = times r (f a b) :: inUnits r (List.zipWith f x y)
    rw [hf, zip_units f f' hf x y]

theorem slopes_units (x y : List Fl) : List.zipWith (· / ·) (ediff1d (inUnits c y)) (ediff1d (inUnits k x))
    = inUnits (c / k) (List.zipWith (· / ·) (ediff1d y) (ediff1d x)) := by
  rw [ediff1d_units hk, ediff1d_units hc]
  exact zip_units hc hk _ _ (fun a b => divU hk hc a b) _ _

theorem xcross_units (m : Fl) (x y : List Fl) :
    List.zipWith (fun xi yi => xi - yi / times (c / k) m) (inUnits k x) (inUnits c y)
      = inUnits k (List.zipWith (fun xi yi => xi - yi / m) x y) := by
  apply zip_units hk hc
  intro a b
  rw [divU (div_pos hc hk) hc, show c / (c / k) = k by field_simp, ← times_sub hk]

theorem lineGuess_units (x y : List Fl) :
    lineGuess (inUnits k x) (inUnits c y) = (times (c / k) (lineGuess x y).1, times c (lineGuess x y).2) := by
  have h1 : npMedian (List.zipWith (· / ·) (ediff1d (inUnits c y)) (ediff1d (inUnits k x)))
      = times (c / k) (npMedian (List.zipWith (· / ·) (ediff1d y) (ediff1d x))) := by
    rw [slopes_units hk hc, npMedian_units (div_pos hc hk)]
  unfold lineGuess
  simp only [h1]
  rw [zip_units hk hc (r := c) (fun xi yi => npMedian (List.zipWith (· / ·) (ediff1d y) (ediff1d x)) * xi - yi) _
    (fun a b => by rw [slopeU hk hc, times_sub hc]), npMedian_units hc]

omit hc in
theorem dxOk_units (x : List Fl) : dxOk (inUnits k x) ↔ dxOk x := by
  unfold dxOk
  rw [ediff1d_units hk]
  unfold inUnits
  simp only [List.mem_map, forall_exists_index, and_imp, forall_apply_eq_imp_iff₂, times_isFinite hk, times_abs hk]
  have : ∀ a : Fl, Fl.lt (.fin 0) (times k a.abs) ↔ Fl.lt (.fin 0) a.abs := fun a => by
    have := times_lt hk (.fin 0) a.abs
    rwa [times_fin, zero_mul] at this
  simp only [this]

/-- straight lines -/
theorem C225_guess_lines (x y : List Fl) :
    lineP0 (inUnits k x) (inUnits c y) = (lineP0 x y).map (Option.map (convert [c / k, c])) ∧
    lineXP0 (inUnits k x) (inUnits c y) = (lineXP0 x y).map (Option.map (convert [c / k, k])) := by
  have hck := div_pos hc hk
  constructor
  · unfold lineP0
    simp only [length_units hk, dxOk_units hk, lineGuess_units hk hc]
    split_ifs <;> rfl
  · unfold lineXP0
    simp only [length_units hk, dxOk_units hk, lineGuess_units hk hc]
    have e : -(times c (lineGuess x y).2) / times (c / k) (lineGuess x y).1 = times k (-(lineGuess x y).2 / (lineGuess x y).1) := by
      rw [← times_neg hc, divU hck hc]; congr 1; field_simp
    rw [e]
    split_ifs <;> rfl

theorem estimate_units (p p' : Fl → Prop) (hp : ∀ t, p' (times k t) ↔ p t) (x y : List Fl) :
    estimateLine p' (inUnits k x) (inUnits c y) = (times k (estimateLine p x y).1, times (c / k) (estimateLine p x y).2) := by
  unfold estimateLine
  simp only [selBy_units hk hk p p' hp, selBy_units hk hc p p' hp, slopes_units hk hc, npNanMedian_units (div_pos hc hk),
    xcross_units hk hc, npNanMedian_units hk]

/-- two lines, and the saturation curve (all but the angle) -/
theorem C225_guess_two (g h h' : Fl) (x y : List Fl) :
    twoLineP0 (times k g) (inUnits k x) (inUnits c y) = (twoLineP0 g x y).map (convert [k, k, c / k, c / k]) ∧
    (saturationP0 (times k g, h') (inUnits k x) (inUnits c y)).map (List.take 3)
      = (saturationP0 (g, h) x y).map (fun p => convert [k, k, c] (p.take 3)) := by
  have e1 := estimate_units hk hc (fun t => Fl.le t g) (fun t => Fl.le t (times k g)) (fun t => times_le hk t g) x y
  have e2 := estimate_units hk hc (fun t => ¬ Fl.le t g) (fun t => ¬ Fl.le t (times k g)) (fun t => not_congr (times_le hk t g)) x y
  constructor
  · unfold twoLineP0
    simp only [length_units hk, e1, e2]
    split_ifs <;> rfl
  · unfold saturationP0
    simp only [length_units hk, e1, e2, ← times_sub hk, slopeU hk hc]
    have e3 : ∀ a b, npNanMedian [times c a, times c b] = times c (npNanMedian [a, b]) := fun a b => npNanMedian_units hc [a, b]
    rw [e3]
    split_ifs <;> rfl

/-- hinges -/
theorem C225_guess_hinge (h : Fl) (x y : List Fl) :
    hingeP0 (times k h) (inUnits k x) (inUnits c y) = (hingeP0 h x y).map (convert [c / k, k, k, k]) := by
  have hck := div_pos hc hk
  unfold hingeP0
  have l1 := selBy_units hk hk (fun t => Fl.lt t h) (fun t => Fl.lt t (times k h)) (fun t => times_lt hk t h) x x
  have l2 := selBy_units hk hc (fun t => Fl.lt t h) (fun t => Fl.lt t (times k h)) (fun t => times_lt hk t h) x y
  have l3 := selBy_units hk hk (fun t => Fl.le h t) (fun t => Fl.le (times k h) t) (fun t => times_le hk h t) x x
  have l4 := selBy_units hk hc (fun t => Fl.le h t) (fun t => Fl.le (times k h) t) (fun t => times_le hk h t) x y
  simp only [l1, l2, l3, l4, length_units hk, slopes_units hk hc, npNanMedian_units hck, npMedian_units hck, npMax_units hk,
    npMax_units hc, npMin_units hk, npMin_units hc, ← times_sub hk, ← times_sub hc, divU hk hc, xcross_units hk hc]
  split_ifs <;> (try simp only [xcross_units hk hc, npNanMedian_units hk, npMedian_units hk]) <;> rfl

theorem argmin_units (g : Fl) (x : List Fl) :
    argminIdx ((inUnits k x).map (fun t => (t - times k g).abs)) = argminIdx (x.map (fun t => (t - g).abs)) := by
  have e : (inUnits k x).map (fun t => (t - times k g).abs) = inUnits k (x.map (fun t => (t - g).abs)) := by
    unfold inUnits
    rw [List.map_map, List.map_map]
    apply List.map_congr_left
    intro t _
    simp only [Function.comp_apply, ← times_sub hk, times_abs hk]
  rw [e]
  unfold argminIdx
  simp only [length_units hk, getD_units hk, times_le hk]

/-- the hinge at a point, if some abscissa lies below it -/
theorem C225_guess_point (g h h' : Fl) (x y : List Fl) (hlow : Fl.lt (npMin x) g) :
    hingeAtPointP0 (times k g, h') (inUnits k x) (inUnits c y) = (hingeAtPointP0 (g, h) x y).map (convert [k, c, c / k, c / k]) := by
  have hck := div_pos hc hk
  have hlow' : Fl.lt (npMin (inUnits k x)) (times k g) := by rw [npMin_units hk]; exact (times_lt hk _ _).mpr hlow
  unfold hingeAtPointP0
  have l1 := selBy_units hk hk (fun t => Fl.lt t g) (fun t => Fl.lt t (times k g)) (fun t => times_lt hk t g) x x
  have l2 := selBy_units hk hc (fun t => Fl.lt t g) (fun t => Fl.lt t (times k g)) (fun t => times_lt hk t g) x y
  have l3 := selBy_units hk hk (fun t => Fl.le g t) (fun t => Fl.le (times k g) t) (fun t => times_le hk g t) x x
  have l4 := selBy_units hk hc (fun t => Fl.le g t) (fun t => Fl.le (times k g) t) (fun t => times_le hk g t) x y
  simp only [if_pos hlow, if_pos hlow']
  simp only [l1, l2, l3, l4, length_units hk, slopes_units hk hc, npNanMedian_units hck, npMedian_units hck, argmin_units hk hc,
    getD_units hc, npMin_units hk, ← times_sub hk, divU hk hc]
  have z : times (c / k) (.fin 0) = .fin 0 := by rw [times_fin, zero_mul]
  split_ifs <;> simp [Except.map, convert, z]

/-- the step -/
theorem C225_guess_step (g0 gy0 gy1 : Option Fl) (x y : List Fl) :
    heavySideP0 (g0.map (times k)) (gy0.map (times c)) (gy1.map (times c)) (inUnits k x) (inUnits c y)
      = (heavySideP0 g0 gy0 gy1 x y).map (convert [k, c, c]) := by
  have none' : ∀ (a b : Option Fl) (u v : List Fl), heavySideP0 none a b u v = heavySideP0 (some ((npMax u + npMin u) / .fin 2)) a b u v :=
    fun _ _ _ _ => rfl
  have main : ∀ X, heavySideP0 (some (times k X)) (gy0.map (times c)) (gy1.map (times c)) (inUnits k x) (inUnits c y)
      = (heavySideP0 (some X) gy0 gy1 x y).map (convert [k, c, c]) := by
    intro X
    unfold heavySideP0
    have l1 := selBy_units hk hc (fun t => Fl.lt X t) (fun t => Fl.lt (times k X) t) (fun t => times_lt hk X t) x y
    have l2 := selBy_units hk hc (fun t => Fl.lt t X) (fun t => Fl.lt t (times k X)) (fun t => times_lt hk t X) x y
    simp only [length_units hk, l1, l2, npMedian_units hc, ← times_sub hc, times_isNaN hc, npMean_units hc]
    have z : times c (.fin 0) = .fin 0 := by rw [times_fin, zero_mul]
    split_ifs <;> cases gy0 <;> cases gy1 <;> simp [Except.map, convert, z]
  cases g0 with
  | some X => exact main X
  | none =>
    show heavySideP0 none _ _ _ _ = _
    rw [none', none', npMax_units hk, npMin_units hk, ← times_add hk, times_div_left hk]
    exact main _

theorem wMean_units (x y : List Fl) : wMean (inUnits k x) (inUnits c y) = times k (wMean x y) := by
  unfold wMean
  rw [zip_units hk hc (r := k * c) (· * ·) (· * ·) (fun a b => mulU hk hc a b), npSum_units (mul_pos hk hc), npSum_units hc,
    divU hc (mul_pos hk hc)]
  congr 1; field_simp

theorem wVar_units (x y : List Fl) : wVar (inUnits k x) (inUnits c y) = times (k ^ 2) (wVar x y) := by
  unfold wVar
  have hk2 : 0 < k ^ 2 := by positivity
  rw [wMean_units hk hc, zip_units hk hc (r := k ^ 2 * c) (fun xi yi => Fl.sq (xi - wMean x y) * yi) _
    (fun a b => by rw [← times_sub hk, sq_times hk, mulU hk2 hc]), npSum_units (mul_pos hk2 hc), npSum_units hc,
    divU hc (mul_pos hk2 hc)]
  congr 1; field_simp

theorem sigma_units (x y : List Fl) : Fl.sqrt (wVar (inUnits k x) (inUnits c y)) = times k (Fl.sqrt (wVar x y)) := by
  rw [wVar_units hk hc, sqrt_times hk]

/-- peaks -/
theorem C225_guess_peaks (x y : List Fl) :
    gaussianP0 (inUnits k x) (inUnits c y) = (gaussianP0 x y).map (convert [k, k, c]) ∧
    gaussianNormP0 (inUnits k x) (inUnits c y) = (gaussianNormP0 x y).map (convert [k, k, c * k]) ∧
    moyalP0 (inUnits k x) (inUnits c y) = (moyalP0 x y).map (convert [k, k, c]) := by
  refine ⟨?_, ?_, ?_⟩
  · unfold gaussianP0
    rw [length_units hk, wMean_units hk hc, sigma_units hk hc, npMax_units hc]
    split_ifs <;> rfl
  · unfold gaussianNormP0
    rw [length_units hk, wMean_units hk hc, sigma_units hk hc, npMax_units hc, mulU hc hk, times_mul_left (mul_pos hc hk)]
    split_ifs <;> rfl
  · unfold moyalP0
    rw [length_units hk, wMean_units hk hc, sigma_units hk hc, npMax_units hc]
    split_ifs <;> rfl

omit hk in
theorem inUnits_eq_nil (l : List Fl) : inUnits c l = [] ↔ l = [] := by simp [inUnits]

/-- composites -/
theorem C225_guess_composites (g : Fl) (x y : List Fl) :
    gaussPlusP0 (inUnits k x) (inUnits c y) = (gaussPlusP0 x y).map (convert [k, c, c, k, k, c]) ∧
    gaussTimesP0 (times k g) (inUnits k x) (inUnits c y) = (gaussTimesP0 g x y).map (convert [k, k, k, c]) ∧
    gaussTimesPlusP0 (times k g) (inUnits k x) (inUnits c y) = (gaussTimesPlusP0 g x y).map (convert [k, c, k, k, c]) := by
  have z : times c (.fin 0) = .fin 0 := by rw [times_fin, zero_mul]
  have l1 := fun g a => selBy_units hk hk (fun t => Fl.lt g t) (fun t => Fl.lt (times k g) t) (fun t => times_lt hk g t) x a
  have l2 := fun g a => selBy_units hk hc (fun t => Fl.lt g t) (fun t => Fl.lt (times k g) t) (fun t => times_lt hk g t) x a
  have l3 := fun g a => selBy_units hk hc (fun t => ¬ Fl.lt g t) (fun t => ¬ Fl.lt (times k g) t)
    (fun t => not_congr (times_lt hk g t)) x a
  refine ⟨?_, ?_, ?_⟩
  · unfold gaussPlusP0
    simp only [length_units hk, wMean_units hk hc, npMax_units hc, times_mul_right hk, times_mul_right hc, l1, l2, sigma_units hk hc]
    split_ifs
    · rfl
    · simp [Except.map, convert, z]
  · unfold gaussTimesP0
    simp only [length_units hk, wMean_units hk hc, npMax_units hc, l1, l2, sigma_units hk hc, inUnits_eq_nil hc]
    split_ifs <;> rfl
  · unfold gaussTimesPlusP0
    simp only [length_units hk, wMean_units hk hc, npMax_units hc, l1, l2, l3, sigma_units hk hc, inUnits_eq_nil hc, npMean_units hc,
      times_isNaN hc]
    split_ifs <;> simp [Except.map, convert, z]

/-- the hinge with a saturation, `polyfit` converting its slope and that slope on the same side of the threshold `1e-10` -/
theorem C225_guess_saturation (slope : List Fl → List Fl → Fl) (g h : Fl) (x y : List Fl)
    (hs : ∀ a b, slope (inUnits k a) (inUnits c b) = times (c / k) (slope a b))
    (ht : ∀ m, m = slope (selBy (fun t => Fl.lt t g) x x) (selBy (fun t => Fl.lt t g) x y) →
      (Fl.lt (.fin 1e-10) (times (c / k) m).abs ↔ Fl.lt (.fin 1e-10) m.abs)) :
    hingeSatP0 slope (times k g, times c h) (inUnits k x) (inUnits c y)
      = (hingeSatP0 slope (g, h) x y).map (convert [k, c, k, c / k]) := by
  have hck := div_pos hc hk
  have ht := ht _ rfl
  unfold hingeSatP0
  have l1 := selBy_units hk hk (fun t => Fl.lt t g) (fun t => Fl.lt t (times k g)) (fun t => times_lt hk t g) x x
  have l2 := selBy_units hk hc (fun t => Fl.lt t g) (fun t => Fl.lt t (times k g)) (fun t => times_lt hk t g) x y
  have l3 := selBy_units hk hk (fun t => Fl.le g t) (fun t => Fl.le (times k g) t) (fun t => times_le hk g t) x x
  have l4 := selBy_units hk hc (fun t => Fl.le g t) (fun t => Fl.le (times k g) t) (fun t => times_le hk g t) x y
  have z : times (c / k) (.fin 0) = .fin 0 := by rw [times_fin, zero_mul]
  have hx : ∀ m, times c h / times (c / k) m = times k (h / m) := fun m => by
    rw [divU hck hc]; congr 1; field_simp
  simp only [l1, l2, l3, l4, length_units hk, slopes_units hk hc, npMedian_units hck, npMin_units hk, hs, ht, hx, ← times_sub hk]
  split_ifs <;> simp [Except.map, convert, z]

/-- what the guesses of the logarithmic peak and of the decays do instead: the logarithm of the height is guessed as the height, that
of the variance as the width; rates and exponents are fixed numbers, and the rate of a cumulative distribution is guessed as an
ordinate -/
theorem C225_guess_other (x y : List Fl) (h : 3 ≤ x.length) :
    gaussianLnP0 (inUnits k x) (inUnits c y) = .ok [Fl.log (wMean x y) + .fin (Real.log k),
      Fl.log (wVar x y) + .fin (Real.log (k ^ 2)), Fl.log (npMax y) + .fin (Real.log c)] ∧
    exponentialP0 (inUnits k x) (inUnits c y) = (exponentialP0 x y).map (convert [1, c]) ∧
    exponentialPlusCP0 (inUnits k x) (inUnits c y) = (exponentialPlusCP0 x y).map (convert [1, c, c]) ∧
    exponentialCDFP0 (inUnits k x) (inUnits c y) = (exponentialCDFP0 x y).map (convert [c]) ∧
    powerLawP0 (inUnits k x) = powerLawP0 x ∧ powerLaw3P0 (inUnits k x) = powerLaw3P0 x := by
  have o : times 1 (.fin 1) = .fin 1 := by rw [times_fin, one_mul]
  have z : times c (.fin 0) = .fin 0 := by rw [times_fin, zero_mul]
  refine ⟨?_, ?_, ?_, ?_, ?_, ?_⟩
  · unfold gaussianLnP0
    rw [length_units hk, if_neg (by omega), wMean_units hk hc, wVar_units hk hc, npMax_units hc, log_times hk, log_times hc,
      log_times (show 0 < k ^ 2 by positivity)]
  · unfold exponentialP0
    rw [length_units hk, npMax_units hc]
    split_ifs <;> simp [Except.map, convert, o]
  · unfold exponentialPlusCP0
    rw [length_units hk, npMax_units hc]
    split_ifs <;> simp [Except.map, convert, o, z]
  · unfold exponentialCDFP0
    rw [length_units hk, npMean_units hc]
    split_ifs <;> rfl
  · unfold powerLawP0; rw [length_units hk]
  · unfold powerLaw3P0; rw [length_units hk]

end

/-! ### what is not converted -/

/-- The step curve at the step itself: its value there is quadratic in the heights, so it depends on the unit of the ordinate. -/
theorem C225_step_violated (x0 y0 y1 c : ℝ) (hc : 0 < c) :
    heavySide (.fin x0) (.fin x0) (times c (.fin y0)) (times c (.fin y1)) = times c (heavySide (.fin x0) (.fin x0) (.fin y0) (.fin y1))
      ↔ c = 1 ∨ y1 * (y0 + y1) = 0 := by
  unfold heavySide
  simp only [times_fin, Fl.fin_sub, sub_self, Fl.heaviside, lt_irrefl, if_false, if_true, Fl.fin_add, Fl.fin_mul, Fl.fin_inj]
  constructor
  · intro h
    have : c * (c - 1) * (y1 * (y0 + y1)) = 0 := by nlinarith
    rcases mul_eq_zero.mp this with h1 | h1
    · left
      rcases mul_eq_zero.mp h1 with h2 | h2
      · exact absurd h2 hc.ne'
      · linarith
    · exact Or.inr h1
  · rintro (h | h)
    · subst h; ring
    · have e : y1 * c * (1 / 2 * (y0 * c + y1 * c)) = c ^ 2 / 2 * (y1 * (y0 + y1)) := by ring
      have e' : y1 * (1 / 2 * (y0 + y1)) = 1 / 2 * (y1 * (y0 + y1)) := by ring
      rw [e, e', h]; ring

/-- The threshold on the second slope of the saturated hinge is a fixed number, whatever the units: a plateau slope of 1e-14 becomes
exactly zero when the ordinate is expressed in a unit a hundred times larger. -/
theorem C225_threshold_violated :
    hingeSaturation (.fin (1 + 10 ^ 14)) (.fin 1) (.fin 1) (.fin 0) (.fin (1 / 10 ^ 14)) = .fin 2 ∧
    hingeSaturation (.fin (1 + 10 ^ 14)) (.fin 1) (times (1 / 100) (.fin 1)) (.fin 0) (times (1 / 100) (.fin (1 / 10 ^ 14)))
      = .fin (1 / 100) := by
  constructor
  · unfold hingeSaturation
    have h : Fl.lt (.fin (1 / 10 ^ 15)) (Fl.fin (1 / 10 ^ 14)).abs := by
      show (1 / 10 ^ 15 : ℝ) < |1 / 10 ^ 14|
      rw [abs_of_pos (by positivity)]; norm_num
    simp only [if_pos h]
    simp only [Fl.fin_sub]
    rw [Fl.fin_div _ _ (by norm_num), Fl.fin_div _ _ (by norm_num), Fl.fin_sub, Fl.fin_sub, Fl.fin_mul, Fl.fin_mul]
    unfold Fl.minimum
    norm_num [Fl.isNaN]
  · unfold hingeSaturation
    have h : ¬ Fl.lt (.fin (1 / 10 ^ 15)) (times (1 / 100) (Fl.fin (1 / 10 ^ 14))).abs := by
      rw [times_fin]
      show ¬ (1 / 10 ^ 15 : ℝ) < |1 / 10 ^ 14 * (1 / 100)|
      rw [abs_of_pos (by positivity)]; norm_num
    simp only [if_neg h]
    simp only [times_fin, Fl.fin_sub]
    rw [Fl.fin_div _ _ (by norm_num), Fl.fin_mul, Fl.fin_mul]
    unfold Fl.minimum
    norm_num [Fl.isNaN]

/-- The angle between the two lines is an angle on paper, with both axes drawn in their units: in other units it is another angle -/
theorem C225_angle_violated :
    twoLineTheta (.fin 1) (.fin 0) = .fin (Real.pi / 4) ∧
    twoLineTheta (times (√3) (.fin 1)) (times (√3) (.fin 0)) = .fin (Real.pi / 3) ∧ Real.pi / 4 ≠ Real.pi / 3 := by
  refine ⟨?_, ?_, ?_⟩
  · unfold twoLineTheta Fl.arctan
    simp only [Real.arctan_one, Real.arctan_zero, Fl.fin_sub, sub_zero]
  · unfold twoLineTheta Fl.arctan
    simp only [times_fin, one_mul, zero_mul, Real.arctan_zero, Fl.fin_sub, sub_zero]
    rw [Real.arctan_eq_of_tan_eq Real.tan_pi_div_three]
    constructor <;> linarith [Real.pi_pos]
  · have := Real.pi_pos
    intro h; linarith

/-- With no abscissa below the hinge its first slope is guessed as the number 1 in any units -/
theorem C225_guess_point_violated (g h : Fl) (x y : List Fl) (h4 : 4 ≤ x.length) (hlow : ¬ Fl.lt (npMin x) g)
    (hb : (selBy (fun t => Fl.lt t g) x x).length < 2) (k c : ℝ) (hk : 0 < k) (hc : 0 < c) :
    (hingeAtPointP0 (g, h) x y).map (·[2]?) = .ok (some (.fin 1)) ∧
    (hingeAtPointP0 (times k g, times c h) (inUnits k x) (inUnits c y)).map (·[2]?) = .ok (some (.fin 1)) := by
  have l1 := selBy_units hk hk (fun t => Fl.lt t g) (fun t => Fl.lt t (times k g)) (fun t => times_lt hk t g) x x
  constructor
  · unfold hingeAtPointP0
    simp only [if_neg (show ¬ x.length < 4 by omega), if_neg (show ¬ 2 ≤ (selBy (fun t => Fl.lt t g) x x).length by omega), if_neg hlow]
    rfl
  · unfold hingeAtPointP0
    simp only [length_units hk, l1, npMin_units hk, times_lt hk, if_neg (show ¬ x.length < 4 by omega),
      if_neg (show ¬ 2 ≤ (selBy (fun t => Fl.lt t g) x x).length by omega), if_neg hlow]
    rfl

/-! ### examples -/

/-- kilometres to metres, seconds to milliseconds: 3 km/s at 2 s with an offset of 1 km -/
example : lineF (times 1000 (.fin 2)) (times (1000 / 1000) (.fin 3)) (times 1000 (.fin 1)) = .fin 7000 := by
  rw [(C225_lines (k := 1000) (c := 1000) (by norm_num) (by norm_num) (.fin 2) (.fin 3) (.fin 1) .nan).1]
  unfold lineF
  simp only [Fl.fin_mul, Fl.fin_add, times_fin]
  norm_num

/-- a Gaussian guess from three measurements with a missing value, in other units -/
example : gaussianP0 (inUnits 10 [.fin 1, .fin 2, .fin 3]) (inUnits 5 [.fin 1, .nan, .fin 1]) =
    .ok [.nan, .nan, .nan] := by
  rw [(C225_guess_peaks (k := 10) (c := 5) (by norm_num) (by norm_num) _ _).1]
  simp [gaussianP0, wMean, wVar, npSum, npMax, convert, Except.map, Fl.maximum, Fl.isNaN, Fl.sumAll]
  exact ⟨rfl, rfl⟩

/-- and of three finite measurements: centre 2, height 2 become 20 and 10 -/
example : ∃ σ, gaussianP0 (inUnits 10 [.fin 1, .fin 2, .fin 3]) (inUnits 5 [.fin 1, .fin 2, .fin 1]) = .ok [.fin 20, times 10 σ, .fin 10] := by
  rw [(C225_guess_peaks (k := 10) (c := 5) (by norm_num) (by norm_num) _ _).1]
  refine ⟨Fl.sqrt (wVar [.fin 1, .fin 2, .fin 3] [.fin 1, .fin 2, .fin 1]), ?_⟩
  have h1 : wMean [.fin 1, .fin 2, .fin 3] [.fin 1, .fin 2, .fin 1] = .fin 2 := by
    simp only [wMean, npSum, List.zipWith, Fl.sumAll, List.foldl, Fl.fin_mul, Fl.fin_add, List.foldr]
    have z : (0 : Fl) = .fin 0 := rfl
    simp only [z, Fl.fin_add]
    rw [Fl.fin_div _ _ (by norm_num)]
    norm_num
  have h2 : npMax [.fin 1, .fin 2, .fin 1] = .fin 2 := by
    simp only [npMax, List.foldl, Fl.maximum, Fl.isNaN, or_self, if_false, Fl.le_fin]
    norm_num
  unfold gaussianP0
  rw [if_neg (by simp), h1, h2]
  simp only [Except.map, convert, List.zipWith, times_fin]
  norm_num

end
end SW
