import Verif.Props.FitUnits

/-!
# Property C226: fits and the zero of the abscissa

The abscissas counted from another zero: every one increased by `t` (a date from another epoch, a distance from another place).  A curve,
its positions increased by `t`, is the same curve; and the initial guess should move with the data.
-/

set_option linter.unusedSectionVars false

namespace SW
noncomputable section
open Classical

/-! ### Specification -/

/-- a value counted from another zero -/
def plus (t : ℝ) (x : Fl) : Fl := x + .fin t

/-- all values counted from another zero -/
def shifted (t : ℝ) (l : List Fl) : List Fl := l.map (plus t)

/-- parameters moved, each by its own amount -/
def move (ts : List ℝ) (p : List Fl) : List Fl := List.zipWith plus ts p

/-! ### numpy and a shift -/

section
variable (t : ℝ)

theorem plus_fin (a : ℝ) : plus t (.fin a) = .fin (a + t) := rfl

theorem plus_zero (x : Fl) : plus 0 x = x := by
  cases x <;> try rfl
  rw [plus_fin, add_zero]

theorem plus_sub (x y : Fl) : plus t x - plus t y = x - y := by
  cases x <;> cases y <;> try rfl
  rw [plus_fin, plus_fin, Fl.fin_sub, Fl.fin_sub]; congr 1; ring

theorem plus_sub_right (x y : Fl) : plus t x - y = plus t (x - y) := by
  cases x <;> cases y <;> try rfl
  rw [plus_fin, Fl.fin_sub, Fl.fin_sub, plus_fin]; congr 1; ring

theorem plus_lt (x y : Fl) : Fl.lt (plus t x) (plus t y) ↔ Fl.lt x y := by
  cases x <;> cases y <;> try exact Iff.rfl
  exact add_lt_add_iff_right t

theorem plus_le (x y : Fl) : Fl.le (plus t x) (plus t y) ↔ Fl.le x y := by
  cases x <;> cases y <;> try exact Iff.rfl
  exact add_le_add_iff_right t

theorem plus_isNaN (x : Fl) : (plus t x).isNaN ↔ x.isNaN := by cases x <;> exact Iff.rfl

theorem plus_minimum (x y : Fl) : Fl.minimum (plus t x) (plus t y) = plus t (Fl.minimum x y) := by
  unfold Fl.minimum
  rw [plus_isNaN, plus_isNaN]
  simp only [plus_le]
  split_ifs <;> rfl

theorem plus_maximum (x y : Fl) : Fl.maximum (plus t x) (plus t y) = plus t (Fl.maximum x y) := by
  unfold Fl.maximum
  rw [plus_isNaN, plus_isNaN]
  simp only [plus_le]
  split_ifs <;> rfl

theorem plus_mid (x y : Fl) : (plus t x + plus t y) / .fin 2 = plus t ((x + y) / .fin 2) := by
  have hp : Fl.pinf / Fl.fin 2 = .pinf := by
    show (if (2 : ℝ) < 0 then Fl.ninf else Fl.pinf) = _
    rw [if_neg (by norm_num)]
  have hn : Fl.ninf / Fl.fin 2 = .ninf := by
    show (if (2 : ℝ) < 0 then Fl.pinf else Fl.ninf) = _
    rw [if_neg (by norm_num)]
  cases x <;> cases y <;> first
    | rfl
    | (rw [plus_fin, plus_fin, Fl.fin_add, Fl.fin_add, Fl.fin_div _ _ two_ne_zero, Fl.fin_div _ _ two_ne_zero, plus_fin]; congr 1; ring)
    | (show Fl.pinf / Fl.fin 2 = plus t (Fl.pinf / Fl.fin 2); rw [hp]; rfl)
    | (show Fl.ninf / Fl.fin 2 = plus t (Fl.ninf / Fl.fin 2); rw [hn]; rfl)

theorem npMax_shift (l : List Fl) : npMax (shifted t l) = plus t (npMax l) := by
  have : ∀ (l : List Fl) (a : Fl), (shifted t l).foldl Fl.maximum (plus t a) = plus t (l.foldl Fl.maximum a) := by
    intro l
    induction l with
    | nil => intro a; rfl
    | cons b l ih => intro a; show (shifted t l).foldl _ (Fl.maximum (plus t a) (plus t b)) = _; rw [plus_maximum, ih]; rfl
  cases l with
  | nil => rfl
  | cons a l => exact this l a

theorem npMin_shift (l : List Fl) : npMin (shifted t l) = plus t (npMin l) := by
  have : ∀ (l : List Fl) (a : Fl), (shifted t l).foldl Fl.minimum (plus t a) = plus t (l.foldl Fl.minimum a) := by
    intro l
    induction l with
    | nil => intro a; rfl
    | cons b l ih => intro a; show (shifted t l).foldl _ (Fl.minimum (plus t a) (plus t b)) = _; rw [plus_minimum, ih]; rfl
  cases l with
  | nil => rfl
  | cons a l => exact this l a

theorem length_shift (l : List Fl) : (shifted t l).length = l.length := by simp [shifted]

theorem getD_shift (l : List Fl) (i : ℕ) : (shifted t l).getD i .nan = plus t (l.getD i .nan) := by
  unfold shifted
  rw [List.getD_eq_getElem?_getD, List.getD_eq_getElem?_getD, List.getElem?_map]
  cases l[i]? <;> rfl

theorem npMedian_shift (l : List Fl) : npMedian (shifted t l) = plus t (npMedian l) := by
  unfold npMedian
  have h1 : (shifted t l = [] ∨ ∃ a ∈ shifted t l, a.isNaN) ↔ (l = [] ∨ ∃ a ∈ l, a.isNaN) := by
    unfold shifted
    simp only [List.map_eq_nil_iff, List.mem_map, exists_exists_and_eq_and, plus_isNaN]
  have h3 : (shifted t l).mergeSort (fun a b => decide (Fl.le a b)) = shifted t (l.mergeSort (fun a b => decide (Fl.le a b))) := by
    unfold shifted
    rw [List.map_mergeSort]
    intro a _ b _
    simp only [plus_le]
  simp only [h1, length_shift, h3, getD_shift]
  split
  · rfl
  · split
    · rfl
    · rw [plus_mid]

theorem npNanMedian_shift (l : List Fl) : npNanMedian (shifted t l) = plus t (npNanMedian l) := by
  unfold npNanMedian
  rw [← npMedian_shift]
  congr 1
  unfold shifted
  rw [List.filter_map]
  congr 1
  apply List.filter_congr
  intro a _
  simp [plus_isNaN]

theorem ediff1d_shift : ∀ l : List Fl, ediff1d (shifted t l) = ediff1d l
  | [] => rfl
  | [_] => rfl
  | a :: b :: l => by
    show (plus t b - plus t a) :: ediff1d (shifted t (b :: l)) = (b - a) :: ediff1d (b :: l)
    rw [ediff1d_shift (b :: l), plus_sub]

theorem compress_shift (m : List Bool) (l : List Fl) : compress m (shifted t l) = shifted t (compress m l) := by
  induction m generalizing l with
  | nil => cases l <;> rfl
  | cons b m ih =>
    cases l with
    | nil => cases b <;> rfl
    | cons a l =>
      cases b
      · exact ih l
      · show plus t a :: compress m (shifted t l) = plus t a :: shifted t (compress m l)
        rw [ih]

theorem mask_shift (p p' : Fl → Prop) (hp : ∀ a, p' (plus t a) ↔ p a) (x : List Fl) :
    (shifted t x).map (fun a => decide (p' a)) = x.map (fun a => decide (p a)) := by
  unfold shifted
  rw [List.map_map]
  apply List.map_congr_left
  intro a _
  simp only [Function.comp_apply, hp]

/-- picking other values by the moved abscissas -/
theorem selBy_shift (p p' : Fl → Prop) (hp : ∀ a, p' (plus t a) ↔ p a) (x a : List Fl) : selBy p' (shifted t x) a = selBy p x a := by
  unfold selBy; rw [mask_shift t p p' hp]

/-- picking the moved abscissas themselves -/
theorem selBy_shift' (p p' : Fl → Prop) (hp : ∀ a, p' (plus t a) ↔ p a) (x a : List Fl) :
    selBy p' (shifted t x) (shifted t a) = shifted t (selBy p x a) := by
  unfold selBy; rw [mask_shift t p p' hp, compress_shift]

theorem zip_shift {s : ℝ} (f f' : Fl → Fl → Fl) (hf : ∀ a b, f' (plus t a) b = plus s (f a b)) :
    ∀ x y : List Fl, List.zipWith f' (shifted t x) y = shifted s (List.zipWith f x y)
  | [], _ => rfl
  | _ :: _, [] => rfl
  | a :: x, b :: y => by
    show f' (plus t a) b :: List.zipWith f' (shifted t x) y = plus s (f a b) :: shifted s (List.zipWith f x y)
    rw [hf, zip_shift f f' hf x y]

theorem xcross_shift (m : Fl) (x y : List Fl) :
    List.zipWith (fun xi yi => xi - yi / m) (shifted t x) y = shifted t (List.zipWith (fun xi yi => xi - yi / m) x y) :=
  zip_shift t _ _ (fun a b => plus_sub_right t a (b / m)) x y

/-! ### Part A: the curves -/

/-- Every curve given by positions on the abscissa is the same curve when positions and abscissas are moved together. -/
theorem C226_curves (x x0 x1 x2 m m1 m2 h xh yh mu sigma A n y0 y1 theta s : Fl) (b : ℝ) :
    lineXF (plus t x) m (plus t x0) = lineXF x m x0 ∧
    twoLine (plus t x) (plus t x1) (plus t x2) m1 m2 = twoLine x x1 x2 m1 m2 ∧
    hingeMin (plus t x) m1 (plus t x1) (plus t x2) (plus t h) = hingeMin x m1 x1 x2 h ∧
    hingeMax (plus t x) m1 (plus t x1) (plus t x2) (plus t h) = hingeMax x m1 x1 x2 h ∧
    hingeAtPoint (plus t x) (plus t xh) yh m1 m2 = hingeAtPoint x xh yh m1 m2 ∧
    hingeSaturation (plus t x) (plus t xh) yh (plus t x1) m2 = hingeSaturation x xh yh x1 m2 ∧
    saturation (plus t x) (plus t x1) (plus t xh) s theta = saturation x x1 xh s theta ∧
    heavySide (plus t x) (plus t x0) y0 y1 = heavySide x x0 y0 y1 ∧
    gaussianF (plus t x) (plus t mu) sigma A = gaussianF x mu sigma A ∧
    gaussianNormF (plus t x) (plus t mu) sigma n = gaussianNormF x mu sigma n ∧
    moyalF (plus t x) (plus t mu) sigma A = moyalF x mu sigma A ∧
    gaussianPlusHS (plus t x) (plus t x0) y0 y1 (plus t mu) sigma A = gaussianPlusHS x x0 y0 y1 mu sigma A ∧
    gaussianTimesHS (plus t x) (plus t x0) (plus t mu) sigma A = gaussianTimesHS x x0 mu sigma A ∧
    gaussianTimesPlusHS (plus t x) (plus t x0) y1 (plus t mu) sigma A = gaussianTimesPlusHS x x0 y1 mu sigma A ∧
    powerLawOffCenterF (plus t x) A b (plus t x0) = powerLawOffCenterF x A b x0 := by
  have e1 : satM2 (plus t x1) (plus t xh) s theta = satM2 x1 xh s theta := by unfold satM2 satM1; rw [plus_sub]
  refine ⟨?_, ?_, ?_, ?_, ?_, ?_, ?_, ?_, ?_, ?_, ?_, ?_, ?_, ?_, ?_⟩
  · unfold lineXF; rw [plus_sub]
  · unfold twoLine; rw [plus_sub, plus_sub]
  · unfold hingeMin hingeM2; rw [plus_sub, plus_sub, plus_sub, plus_sub]
  · unfold hingeMax hingeM2; rw [plus_sub, plus_sub, plus_sub, plus_sub]
  · unfold hingeAtPoint; rw [plus_sub_right t xh, plus_sub_right t xh, plus_sub, plus_sub]
  · unfold hingeSaturation
    by_cases hb : Fl.lt (.fin (1 / 10 ^ 15)) m2.abs
    · simp only [if_pos hb]; rw [plus_sub, plus_sub, plus_sub_right t xh, plus_sub]
    · simp only [if_neg hb]; rw [plus_sub, plus_sub]
  · unfold saturation satX2; rw [e1, plus_sub_right t xh, plus_sub, plus_sub]; unfold satM1; rw [plus_sub]
  · unfold heavySide; rw [plus_sub]
  · unfold gaussianF; rw [plus_sub]
  · unfold gaussianNormF; rw [plus_sub]
  · unfold moyalF; rw [plus_sub]
  · unfold gaussianPlusHS gaussianF; rw [plus_sub, plus_sub]
  · unfold gaussianTimesHS gaussianF; rw [plus_sub, plus_sub]
  · unfold gaussianTimesPlusHS gaussianF; rw [plus_sub, plus_sub, plus_sub]
  · unfold powerLawOffCenterF; rw [plus_sub]

/-- A line and an exponential keep their slope and rate; the intercept and the amplitude at the new zero are the values of the old curve
there. -/
theorem C226_at_zero (x m b r A d : ℝ) :
    lineF (plus t (.fin x)) (.fin m) (lineF (.fin (-t)) (.fin m) (.fin b)) = lineF (.fin x) (.fin m) (.fin b) ∧
    exponentialF (plus t (.fin x)) (.fin r) (exponentialF (.fin (-t)) (.fin r) (.fin A)) = exponentialF (.fin x) (.fin r) (.fin A) ∧
    exponentialPlusCF (plus t (.fin x)) (.fin r) (exponentialF (.fin (-t)) (.fin r) (.fin A)) (.fin d)
      = exponentialPlusCF (.fin x) (.fin r) (.fin A) (.fin d) := by
  have e : exponentialF (plus t (.fin x)) (.fin r) (exponentialF (.fin (-t)) (.fin r) (.fin A)) = exponentialF (.fin x) (.fin r) (.fin A) := by
    unfold exponentialF
    simp only [plus_fin, Fl.fin_mul, Fl.fin_neg, Fl.exp]
    congr 1
    rw [mul_assoc, ← Real.exp_add]
    congr 2; ring
  refine ⟨?_, e, ?_⟩
  · unfold lineF
    simp only [plus_fin, Fl.fin_mul, Fl.fin_add]
    congr 1; ring
  · unfold exponentialPlusCF
    unfold exponentialF at *
    rw [e]

/-! ### Part B: the initial guesses -/

theorem estimate_shift (p p' : Fl → Prop) (hp : ∀ a, p' (plus t a) ↔ p a) (x y : List Fl) :
    estimateLine p' (shifted t x) y = (plus t (estimateLine p x y).1, (estimateLine p x y).2) := by
  unfold estimateLine
  simp only [selBy_shift' t p p' hp, selBy_shift t p p' hp x y, ediff1d_shift, xcross_shift, npNanMedian_shift]

theorem argmin_shift (g : Fl) (x : List Fl) :
    (shifted t x).map (fun a => (a - plus t g).abs) = x.map (fun a => (a - g).abs) := by
  unfold shifted
  rw [List.map_map]
  apply List.map_congr_left
  intro a _
  simp only [Function.comp_apply, plus_sub]

/-- Two lines, saturation and hinges: every guessed position moves with the data, slopes, heights and angles stay; for all data. -/
theorem C226_guess_lines (g h h' : Fl) (x y : List Fl) :
    twoLineP0 (plus t g) (shifted t x) y = (twoLineP0 g x y).map (move [t, t, 0, 0]) ∧
    saturationP0 (plus t g, h') (shifted t x) y = (saturationP0 (g, h) x y).map (move [t, t, 0, 0]) ∧
    hingeP0 (plus t g) (shifted t x) y = (hingeP0 g x y).map (move [0, t, t, t]) ∧
    hingeAtPointP0 (plus t g, h') (shifted t x) y = (hingeAtPointP0 (g, h) x y).map (move [t, 0, 0, 0]) := by
  have e1 := estimate_shift t (fun a => Fl.le a g) (fun a => Fl.le a (plus t g)) (fun a => plus_le t a g) x y
  have e2 := estimate_shift t (fun a => ¬ Fl.le a g) (fun a => ¬ Fl.le a (plus t g)) (fun a => not_congr (plus_le t a g)) x y
  have l1 := selBy_shift' t (fun a => Fl.lt a g) (fun a => Fl.lt a (plus t g)) (fun a => plus_lt t a g) x x
  have l2 := selBy_shift t (fun a => Fl.lt a g) (fun a => Fl.lt a (plus t g)) (fun a => plus_lt t a g) x y
  have l3 := selBy_shift' t (fun a => Fl.le g a) (fun a => Fl.le (plus t g) a) (fun a => plus_le t g a) x x
  have l4 := selBy_shift t (fun a => Fl.le g a) (fun a => Fl.le (plus t g) a) (fun a => plus_le t g a) x y
  refine ⟨?_, ?_, ?_, ?_⟩
  · unfold twoLineP0
    simp only [length_shift, e1, e2]
    split_ifs <;> simp [Except.map, move, plus_zero]
  · unfold saturationP0
    simp only [length_shift, e1, e2, plus_sub]
    split_ifs <;> simp [Except.map, move, plus_zero]
  · unfold hingeP0
    simp only [l1, l2, l3, l4, length_shift, ediff1d_shift, npMax_shift, npMin_shift, plus_sub, xcross_shift, npNanMedian_shift,
      npMedian_shift]
    split_ifs <;> simp [Except.map, move, plus_zero]
  · unfold hingeAtPointP0
    simp only [l1, l2, l3, l4, length_shift, ediff1d_shift, npMin_shift, plus_sub, argmin_shift, plus_lt]
    split_ifs <;> simp [Except.map, move, plus_zero]

/-- The step -/
theorem C226_guess_step (g0 gy0 gy1 : Option Fl) (x y : List Fl) :
    heavySideP0 (g0.map (plus t)) gy0 gy1 (shifted t x) y = (heavySideP0 g0 gy0 gy1 x y).map (move [t, 0, 0]) := by
  have none' : ∀ (a b : Option Fl) (u v : List Fl), heavySideP0 none a b u v = heavySideP0 (some ((npMax u + npMin u) / .fin 2)) a b u v :=
    fun _ _ _ _ => rfl
  have main : ∀ X, heavySideP0 (some (plus t X)) gy0 gy1 (shifted t x) y = (heavySideP0 (some X) gy0 gy1 x y).map (move [t, 0, 0]) := by
    intro X
    unfold heavySideP0
    have l1 := selBy_shift t (fun a => Fl.lt X a) (fun a => Fl.lt (plus t X) a) (fun a => plus_lt t X a) x y
    have l2 := selBy_shift t (fun a => Fl.lt a X) (fun a => Fl.lt a (plus t X)) (fun a => plus_lt t a X) x y
    simp only [length_shift, l1, l2]
    split_ifs <;> cases gy0 <;> cases gy1 <;> simp [Except.map, move, plus_zero]
  cases g0 with
  | some X => exact main X
  | none =>
    show heavySideP0 none _ _ _ _ = _
    rw [none', none', npMax_shift, npMin_shift, plus_mid]
    exact main _

theorem lineGuess_shift (x y : List Fl) (m : ℝ) (hm : (lineGuess x y).1 = .fin m) :
    lineGuess (shifted t x) y = (.fin m, plus (m * t) (lineGuess x y).2) := by
  have hm' : npMedian (List.zipWith (· / ·) (ediff1d y) (ediff1d x)) = .fin m := hm
  unfold lineGuess
  simp only [ediff1d_shift, hm']
  rw [zip_shift t (s := m * t) (fun xi yi => .fin m * xi - yi) _ ?_, npMedian_shift]
  intro a b
  have : Fl.fin m * plus t a = plus (m * t) (.fin m * a) := by
    cases a <;> try rfl
    · show Fl.infMul true m = plus _ (Fl.infMul true m)
      unfold Fl.infMul; split_ifs <;> rfl
    · show Fl.infMul false m = plus _ (Fl.infMul false m)
      unfold Fl.infMul; split_ifs <;> rfl
    · rw [plus_fin, Fl.fin_mul, Fl.fin_mul, plus_fin, mul_add]
  rw [this, plus_sub_right]

/-- Straight lines: the slope stays, but the guessed intercepts move the wrong way.  A line through the data moved by `t` has its
`y`-intercept lowered by `m t` and its zero raised by `t`; the guesses are raised by `m t` and lowered by `t`. -/
theorem C226_guess_intercepts_violated (x y : List Fl) (m : ℝ) (hm : (lineGuess x y).1 = .fin m) (h0 : m ≠ 0) :
    lineP0 (shifted t x) y = (lineP0 x y).map (Option.map (move [0, m * t])) ∧
    lineXP0 (shifted t x) y = (lineXP0 x y).map (Option.map (move [0, -t])) := by
  have hd : dxOk (shifted t x) ↔ dxOk x := by unfold dxOk; rw [ediff1d_shift]
  constructor
  · unfold lineP0
    simp only [length_shift, hd, lineGuess_shift t x y m hm, hm]
    split_ifs <;> simp [Except.map, move, plus_zero]
  · unfold lineXP0
    simp only [length_shift, hd, lineGuess_shift t x y m hm, hm]
    have e : -(plus (m * t) (lineGuess x y).2) / .fin m = plus (-t) (-(lineGuess x y).2 / .fin m) := by
      generalize (lineGuess x y).2 = b
      have hp : ∀ (a : ℝ) (p q : Fl), (p = .pinf ∨ p = .ninf) → (q = .pinf ∨ q = .ninf) →
          (if a < 0 then p else q) = plus (-t) (if a < 0 then p else q) := by
        intro a p q hp hq
        rcases hp with rfl | rfl <;> rcases hq with rfl | rfl <;> split_ifs <;> rfl
      cases b with
      | nan => rfl
      | pinf => exact hp m .pinf .ninf (Or.inl rfl) (Or.inr rfl)
      | ninf => exact hp m .ninf .pinf (Or.inr rfl) (Or.inl rfl)
      | fin b =>
        rw [plus_fin, Fl.fin_neg, Fl.fin_neg, Fl.fin_div _ _ h0, Fl.fin_div _ _ h0, plus_fin]
        congr 1; field_simp; ring
    rw [e]
    split_ifs <;> simp [Except.map, move, plus_zero]

end

/-! ### peaks: finite data with a non-zero total -/

/-- the abscissas of a list of measured points -/
def xOf (p : List (ℝ × ℝ)) : List Fl := p.map (fun q => .fin q.1)
/-- the ordinates of a list of measured points -/
def yOf (p : List (ℝ × ℝ)) : List Fl := p.map (fun q => .fin q.2)
/-- the total of the ordinates -/
def total (p : List (ℝ × ℝ)) : ℝ := (p.map (·.2)).sum

theorem npSum_pts (p : List (ℝ × ℝ)) (f : ℝ × ℝ → ℝ) : npSum (p.map (fun q => .fin (f q))) = .fin (p.map f).sum := by
  induction p with
  | nil => rfl
  | cons q p ih =>
    show Fl.fin (f q) + npSum (p.map (fun q => Fl.fin (f q))) = _
    rw [ih, Fl.fin_add, List.map_cons, List.sum_cons]

theorem zip_fin (p : List (ℝ × ℝ)) (f : Fl → Fl → Fl) : List.zipWith f (xOf p) (yOf p) = p.map (fun q => f (.fin q.1) (.fin q.2)) := by
  unfold xOf yOf
  rw [List.zipWith_map, List.zipWith_self]

theorem wMean_fin (p : List (ℝ × ℝ)) (h : total p ≠ 0) : wMean (xOf p) (yOf p) = .fin ((p.map (fun q => q.1 * q.2)).sum / total p) := by
  unfold wMean
  rw [zip_fin]
  simp only [Fl.fin_mul]
  rw [npSum_pts p (fun q => q.1 * q.2)]
  unfold yOf
  rw [npSum_pts p (fun q => q.2)]
  exact Fl.fin_div _ _ h

/-- points moved along the abscissa -/
def movedBy (t : ℝ) (p : List (ℝ × ℝ)) : List (ℝ × ℝ) := p.map (fun q => (q.1 + t, q.2))

theorem total_moved (t : ℝ) (p : List (ℝ × ℝ)) : total (movedBy t p) = total p := by
  unfold total movedBy; rw [List.map_map]; rfl

theorem xOf_moved (t : ℝ) (p : List (ℝ × ℝ)) : xOf (movedBy t p) = shifted t (xOf p) := by
  unfold xOf movedBy shifted; rw [List.map_map, List.map_map]; rfl

theorem yOf_moved (t : ℝ) (p : List (ℝ × ℝ)) : yOf (movedBy t p) = yOf p := by
  unfold yOf movedBy; rw [List.map_map]; rfl

theorem wMean_shift (t : ℝ) (p : List (ℝ × ℝ)) (h : total p ≠ 0) : wMean (shifted t (xOf p)) (yOf p) = plus t (wMean (xOf p) (yOf p)) := by
  have := wMean_fin (movedBy t p) (by rwa [total_moved])
  rw [xOf_moved, yOf_moved, total_moved] at this
  rw [this, wMean_fin p h, plus_fin]
  congr 1
  have e : ((movedBy t p).map (fun q => q.1 * q.2)).sum = (p.map (fun q => q.1 * q.2)).sum + t * total p := by
    unfold movedBy total
    induction p with
    | nil => simp
    | cons q p ih =>
      have hih : ((p.map (fun q : ℝ × ℝ => (q.1 + t, q.2))).map (fun q => q.1 * q.2)).sum = (p.map (fun q => q.1 * q.2)).sum + t * (p.map (·.2)).sum := by
        clear ih h this
        induction p with
        | nil => simp
        | cons q p ih => simp only [List.map_cons, List.sum_cons] at *; rw [ih]; ring
      simp only [List.map_cons, List.sum_cons] at *
      rw [hih]; ring
  rw [e]
  field_simp

theorem wVar_shift (t : ℝ) (p : List (ℝ × ℝ)) (h : total p ≠ 0) : wVar (shifted t (xOf p)) (yOf p) = wVar (xOf p) (yOf p) := by
  unfold wVar
  rw [wMean_shift t p h]
  congr 2
  generalize wMean (xOf p) (yOf p) = M
  generalize xOf p = x
  generalize yOf p = y
  induction x generalizing y with
  | nil => rfl
  | cons a x ih =>
    cases y with
    | nil => rfl
    | cons b y =>
      show Fl.sq (plus t a - plus t M) * b :: List.zipWith _ (shifted t x) y = _
      rw [ih, plus_sub]; rfl

/-- Gaussians and the Moyal curve -/
theorem C226_guess_peaks (t : ℝ) (p : List (ℝ × ℝ)) (h : total p ≠ 0) :
    gaussianP0 (xOf (movedBy t p)) (yOf (movedBy t p)) = (gaussianP0 (xOf p) (yOf p)).map (move [t, 0, 0]) ∧
    gaussianNormP0 (xOf (movedBy t p)) (yOf (movedBy t p)) = (gaussianNormP0 (xOf p) (yOf p)).map (move [t, 0, 0]) ∧
    moyalP0 (xOf (movedBy t p)) (yOf (movedBy t p)) = (moyalP0 (xOf p) (yOf p)).map (move [t, 0, 0]) := by
  rw [xOf_moved, yOf_moved]
  refine ⟨?_, ?_, ?_⟩
  · unfold gaussianP0
    rw [length_shift, wMean_shift t p h, wVar_shift t p h]
    split_ifs <;> simp [Except.map, move, plus_zero]
  · unfold gaussianNormP0
    rw [length_shift, wMean_shift t p h, wVar_shift t p h]
    split_ifs <;> simp [Except.map, move, plus_zero]
  · unfold moyalP0
    rw [length_shift, wMean_shift t p h, wVar_shift t p h]
    split_ifs <;> simp [Except.map, move, plus_zero]

/-- the points above a position -/
def above (g : ℝ) (p : List (ℝ × ℝ)) : List (ℝ × ℝ) := p.filter (fun q => decide (g < q.1))

theorem sel_above (g : ℝ) (p : List (ℝ × ℝ)) :
    selBy (fun a => Fl.lt (.fin g) a) (xOf p) (xOf p) = xOf (above g p) ∧ selBy (fun a => Fl.lt (.fin g) a) (xOf p) (yOf p) = yOf (above g p) := by
  induction p with
  | nil => exact ⟨rfl, rfl⟩
  | cons q p ih =>
    have hb : decide (Fl.lt (.fin g) (.fin q.1)) = decide (g < q.1) := by simp only [Fl.lt_fin]
    obtain ⟨h1, h2⟩ := ih
    unfold selBy at *
    unfold above
    by_cases hq : g < q.1
    · rw [List.filter_cons_of_pos (by simpa using hq)]
      constructor
      · show compress (decide (Fl.lt (.fin g) (.fin q.1)) :: _) (Fl.fin q.1 :: _) = _
        rw [hb, decide_eq_true hq]
        show Fl.fin q.1 :: compress _ (xOf p) = _
        exact congrArg (Fl.fin q.1 :: ·) h1
      · show compress (decide (Fl.lt (.fin g) (.fin q.1)) :: _) (Fl.fin q.2 :: _) = _
        rw [hb, decide_eq_true hq]
        show Fl.fin q.2 :: compress _ (yOf p) = _
        exact congrArg (Fl.fin q.2 :: ·) h2
    · rw [List.filter_cons_of_neg (by simpa using hq)]
      constructor
      · show compress (decide (Fl.lt (.fin g) (.fin q.1)) :: _) (Fl.fin q.1 :: _) = _
        rw [hb, decide_eq_false hq]
        exact h1
      · show compress (decide (Fl.lt (.fin g) (.fin q.1)) :: _) (Fl.fin q.2 :: _) = _
        rw [hb, decide_eq_false hq]
        exact h2

/-- Composites whose cut is given by the user -/
theorem C226_guess_composites (t g : ℝ) (p : List (ℝ × ℝ)) (h : total (above g p) ≠ 0) :
    gaussTimesP0 (.fin (g + t)) (xOf (movedBy t p)) (yOf (movedBy t p)) = (gaussTimesP0 (.fin g) (xOf p) (yOf p)).map (move [t, t, 0, 0]) ∧
    gaussTimesPlusP0 (.fin (g + t)) (xOf (movedBy t p)) (yOf (movedBy t p))
      = (gaussTimesPlusP0 (.fin g) (xOf p) (yOf p)).map (move [t, 0, t, 0, 0]) := by
  rw [xOf_moved, yOf_moved, ← plus_fin]
  have l1 := selBy_shift' t (fun a => Fl.lt (.fin g) a) (fun a => Fl.lt (plus t (.fin g)) a) (fun a => plus_lt t (.fin g) a) (xOf p) (xOf p)
  have l2 := selBy_shift t (fun a => Fl.lt (.fin g) a) (fun a => Fl.lt (plus t (.fin g)) a) (fun a => plus_lt t (.fin g) a) (xOf p) (yOf p)
  have l3 := selBy_shift t (fun a => ¬ Fl.lt (.fin g) a) (fun a => ¬ Fl.lt (plus t (.fin g)) a) (fun a => not_congr (plus_lt t (.fin g) a)) (xOf p) (yOf p)
  rw [(sel_above g p).1] at l1
  rw [(sel_above g p).2] at l2
  constructor
  · unfold gaussTimesP0
    simp only [length_shift, l1, l2, (sel_above g p).1, (sel_above g p).2, wMean_shift t _ h, wVar_shift t _ h]
    split_ifs <;> simp [Except.map, move, plus_zero]
  · unfold gaussTimesPlusP0
    simp only [length_shift, l1, l2, l3, (sel_above g p).1, (sel_above g p).2, wMean_shift t _ h, wVar_shift t _ h]
    split_ifs <;> simp [Except.map, move, plus_zero]

/-- The Gaussian plus step guesses its cut at three quarters of the mean abscissa, wherever the zero is: moving the data by `t` moves the
cut by `3t/4` only; data around a negative mean are cut above their mean. -/
theorem C226_guess_cut_violated (p : List (ℝ × ℝ)) (h6 : 6 ≤ p.length) (h : total p ≠ 0) :
    ∃ mean : ℝ, wMean (xOf p) (yOf p) = .fin mean ∧
      (gaussPlusP0 (xOf p) (yOf p)).map (·[0]?) = .ok (some (.fin (3 / 4 * mean))) ∧
      (∀ t, (gaussPlusP0 (xOf (movedBy t p)) (yOf (movedBy t p))).map (·[0]?) = .ok (some (.fin (3 / 4 * mean + 3 / 4 * t)))) ∧
      (mean < 3 / 4 * mean ↔ mean < 0) := by
  refine ⟨_, wMean_fin p h, ?_, ?_, ?_⟩
  · unfold gaussPlusP0
    have hl : ¬ (xOf p).length < 6 := by unfold xOf; rw [List.length_map]; omega
    rw [if_neg hl]
    simp only [wMean_fin p h, Except.map, Fl.fin_mul, List.getElem?_cons_zero]
    norm_num
  · intro t
    have hl : ¬ (xOf (movedBy t p)).length < 6 := by unfold xOf movedBy; rw [List.length_map, List.length_map]; omega
    have := wMean_shift t p h
    rw [← xOf_moved, wMean_fin p h, plus_fin] at this
    rw [yOf_moved]
    unfold gaussPlusP0
    rw [if_neg hl]
    simp only [this, Except.map, Fl.fin_mul, List.getElem?_cons_zero]
    congr 3
    ring
  · constructor <;> intro h1 <;> linarith

/-! ### examples -/

/-- five points of the line `y = 2 x`, counted from 1970 or from 2000: the guess of the zero goes from 0 to -30 instead of 30 -/
example : (lineXP0 (shifted 30 [.fin 1, .fin 2, .fin 3]) [.fin 2, .fin 4, .fin 6]) =
    (lineXP0 [.fin 1, .fin 2, .fin 3] [.fin 2, .fin 4, .fin 6]).map (Option.map (move [0, -30])) := by
  refine (C226_guess_intercepts_violated 30 _ _ 2 ?_ two_ne_zero).2
  simp only [lineGuess, ediff1d, List.zipWith, Fl.fin_sub]
  rw [Fl.fin_div _ _ (by norm_num), Fl.fin_div _ _ (by norm_num)]
  have hs : [Fl.fin ((4 - 2) / (2 - 1)), Fl.fin ((6 - 4) / (3 - 2))].mergeSort (fun a b => decide (Fl.le a b))
      = [Fl.fin ((4 - 2) / (2 - 1)), Fl.fin ((6 - 4) / (3 - 2))] := by
    apply List.mergeSort_of_pairwise
    simp only [List.pairwise_cons, List.mem_singleton, forall_eq, decide_eq_true_eq, Fl.le_fin]
    norm_num
  unfold npMedian
  rw [if_neg (by simp [Fl.isNaN])]
  simp only [hs, List.length_cons, List.length_nil, Nat.reduceAdd, Nat.reduceMod, Nat.reduceDiv, Nat.reduceSub, List.getD_cons_zero,
    List.getD_cons_succ, Fl.fin_add]
  rw [if_neg (by norm_num), Fl.fin_div _ _ two_ne_zero]
  norm_num

example : total [(0, 1), (1, 2), (2, 1)] ≠ 0 ∧ total (above 0 [(0, 1), (1, 2), (2, 1)]) ≠ 0 := by
  constructor
  · norm_num [total]
  · unfold above total; norm_num [List.filter]

end
end SW
