import Verif.Fl
import Mathlib.Data.EReal.Operations
import Mathlib.Data.EReal.Inv
import Mathlib.Tactic.Linarith

/-!
# The float model agrees with the extended reals

Validation of `Verif/Fl.lean`, on which everything numeric rests: outside the IEEE invalid operations every operation and comparison is that
of Mathlib's extended reals (an independent development); the invalid ones give NaN, and NaN is absorbing and unordered.
-/

namespace SW
namespace Fl
noncomputable section
open Classical

/-- a value that is not NaN, as an extended real (NaN: junk value 0, never used) -/
def toE : Fl → EReal
  | nan => 0
  | pinf => ⊤
  | ninf => ⊥
  | fin a => (a : EReal)

theorem toE_inj (x y : Fl) (hx : ¬ x.isNaN) (hy : ¬ y.isNaN) : toE x = toE y ↔ x = y := by
  cases x <;> cases y <;> simp_all [toE]

/-- comparisons are those of the extended reals, and false for NaN -/
theorem spec_le (x y : Fl) : le x y ↔ ¬ x.isNaN ∧ ¬ y.isNaN ∧ toE x ≤ toE y := by
  cases x <;> cases y <;> simp [le, toE, isNaN]

theorem spec_lt (x y : Fl) : lt x y ↔ ¬ x.isNaN ∧ ¬ y.isNaN ∧ toE x < toE y := by
  cases x <;> cases y <;> simp [lt, toE, isNaN, EReal.coe_lt_top, EReal.bot_lt_coe]

/-- negation and modulus -/
theorem spec_neg (x : Fl) (hx : ¬ x.isNaN) : ¬ (-x).isNaN ∧ toE (-x) = - toE x := by
  cases x
  · simp at hx
  · exact ⟨id, rfl⟩
  · exact ⟨id, rfl⟩
  · exact ⟨id, EReal.coe_neg _⟩

theorem spec_abs (x : Fl) (hx : ¬ x.isNaN) : ¬ x.abs.isNaN ∧ toE x.abs = max (toE x) (- toE x) := by
  cases x with
  | nan => simp at hx
  | pinf => exact ⟨id, by simp [toE, abs]⟩
  | ninf => exact ⟨id, by simp [toE, abs]⟩
  | fin a =>
    refine ⟨id, ?_⟩
    show ((|a| : ℝ) : EReal) = max (a : EReal) (-(a : EReal))
    rw [← EReal.coe_neg]
    rcases le_total 0 a with h | h
    · rw [abs_of_nonneg h, max_eq_left (EReal.coe_le_coe_iff.mpr (by linarith))]
    · rw [abs_of_nonpos h, max_eq_right (EReal.coe_le_coe_iff.mpr (by linarith))]

/-- infinities of opposite sign -/
def Opposite (x y : Fl) : Prop := (x = pinf ∧ y = ninf) ∨ (x = ninf ∧ y = pinf)

theorem spec_add (x y : Fl) (hx : ¬ x.isNaN) (hy : ¬ y.isNaN) :
    ((x + y).isNaN ↔ Opposite x y) ∧ (¬ Opposite x y → toE (x + y) = toE x + toE y) := by
  cases x <;> cases y <;> simp_all [Opposite, toE] <;> first
    | exact ⟨id, rfl⟩
    | exact id
    | exact trivial
    | skip
  all_goals (try constructor) <;> first
    | exact trivial
    | exact id
    | (show (_ : EReal) = _; simp [HAdd.hAdd, Add.add, add]; done)
    | rfl
    | skip

/-- zero times an infinity -/
def ZeroInf (x y : Fl) : Prop := (x = fin 0 ∧ (y = pinf ∨ y = ninf)) ∨ (y = fin 0 ∧ (x = pinf ∨ x = ninf))

theorem infMul_spec (b : Bool) (a : ℝ) (ha : a ≠ 0) :
    ¬ (infMul b a).isNaN ∧ toE (infMul b a) = (if b then ⊤ else ⊥) * (a : EReal) := by
  unfold infMul
  rw [if_neg ha]
  rcases lt_or_gt_of_ne ha with h | h
  · cases b
    · rw [if_pos (by simp [not_lt.mpr h.le])]
      exact ⟨id, by simp [toE, EReal.bot_mul_coe_of_neg h]⟩
    · rw [if_neg (by simp [not_lt.mpr h.le])]
      exact ⟨id, by simp [toE, EReal.top_mul_coe_of_neg h]⟩
  · cases b
    · rw [if_neg (by simp [h])]
      exact ⟨id, by simp [toE, EReal.bot_mul_coe_of_pos h]⟩
    · rw [if_pos (by simp [h])]
      exact ⟨id, by simp [toE, EReal.top_mul_coe_of_pos h]⟩

theorem spec_mul (x y : Fl) (hx : ¬ x.isNaN) (hy : ¬ y.isNaN) :
    ((x * y).isNaN ↔ ZeroInf x y) ∧ (¬ ZeroInf x y → toE (x * y) = toE x * toE y) := by
  have H : ∀ (b : Bool) (a : ℝ), (infMul b a).isNaN ↔ a = 0 := by
    intro b a
    by_cases ha : a = 0
    · subst ha; simp [infMul]
    · simp [(infMul_spec b a ha).1, ha]
  cases x with
  | nan => simp at hx
  | pinf =>
    cases y with
    | nan => simp at hy
    | pinf => exact ⟨by simp [ZeroInf, show (pinf * pinf : Fl) = pinf from rfl], fun _ => by simp [toE, show (pinf * pinf : Fl) = pinf from rfl]⟩
    | ninf => exact ⟨by simp [ZeroInf, show (pinf * ninf : Fl) = ninf from rfl], fun _ => by simp [toE, show (pinf * ninf : Fl) = ninf from rfl]⟩
    | fin a =>
      rw [show (pinf * fin a : Fl) = infMul true a from rfl, H]
      refine ⟨by simp [ZeroInf], fun h => ?_⟩
      have ha : a ≠ 0 := by simpa [ZeroInf] using h
      simpa [toE] using (infMul_spec true a ha).2
  | ninf =>
    cases y with
    | nan => simp at hy
    | pinf => exact ⟨by simp [ZeroInf, show (ninf * pinf : Fl) = ninf from rfl], fun _ => by simp [toE, show (ninf * pinf : Fl) = ninf from rfl]⟩
    | ninf => exact ⟨by simp [ZeroInf, show (ninf * ninf : Fl) = pinf from rfl], fun _ => by simp [toE, show (ninf * ninf : Fl) = pinf from rfl]⟩
    | fin a =>
      rw [show (ninf * fin a : Fl) = infMul false a from rfl, H]
      refine ⟨by simp [ZeroInf], fun h => ?_⟩
      have ha : a ≠ 0 := by simpa [ZeroInf] using h
      simpa [toE] using (infMul_spec false a ha).2
  | fin a =>
    cases y with
    | nan => simp at hy
    | pinf =>
      rw [show (fin a * pinf : Fl) = infMul true a from rfl, H]
      refine ⟨by simp [ZeroInf], fun h => ?_⟩
      have ha : a ≠ 0 := by simpa [ZeroInf] using h
      simpa [toE, mul_comm] using (infMul_spec true a ha).2
    | ninf =>
      rw [show (fin a * ninf : Fl) = infMul false a from rfl, H]
      refine ⟨by simp [ZeroInf], fun h => ?_⟩
      have ha : a ≠ 0 := by simpa [ZeroInf] using h
      simpa [toE, mul_comm] using (infMul_spec false a ha).2
    | fin b => exact ⟨by simp [ZeroInf], fun _ => EReal.coe_mul a b⟩

/-- division by anything but zero: infinity over infinity is invalid -/
theorem spec_div (x y : Fl) (hx : ¬ x.isNaN) (hy : ¬ y.isNaN) (h0 : y ≠ fin 0) :
    ((x / y).isNaN ↔ ¬ x.isFinite ∧ ¬ y.isFinite) ∧ (x.isFinite ∨ y.isFinite → toE (x / y) = toE x / toE y) := by
  have D : ∀ x y : Fl, x / y = Fl.div x y := fun _ _ => rfl
  cases y with
  | nan => simp at hy
  | pinf => cases x <;> simp_all [Fl.div, toE, isNaN]
  | ninf => cases x <;> simp_all [Fl.div, toE, isNaN]
  | fin b =>
    have hb : b ≠ 0 := by simpa using h0
    cases x with
    | nan => simp at hx
    | fin a =>
      rw [fin_div a b hb]
      exact ⟨by simp, fun _ => by simp [toE, EReal.coe_div]⟩
    | pinf =>
      rcases lt_or_gt_of_ne hb with h | h
      · have e : (pinf / fin b : Fl) = ninf := by rw [D]; simp [Fl.div, h]
        rw [e]; exact ⟨by simp, fun _ => by simp [toE, EReal.top_div_of_neg_ne_bot (EReal.coe_neg'.mpr h) (EReal.coe_ne_bot b)]⟩
      · have e : (pinf / fin b : Fl) = pinf := by rw [D]; simp [Fl.div, not_lt.mpr h.le]
        rw [e]; exact ⟨by simp, fun _ => by simp [toE, EReal.top_div_of_pos_ne_top (EReal.coe_pos.mpr h) (EReal.coe_ne_top b)]⟩
    | ninf =>
      rcases lt_or_gt_of_ne hb with h | h
      · have e : (ninf / fin b : Fl) = pinf := by rw [D]; simp [Fl.div, h]
        rw [e]; exact ⟨by simp, fun _ => by simp [toE, EReal.bot_div_of_neg_ne_bot (EReal.coe_neg'.mpr h) (EReal.coe_ne_bot b)]⟩
      · have e : (ninf / fin b : Fl) = ninf := by rw [D]; simp [Fl.div, not_lt.mpr h.le]
        rw [e]; exact ⟨by simp, fun _ => by simp [toE, EReal.bot_div_of_pos_ne_top (EReal.coe_pos.mpr h) (EReal.coe_ne_top b)]⟩

/-- division by zero: an infinity of the sign of the numerator, invalid for zero -/
theorem spec_div_zero (x : Fl) (hx : ¬ x.isNaN) :
    (lt (fin 0) x → x / fin 0 = pinf) ∧ (lt x (fin 0) → x / fin 0 = ninf) ∧ (x = fin 0 → x / fin 0 = nan) := by
  have D : ∀ x y : Fl, x / y = Fl.div x y := fun _ _ => rfl
  simp only [D]
  cases x with
  | nan => simp at hx
  | pinf => simp [Fl.div, lt]
  | ninf => simp [Fl.div, lt]
  | fin a =>
    simp only [Fl.div, lt_fin, fin_inj, if_true]
    refine ⟨fun h => by rw [if_pos h], fun h => by rw [if_neg (not_lt.mpr h.le), if_pos h], ?_⟩
    rintro rfl; simp

/-- NaN is absorbing -/
theorem spec_nan (x : Fl) : (x + nan).isNaN ∧ (nan + x).isNaN ∧ (x * nan).isNaN ∧ (nan * x).isNaN ∧ (x / nan).isNaN ∧ (nan / x).isNaN ∧
    (-nan).isNaN ∧ (nan.abs).isNaN ∧ (sqrt nan).isNaN ∧ (log nan).isNaN := by
  simp [abs, log]

/-- the square root is the non-negative number with that square; invalid for negative arguments -/
theorem spec_sqrt (x : Fl) (hx : ¬ x.isNaN) :
    ((sqrt x).isNaN ↔ lt x (fin 0)) ∧ (le (fin 0) x → le (fin 0) (sqrt x) ∧ sqrt x * sqrt x = x) := by
  cases x with
  | nan => simp at hx
  | pinf => exact ⟨by simp [sqrt, lt], fun _ => ⟨by simp [sqrt, le], rfl⟩⟩
  | ninf => exact ⟨by simp [sqrt, lt], fun h => by simp [le] at h⟩
  | fin a =>
    by_cases h : a < 0
    · exact ⟨by simp [sqrt, h], fun h' => absurd (by simpa using h') (not_le.mpr h)⟩
    · have h' := not_lt.mp h
      rw [sqrt_fin a h']
      exact ⟨by simp [h'], fun _ => ⟨by simpa using Real.sqrt_nonneg a, by rw [fin_mul, Real.mul_self_sqrt h']⟩⟩

/-- the sum of a list without opposite infinities is that of the extended reals; NaNs are skipped or contagious -/
theorem spec_sumSkip (l : List Fl) (h : pinf ∉ l ∨ ninf ∉ l) :
    ¬ (sumSkip l).isNaN ∧ toE (sumSkip l) = ((l.filter (fun x => decide (¬ x.isNaN))).map toE).sum := by
  have key : ∀ l : List Fl, (pinf ∉ l → ¬ (sumSkip l).isNaN ∧ sumSkip l ≠ pinf ∧
        toE (sumSkip l) = ((l.filter (fun x => decide (¬ x.isNaN))).map toE).sum) ∧
      (ninf ∉ l → ¬ (sumSkip l).isNaN ∧ sumSkip l ≠ ninf ∧
        toE (sumSkip l) = ((l.filter (fun x => decide (¬ x.isNaN))).map toE).sum) := by
    intro l
    induction l with
    | nil => simp [zero_def, toE]
    | cons x l ih =>
      rw [sumSkip_cons]
      by_cases hn : x.isNaN
      · rw [if_pos hn, List.filter_cons_of_neg (by simpa using hn)]
        refine ⟨fun hh => ih.1 (fun hc => hh (List.mem_cons_of_mem _ hc)), fun hh => ih.2 (fun hc => hh (List.mem_cons_of_mem _ hc))⟩
      · rw [if_neg hn, List.filter_cons_of_pos (by simpa using hn), List.map_cons, List.sum_cons]
        constructor
        · intro hh
          obtain ⟨h1, h2, h3⟩ := ih.1 (fun hc => hh (List.mem_cons_of_mem _ hc))
          have hxp : x ≠ pinf := fun hc => hh (by simp [hc])
          have hop : ¬ Opposite x (sumSkip l) := by rintro (⟨hc, _⟩ | ⟨_, hc⟩); exacts [hxp hc, h2 hc]
          obtain ⟨h4, h5⟩ := spec_add x (sumSkip l) hn h1
          refine ⟨fun hc => hop (h4.mp hc), ?_, by rw [h5 hop, h3]⟩
          intro hc
          revert hc h1 h2
          generalize sumSkip l = s
          intro h1 h2 hc
          cases x <;> cases s <;> simp_all [show ∀ a b : Fl, a + b = add a b from fun _ _ => rfl, add]
        · intro hh
          obtain ⟨h1, h2, h3⟩ := ih.2 (fun hc => hh (List.mem_cons_of_mem _ hc))
          have hxp : x ≠ ninf := fun hc => hh (by simp [hc])
          have hop : ¬ Opposite x (sumSkip l) := by rintro (⟨_, hc⟩ | ⟨hc, _⟩); exacts [h2 hc, hxp hc]
          obtain ⟨h4, h5⟩ := spec_add x (sumSkip l) hn h1
          refine ⟨fun hc => hop (h4.mp hc), ?_, by rw [h5 hop, h3]⟩
          intro hc
          revert hc h1 h2
          generalize sumSkip l = s
          intro h1 h2 hc
          cases x <;> cases s <;> simp_all [show ∀ a b : Fl, a + b = add a b from fun _ _ => rfl, add]
  rcases h with h | h
  · exact ⟨((key l).1 h).1, ((key l).1 h).2.2⟩
  · exact ⟨((key l).2 h).1, ((key l).2 h).2.2⟩

/-- logarithm and power at the edges of their domains -/
theorem spec_log (x : Fl) (hx : ¬ x.isNaN) :
    ((log x).isNaN ↔ lt x (fin 0)) ∧ (log (fin 0) = ninf) ∧ (log pinf = pinf) ∧
    (∀ a : ℝ, x = fin a → 0 < a → ∃ b, log x = fin b ∧ Real.exp b = a) := by
  refine ⟨?_, by simp [log], rfl, ?_⟩
  · cases x with
    | nan => simp at hx
    | pinf => simp [log, lt]
    | ninf => simp [log, lt]
    | fin a =>
      simp only [log, lt_fin]
      split_ifs with h1 h2 <;> simp_all
  · rintro a rfl h
    exact ⟨Real.log a, log_fin a h, Real.exp_log h⟩

end
end Fl
end SW
