import Verif.Props.Rounded
import Verif.RoundFit

/-!
# C260: shapes of the fit functions survive rounding
-/

namespace SW
namespace Rnd

theorem abs_r (R : Rounding) (x : ℝ) : |R.r x| = R.r |x| := by
  rcases le_total 0 x with h | h
  · rw [abs_of_nonneg h, abs_of_nonneg (r_nonneg R h)]
  · rw [abs_of_nonpos h, R.odd, abs_of_nonpos]
    have := r_nonneg R (show 0 ≤ -x by linarith)
    rw [R.odd] at this
    linarith

section
variable (R : Rounding) (L : Lib R)

/-- the exponent falls with the distance from the centre -/
theorem arg_far {mu sigma x y : ℝ} (h : |x - mu| ≤ |y - mu|) : argR R mu sigma y ≤ argR R mu sigma x := by
  simp only [argR]
  have key : |R.r (R.r (x - mu) / sigma)| ≤ |R.r (R.r (y - mu) / sigma)| := by
    rw [abs_r, abs_r, abs_div, abs_div, abs_r, abs_r]
    exact R.mono (div_le_div_of_nonneg_right (R.mono h) (abs_nonneg _))
  generalize R.r (R.r (x - mu) / sigma) = a at key ⊢
  generalize R.r (R.r (y - mu) / sigma) = b at key ⊢
  apply R.mono
  have : R.r (a * a) ≤ R.r (b * b) := R.mono (by rw [← abs_mul_abs_self a, ← abs_mul_abs_self b]; exact mul_self_le_mul_self (abs_nonneg _) key)
  linarith

theorem arg_nonpos (mu sigma x : ℝ) : argR R mu sigma x ≤ 0 := by
  simp only [argR]
  have h := sq_nonneg' R (R.r (R.r (x - mu) / sigma))
  have := R.mono (show -(1 / 2) * R.r (R.r (R.r (x - mu) / sigma) * R.r (R.r (x - mu) / sigma)) ≤ 0 by linarith)
  rwa [r_zero] at this

theorem arg_centre (mu sigma : ℝ) : argR R mu sigma mu = 0 := by
  simp only [argR, sub_self, r_zero, zero_div, mul_zero]

/-- Gaussian: exactly `A` at the centre; elsewhere between 0 and `A`; a point farther from the centre has no larger value, points at the same distance
have the same value -/
theorem C260_gaussian (mu sigma A : ℝ) (hA : 0 ≤ A) (hr : R.Rep A) :
    gaussR R L mu sigma A mu = A ∧ (∀ x, 0 ≤ gaussR R L mu sigma A x ∧ gaussR R L mu sigma A x ≤ A) ∧
    ∀ x y, |x - mu| ≤ |y - mu| → gaussR R L mu sigma A y ≤ gaussR R L mu sigma A x := by
  have c : gaussR R L mu sigma A mu = A := by unfold gaussR; rw [arg_centre, L.ex_zero, mul_one, hr]
  have far : ∀ x y, |x - mu| ≤ |y - mu| → gaussR R L mu sigma A y ≤ gaussR R L mu sigma A x :=
    fun x y h => R.mono (mul_le_mul_of_nonneg_left (L.ex_mono (arg_far R h)) hA)
  refine ⟨c, fun x => ⟨r_nonneg R (mul_nonneg hA (L.ex_nonneg _)), ?_⟩, far⟩
  have := far mu x (by rw [sub_self, abs_zero]; exact abs_nonneg _)
  rwa [c] at this

/-- the same with the normalised Gaussian: largest at the centre, falling with the distance -/
theorem C260_gaussian_normalized (c mu sigma n : ℝ) (hc : 0 < c) (hs : 0 < sigma) (hn : 0 ≤ n) :
    gaussNormR R L c mu sigma n mu = R.r (n / R.r (c * sigma)) ∧
    ∀ x y, |x - mu| ≤ |y - mu| → 0 ≤ gaussNormR R L c mu sigma n y ∧ gaussNormR R L c mu sigma n y ≤ gaussNormR R L c mu sigma n x := by
  have h0 : 0 ≤ R.r (n / R.r (c * sigma)) := r_nonneg R (div_nonneg hn (r_nonneg R (mul_pos hc hs).le))
  constructor
  · unfold gaussNormR
    rw [arg_centre, L.ex_zero, mul_one, R.idem]
  · intro x y h
    exact ⟨r_nonneg R (mul_nonneg h0 (L.ex_nonneg _)), R.mono (mul_le_mul_of_nonneg_left (L.ex_mono (arg_far R h)) h0)⟩

/-- log-normal shape: rises up to where the computed logarithm is `m`, then falls; at most `A` -/
theorem C260_gaussian_ln (m s A : ℝ) (hA : 0 ≤ A) (hr : R.Rep A) :
    (∀ x, 0 ≤ gaussLnR R L m s A x ∧ gaussLnR R L m s A x ≤ A) ∧
    (∀ x y, 0 < x → x ≤ y → L.ln y ≤ m → gaussLnR R L m s A x ≤ gaussLnR R L m s A y) ∧
    (∀ x y, 0 < x → x ≤ y → m ≤ L.ln x → gaussLnR R L m s A y ≤ gaussLnR R L m s A x) := by
  obtain ⟨-, h2, h3⟩ := C260_gaussian R L m s A hA hr
  refine ⟨fun x => h2 (L.ln x), fun x y hx hxy hy => ?_, fun x y hx hxy hm => ?_⟩
  · have := L.ln_mono x y hx hxy
    exact h3 (L.ln y) (L.ln x) (by rw [abs_of_nonpos (by linarith), abs_of_nonpos (by linarith)]; linarith)
  · have := L.ln_mono x y hx hxy
    exact h3 (L.ln x) (L.ln y) (by rw [abs_of_nonneg (by linarith), abs_of_nonneg (by linarith)]; linarith)

theorem decay {c : ℝ} (hc : 0 ≤ c) {x y : ℝ} (h : x ≤ y) : L.ex (-R.r (c * y)) ≤ L.ex (-R.r (c * x)) :=
  L.ex_mono (neg_le_neg (R.mono (mul_le_mul_of_nonneg_left h hc)))

/-- exponentials: exactly `A` at 0, never negative, never rising; with a constant: the limit `d` is never undershot -/
theorem C260_exponential (c A d : ℝ) (hc : 0 ≤ c) (hA : 0 ≤ A) (hr : R.Rep A) (hd : R.Rep d) :
    expR R L c A 0 = A ∧ (∀ x, 0 ≤ expR R L c A x) ∧ (∀ x y, x ≤ y → expR R L c A y ≤ expR R L c A x) ∧
    (∀ x, d ≤ expcR R L c A d x) ∧ (∀ x y, x ≤ y → expcR R L c A d y ≤ expcR R L c A d x) := by
  have h1 : ∀ x, 0 ≤ expR R L c A x := fun x => r_nonneg R (mul_nonneg hA (L.ex_nonneg _))
  have h2 : ∀ x y, x ≤ y → expR R L c A y ≤ expR R L c A x := fun x y h => R.mono (mul_le_mul_of_nonneg_left (decay R L hc h) hA)
  refine ⟨?_, h1, h2, fun x => ?_, fun x y h => ?_⟩
  · unfold expR
    rw [mul_zero, r_zero, neg_zero, L.ex_zero, mul_one, hr]
  · have := R.mono (show d ≤ expR R L c A x + d by linarith [h1 x])
    rw [hd] at this
    exact this
  · exact R.mono (by linarith [h2 x y h])

/-- the exponential distribution function: exactly 0 at 0, rising, between 0 and `y0` from 0 on -/
theorem C260_exponential_cdf (c y0 : ℝ) (hc : 0 ≤ c) (hy : 0 ≤ y0) (hr : R.Rep y0) :
    expCdfR R L c y0 0 = 0 ∧ (∀ x y, x ≤ y → expCdfR R L c y0 x ≤ expCdfR R L c y0 y) ∧
    ∀ x, 0 ≤ x → 0 ≤ expCdfR R L c y0 x ∧ expCdfR R L c y0 x ≤ y0 := by
  have z : expCdfR R L c y0 0 = 0 := by
    unfold expCdfR
    rw [mul_zero, r_zero, neg_zero, L.ex_zero, sub_self, r_zero, mul_zero, r_zero]
  have m : ∀ x y, x ≤ y → expCdfR R L c y0 x ≤ expCdfR R L c y0 y :=
    fun x y h => R.mono (mul_le_mul_of_nonneg_left (R.mono (by linarith [decay R L hc h])) hy)
  refine ⟨z, m, fun x hx => ⟨?_, ?_⟩⟩
  · rw [← z]; exact m 0 x hx
  · have h1 : R.r (1 - L.ex (-R.r (c * x))) ≤ 1 := r_le_one R (by linarith [L.ex_nonneg (-R.r (c * x))])
    have := R.mono (show y0 * R.r (1 - L.ex (-R.r (c * x))) ≤ y0 by nlinarith)
    rw [hr] at this
    exact this

/-- lines: rising for a nonnegative, falling for a nonpositive slope; exact at 0 -/
theorem C260_line (m b : ℝ) (hb : R.Rep b) :
    lineR R m b 0 = b ∧ (0 ≤ m → Monotone (lineR R m b)) ∧ (m ≤ 0 → Antitone (lineR R m b)) := by
  refine ⟨?_, fun hm x y h => ?_, fun hm x y h => ?_⟩
  · unfold lineR
    rw [mul_zero, r_zero, zero_add, hb]
  · exact R.mono (by linarith [R.mono (mul_le_mul_of_nonneg_left h hm)])
  · exact R.mono (by linarith [R.mono (mul_le_mul_of_nonpos_left h hm)])

theorem slope_mono {m x1 : ℝ} (hm : 0 ≤ m) : Monotone (slopeR R m x1) :=
  fun _ _ h => R.mono (mul_le_mul_of_nonneg_left (R.mono (by linarith)) hm)

theorem slope_anti {m x1 : ℝ} (hm : m ≤ 0) : Antitone (slopeR R m x1) :=
  fun _ _ h => R.mono (mul_le_mul_of_nonpos_left (R.mono (by linarith)) hm)

/-- on the right of its zero a line of nonnegative slope is nonnegative, and it is exactly 0 there -/
theorem slope_zero (m x1 : ℝ) : slopeR R m x1 x1 = 0 := by unfold slopeR; rw [sub_self, r_zero, mul_zero, r_zero]

/-- two lines: below both; rising if both are; for a rising first and falling second line: rises while the first is lower, falls while the second is;
exactly 0 at the zero of the first line if the second is not negative there -/
theorem C260_two_lines (x1 x2 m1 m2 : ℝ) :
    (∀ x, twoLineR R x1 x2 m1 m2 x ≤ slopeR R m1 x1 x ∧ twoLineR R x1 x2 m1 m2 x ≤ slopeR R m2 x2 x) ∧
    (0 ≤ m1 → 0 ≤ m2 → Monotone (twoLineR R x1 x2 m1 m2)) ∧
    (0 ≤ m1 → m2 ≤ 0 → ∃ up : Set ℝ, (∀ x ∈ up, ∀ y ≤ x, y ∈ up) ∧
      (∀ x ∈ up, ∀ y ∈ up, x ≤ y → twoLineR R x1 x2 m1 m2 x ≤ twoLineR R x1 x2 m1 m2 y) ∧
      (∀ x ∉ up, ∀ y ∉ up, x ≤ y → twoLineR R x1 x2 m1 m2 y ≤ twoLineR R x1 x2 m1 m2 x)) ∧
    (0 ≤ slopeR R m2 x2 x1 → twoLineR R x1 x2 m1 m2 x1 = 0) := by
  refine ⟨fun x => ⟨min_le_left _ _, min_le_right _ _⟩, fun h1 h2 x y h => ?_, fun h1 h2 => ?_, fun h => ?_⟩
  · exact min_le_min (slope_mono R h1 h) (slope_mono R h2 h)
  · refine ⟨{x | slopeR R m1 x1 x ≤ slopeR R m2 x2 x}, fun x hx y hy => ?_, fun x hx y hy h => ?_, fun x hx y hy h => ?_⟩
    · exact (slope_mono R h1 hy).trans ((show slopeR R m1 x1 x ≤ slopeR R m2 x2 x from hx).trans (slope_anti R h2 hy))
    · unfold twoLineR
      rw [min_eq_left hx, min_eq_left hy]
      exact slope_mono R h1 h
    · unfold twoLineR
      simp only [Set.mem_setOf_eq, not_le] at hx hy
      rw [min_eq_right hx.le, min_eq_right hy.le]
      exact slope_anti R h2 h
  · unfold twoLineR
    rw [slope_zero]
    exact min_eq_left h

/-- the computed second slope has the sign opposite to the first for a hinge between the zeros -/
theorem slope2_nonpos {m1 x1 x2 h : ℝ} (hm : 0 ≤ m1) (h1 : x1 ≤ h) (h2 : h ≤ x2) : slope2R R m1 x1 x2 h ≤ 0 := by
  have a : 0 ≤ R.r (m1 * R.r (h - x1)) := r_nonneg R (mul_nonneg hm (r_nonneg R (by linarith)))
  have b : R.r (h - x2) ≤ 0 := by have := R.mono (show h - x2 ≤ 0 by linarith); rwa [r_zero] at this
  have := R.mono (div_nonpos_of_nonneg_of_nonpos a b)
  rwa [r_zero] at this

theorem slope2_neg (m1 x1 x2 h : ℝ) : slope2R R (-m1) x1 x2 h = -slope2R R m1 x1 x2 h := by
  unfold slope2R
  rw [neg_mul, R.odd, neg_div, R.odd]

theorem slope_neg (m x1 x : ℝ) : slopeR R (-m) x1 x = -slopeR R m x1 x := by
  unfold slopeR
  rw [neg_mul, R.odd]

/-- `HingeMin` with a hinge between the two zeros and a first line that does not fall: exactly 0 at both zeros, nonnegative between and nonpositive outside
them, rising up to some point and falling after it -/
theorem C260_hinge_min (m1 x1 x2 h : ℝ) (hm : 0 ≤ m1) (h1 : x1 ≤ h) (h2 : h ≤ x2) :
    hingeMinR R m1 x1 x2 h x1 = 0 ∧ hingeMinR R m1 x1 x2 h x2 = 0 ∧
    (∀ x, x1 ≤ x → x ≤ x2 → 0 ≤ hingeMinR R m1 x1 x2 h x) ∧ (∀ x, x ≤ x1 ∨ x2 ≤ x → hingeMinR R m1 x1 x2 h x ≤ 0) ∧
    ∃ up : Set ℝ, (∀ x ∈ up, ∀ y ≤ x, y ∈ up) ∧
      (∀ x ∈ up, ∀ y ∈ up, x ≤ y → hingeMinR R m1 x1 x2 h x ≤ hingeMinR R m1 x1 x2 h y) ∧
      (∀ x ∉ up, ∀ y ∉ up, x ≤ y → hingeMinR R m1 x1 x2 h y ≤ hingeMinR R m1 x1 x2 h x) := by
  have s2 := slope2_nonpos R hm h1 h2
  have u := slope_mono R (x1 := x1) hm
  have v := slope_anti R (x1 := x2) s2
  have z1 := slope_zero R m1 x1
  have z2 := slope_zero R (slope2R R m1 x1 x2 h) x2
  have pos : ∀ x, x1 ≤ x → x ≤ x2 → 0 ≤ hingeMinR R m1 x1 x2 h x := fun x a b => by
    have a' := u a
    have b' := v b
    rw [z1] at a'; rw [z2] at b'
    exact le_min a' b'
  have neg : ∀ x, x ≤ x1 ∨ x2 ≤ x → hingeMinR R m1 x1 x2 h x ≤ 0 := by
    rintro x (a | a)
    · have a' := u a
      rw [z1] at a'
      exact (min_le_left _ _).trans a'
    · have a' := v a
      rw [z2] at a'
      exact (min_le_right _ _).trans a'
  exact ⟨le_antisymm (neg _ (Or.inl le_rfl)) (pos _ le_rfl (h1.trans h2)), le_antisymm (neg _ (Or.inr le_rfl)) (pos _ (h1.trans h2) le_rfl),
    pos, neg, (C260_two_lines R x1 x2 m1 (slope2R R m1 x1 x2 h)).2.2.1 hm s2⟩

/-- `HingeMax` is the mirror image of `HingeMin`, exactly -/
theorem C260_hinge_max (m1 x1 x2 h x : ℝ) : hingeMaxR R m1 x1 x2 h x = -hingeMinR R (-m1) x1 x2 h x := by
  unfold hingeMaxR hingeMinR
  rw [slope2_neg, slope_neg, slope_neg, min_neg_neg, neg_neg]

/-- `HingeAtPoint` with a rising and a falling line: rises up to some point and falls after it -/
theorem C260_hinge_point (xh yh m1 m2 : ℝ) (hm : 0 ≤ m1) (hn : m2 ≤ 0) :
    ∃ up : Set ℝ, (∀ x ∈ up, ∀ y ≤ x, y ∈ up) ∧
      (∀ x ∈ up, ∀ y ∈ up, x ≤ y → hingePointR R xh yh m1 m2 x ≤ hingePointR R xh yh m1 m2 y) ∧
      (∀ x ∉ up, ∀ y ∉ up, x ≤ y → hingePointR R xh yh m1 m2 y ≤ hingePointR R xh yh m1 m2 x) :=
  (C260_two_lines R (R.r (xh - R.r (yh / m1))) (R.r (xh - R.r (yh / m2))) m1 m2).2.2.1 hm hn

/-- a rounding is a factor near 1 -/
theorem factor {p : ℕ} (hp : 1 ≤ p) (x : ℝ) : ∃ e : ℝ, |e| ≤ ulp p ∧ (fmt p hp).r x = x * (1 + e) := by
  have h := binary_rel p x
  change |(fmt p hp).r x - x| ≤ ulp p * |x| at h
  rcases eq_or_ne x 0 with rfl | hx
  · exact ⟨0, by rw [abs_zero]; exact (ulp_range hp).1.le, by rw [r_zero, zero_mul]⟩
  · refine ⟨((fmt p hp).r x - x) / x, ?_, by field_simp; ring⟩
    rw [abs_div, div_le_iff₀ (abs_pos.mpr hx)]
    exact h

theorem factors {a A e u : ℝ} (h : |a - 1| ≤ A - 1) (he : |e| ≤ u) : |a * (1 + e) - 1| ≤ A * (1 + u) - 1 := by
  have e1 : |1 + e| ≤ 1 + u := (abs_add_le _ _).trans (by rw [abs_one]; linarith)
  have : |(a - 1) * (1 + e)| ≤ (A - 1) * (1 + u) := by
    rw [abs_mul]
    exact mul_le_mul h e1 (abs_nonneg _) ((abs_nonneg _).trans h)
  rw [show a * (1 + e) - 1 = (a - 1) * (1 + e) + e by ring]
  exact (abs_add_le _ _).trans (by linarith)

/-- the two computed lines of `HingeMin` and `HingeMax` meet at the hinge up to two relative errors, so both functions have the value of the first line there
up to two relative errors -/
theorem C260_hinge_meets {p : ℕ} (hp : 1 ≤ p) (m1 x1 x2 h : ℝ) (hne : h ≠ x2) :
    |hingeMinR (fmt p hp) m1 x1 x2 h h - slopeR (fmt p hp) m1 x1 h| ≤ ((1 + ulp p) ^ 2 - 1) * |slopeR (fmt p hp) m1 x1 h| ∧
    |hingeMaxR (fmt p hp) m1 x1 x2 h h - slopeR (fmt p hp) m1 x1 h| ≤ ((1 + ulp p) ^ 2 - 1) * |slopeR (fmt p hp) m1 x1 h| := by
  obtain ⟨u0, u1⟩ := ulp_range hp
  have hd : (fmt p hp).r (h - x2) ≠ 0 := by
    obtain ⟨e, he, h'⟩ := factor hp (h - x2)
    rw [h']
    have := abs_le.mp he
    exact mul_ne_zero (sub_ne_zero.mpr hne) (by linarith)
  have key : |slopeR (fmt p hp) (slope2R (fmt p hp) m1 x1 x2 h) x2 h - slopeR (fmt p hp) m1 x1 h| ≤ ((1 + ulp p) ^ 2 - 1) * |slopeR (fmt p hp) m1 x1 h| := by
    unfold slope2R
    change |(fmt p hp).r ((fmt p hp).r (slopeR (fmt p hp) m1 x1 h / (fmt p hp).r (h - x2)) * (fmt p hp).r (h - x2)) - _| ≤ _
    generalize slopeR (fmt p hp) m1 x1 h = a
    generalize (fmt p hp).r (h - x2) = d at hd
    obtain ⟨e, he, h1⟩ := factor hp (a / d)
    rw [h1]
    obtain ⟨e', he', h2⟩ := factor hp (a / d * (1 + e) * d)
    rw [h2, show a / d * (1 + e) * d * (1 + e') - a = ((1 + e) * (1 + e') - 1) * a by field_simp, abs_mul]
    refine mul_le_mul_of_nonneg_right ?_ (abs_nonneg _)
    have := factors (a := 1 + e) (A := 1 + ulp p) (by simpa using he) he'
    rwa [← sq] at this
  have z : |slopeR (fmt p hp) m1 x1 h - slopeR (fmt p hp) m1 x1 h| ≤ ((1 + ulp p) ^ 2 - 1) * |slopeR (fmt p hp) m1 x1 h| := by
    rw [sub_self, abs_zero]
    exact mul_nonneg (by nlinarith) (abs_nonneg _)
  constructor
  · unfold hingeMinR
    rcases min_choice (slopeR (fmt p hp) m1 x1 h) (slopeR (fmt p hp) (slope2R (fmt p hp) m1 x1 x2 h) x2 h) with c | c <;> rw [c]
    · exact z
    · exact key
  · unfold hingeMaxR
    rcases max_choice (slopeR (fmt p hp) m1 x1 h) (slopeR (fmt p hp) (slope2R (fmt p hp) m1 x1 x2 h) x2 h) with c | c <;> rw [c]
    · exact z
    · exact key

/-- `HingeAtPoint` passes near its hinge: up to four relative errors of the sizes involved -/
theorem C260_hinge_near {p : ℕ} (hp : 1 ≤ p) (xh yh m1 m2 : ℝ) (h1 : m1 ≠ 0) (h2 : m2 ≠ 0) :
    |hingePointR (fmt p hp) xh yh m1 m2 xh - yh| ≤ ((1 + ulp p) ^ 4 - 1) * (|yh| + max |m1| |m2| * |xh|) := by
  obtain ⟨u0, u1⟩ := ulp_range hp
  have line : ∀ m : ℝ, m ≠ 0 → |slopeR (fmt p hp) m ((fmt p hp).r (xh - (fmt p hp).r (yh / m))) xh - yh| ≤ ((1 + ulp p) ^ 4 - 1) * (|yh| + |m| * |xh|) := by
    intro m hm
    unfold slopeR
    obtain ⟨e1, k1, h1⟩ := factor hp (yh / m)
    rw [h1]
    obtain ⟨e2, k2, h2⟩ := factor hp (xh - yh / m * (1 + e1))
    rw [h2]
    obtain ⟨e3, k3, h3⟩ := factor hp (xh - (xh - yh / m * (1 + e1)) * (1 + e2))
    rw [h3]
    obtain ⟨e4, k4, h4⟩ := factor hp (m * ((xh - (xh - yh / m * (1 + e1)) * (1 + e2)) * (1 + e3)))
    rw [h4, show m * ((xh - (xh - yh / m * (1 + e1)) * (1 + e2)) * (1 + e3)) * (1 + e4) - yh
      = ((1 + e1) * (1 + e2) * (1 + e3) * (1 + e4) - 1) * yh - (e2 * (1 + e3) * (1 + e4)) * (m * xh) by field_simp; ring]
    have f2 := factors (a := 1 + e1) (A := 1 + ulp p) (by simpa using k1) k2
    have f3 := factors f2 k3
    have f4 := factors f3 k4
    have b3 : |1 + e3| ≤ 1 + ulp p := (abs_add_le _ _).trans (by rw [abs_one]; linarith)
    have b4 : |1 + e4| ≤ 1 + ulp p := (abs_add_le _ _).trans (by rw [abs_one]; linarith)
    have g : |e2 * (1 + e3) * (1 + e4)| ≤ (1 + ulp p) ^ 4 - 1 := by
      rw [abs_mul, abs_mul]
      have : |e2| * |1 + e3| * |1 + e4| ≤ ulp p * (1 + ulp p) * (1 + ulp p) :=
        mul_le_mul (mul_le_mul k2 b3 (abs_nonneg _) u0.le) b4 (abs_nonneg _) (by positivity)
      nlinarith [pow_pos u0 2, pow_pos u0 3, pow_pos u0 4]
    refine (abs_sub _ _).trans ?_
    rw [abs_mul _ yh, abs_mul _ (m * xh), abs_mul m xh]
    have a1 := mul_le_mul_of_nonneg_right f4 (abs_nonneg yh)
    have a2 := mul_le_mul_of_nonneg_right g (show 0 ≤ |m| * |xh| by positivity)
    refine (add_le_add a1 a2).trans (le_of_eq (by ring))
  have c0 : 0 ≤ (1 + ulp p) ^ 4 - 1 := by nlinarith [pow_pos u0 2, pow_pos u0 3, pow_pos u0 4]
  unfold hingePointR
  rcases min_choice (slopeR (fmt p hp) m1 ((fmt p hp).r (xh - (fmt p hp).r (yh / m1))) xh) (slopeR (fmt p hp) m2 ((fmt p hp).r (xh - (fmt p hp).r (yh / m2))) xh) with c | c <;> rw [c]
  · refine (line m1 h1).trans (mul_le_mul_of_nonneg_left ?_ c0)
    have := mul_le_mul_of_nonneg_right (le_max_left |m1| |m2|) (abs_nonneg xh)
    linarith
  · refine (line m2 h2).trans (mul_le_mul_of_nonneg_left ?_ c0)
    have := mul_le_mul_of_nonneg_right (le_max_right |m1| |m2|) (abs_nonneg xh)
    linarith

/-- the step: exactly `y0` on the right, the rounded `y1 + y0` on the left, however close to the step; so never higher on the right if `y1` is not negative; for the unit
step the value at the step is exactly 1/2 -/
theorem C260_step {p : ℕ} (hp : 1 ≤ p) (x0 y0 y1 : ℝ) (h0 : (fmt p hp).Rep y0) (h1 : (fmt p hp).Rep y1) (x : ℝ) :
    (x0 < x → heavyR (fmt p hp) x0 y0 y1 x = y0) ∧ (x < x0 → heavyR (fmt p hp) x0 y0 y1 x = (fmt p hp).r (y1 + y0)) ∧
    (0 ≤ y1 → y0 ≤ (fmt p hp).r (y1 + y0)) ∧ heavyR (fmt p hp) x0 0 1 x0 = 1 / 2 := by
  have pos : ∀ d : ℝ, 0 < d → 0 < (fmt p hp).r d := by
    intro d hd
    have e := binary_rel p d
    obtain ⟨u0, u1⟩ := ulp_range hp
    rw [abs_of_pos hd, abs_le] at e
    change -(ulp p * d) ≤ (fmt p hp).r d - d ∧ _ at e
    nlinarith [e.1]
  refine ⟨?_, ?_, fun h => by have := (fmt p hp).mono (show y0 ≤ y1 + y0 by linarith); rwa [h0] at this, ?_⟩
  · intro h
    have hd : (fmt p hp).r (x0 - x) < 0 := by
      have := pos (x - x0) (by linarith)
      rw [show x0 - x = -(x - x0) by ring, (fmt p hp).odd]
      linarith
    simp only [heavyR]
    rw [if_pos hd, mul_zero, r_zero, zero_add, h0]
  · intro h
    have hd := pos (x0 - x) (by linarith)
    simp only [heavyR]
    rw [if_neg (not_lt.mpr hd.le), if_neg hd.ne', mul_one, h1]
  · have half : (fmt p hp).r (1 / 2) = 1 / 2 := by
      have := binary_rep (p := p) (x := 1 / 2) ⟨1, -1, by rw [abs_one]; exact one_lt_pow₀ (by norm_num) (by omega), by norm_num⟩
      exact this
    simp only [heavyR, sub_self, r_zero, lt_irrefl, if_false, if_true, zero_add, (fmt p hp).one, mul_one, one_mul, add_zero, half]

end

/-- what rounding breaks: `HingeAtPoint` need not pass through its hinge, as for the point (1, 1) and slopes 3 and 1 -/
theorem C260_hinge_violated : hingePointR double 1 1 3 1 1 < 1 := by
  have third : double.r (1 / 3) = 6004799503160661 * 2 ^ (-54 : ℤ) := by
    have t := binary_eval (p := 53) (1 / 3) 6004799503160661 (-54) (by norm_num) (by norm_num) (by rw [abs_lt]; norm_num)
    have e : binary 53 (1 / 3) = 6004799503160661 * 2 ^ (-54 : ℤ) := by rw [t]; norm_num
    exact e
  have x1 : double.r (1 - 6004799503160661 * 2 ^ (-54 : ℤ)) = 6004799503160662 * 2 ^ (-53 : ℤ) := by
    have t := binary_eval' (p := 53) (1 - 6004799503160661 * 2 ^ (-54 : ℤ)) 6004799503160662 (-53) (by norm_num) (by norm_num) (by
      have := rne_odd_tie 6004799503160661 (by norm_num)
      norm_num at this ⊢
      exact this)
    have e : binary 53 (1 - 6004799503160661 * 2 ^ (-54 : ℤ)) = 6004799503160662 * 2 ^ (-53 : ℤ) := by rw [t]; norm_num
    exact e
  have d1 : double.r (1 - 6004799503160662 * 2 ^ (-53 : ℤ)) = 3002399751580330 * 2 ^ (-53 : ℤ) := by
    have := keep 3002399751580330 (-53) (by norm_num)
    norm_num at this ⊢
    exact this
  have d2 : double.r (3 * (3002399751580330 * 2 ^ (-53 : ℤ))) = 9007199254740990 * 2 ^ (-53 : ℤ) := by
    have := keep 9007199254740990 (-53) (by norm_num)
    norm_num at this ⊢
    exact this
  unfold hingePointR slopeR
  rw [third, x1, d1, d2]
  refine lt_of_le_of_lt (min_le_left _ _) ?_
  norm_num

/-- exponential and logarithm rounded from the exact ones qualify, in double precision -/
noncomputable def roundedLib : Lib double where
  ex := fun x => double.r (Real.exp x)
  ln := fun x => double.r (Real.log x)
  ex_mono := fun _ _ h => double.mono (Real.exp_le_exp.mpr h)
  ex_zero := by rw [Real.exp_zero, double.one]
  ex_nonneg := fun x => r_nonneg double (Real.exp_nonneg x)
  ex_rep := fun x => double.idem _
  ln_mono := fun x y hx h => double.mono (Real.log_le_log hx h)

example : gaussR double roundedLib 5 2 1 5 = 1 ∧ gaussR double roundedLib 5 2 1 8 ≤ gaussR double roundedLib 5 2 1 3 :=
  ⟨(C260_gaussian double roundedLib 5 2 1 (by norm_num) double.one).1,
    (C260_gaussian double roundedLib 5 2 1 (by norm_num) double.one).2.2 3 8 (by norm_num [abs_of_nonneg])⟩

end Rnd
end SW
