import Verif.Props.Rounded
import Verif.RoundPhys
import Mathlib.Analysis.Convex.SpecificFunctions.Basic

/-!
# C257: accuracy of densities, pressures, temperatures and speeds

`Near u a x y`: the computed `y` is the positive exact `x` up to at most `a` relative errors of size `u`; `a` may be a fraction (a square root halves the
errors).  The exact values are those of the model with exact reals, `Verif/PlasmaPhys.lean`.
-/

namespace SW
namespace Rnd

/-- `y` is `x`, positive, up to `a` relative errors of size `u` -/
def Near (u a x y : ℝ) : Prop := 0 < x ∧ (1 - u) ^ a * x ≤ y ∧ y ≤ x / (1 - u) ^ a

/-- the same in logarithms -/
theorem near_iff {u : ℝ} (u1 : u < 1) (a x y : ℝ) : Near u a x y ↔ 0 < x ∧ 0 < y ∧ |Real.log y - Real.log x| ≤ a * -Real.log (1 - u) := by
  have v0 : 0 < 1 - u := by linarith
  have pa : 0 < (1 - u) ^ a := Real.rpow_pos_of_pos v0 a
  constructor
  · rintro ⟨hx, h1, h2⟩
    have hy : 0 < y := lt_of_lt_of_le (mul_pos pa hx) h1
    refine ⟨hx, hy, abs_le.mpr ⟨?_, ?_⟩⟩
    · have := Real.log_le_log (mul_pos pa hx) h1
      rw [Real.log_mul pa.ne' hx.ne', Real.log_rpow v0] at this
      linarith
    · have := Real.log_le_log hy h2
      rw [Real.log_div hx.ne' pa.ne', Real.log_rpow v0] at this
      linarith
  · rintro ⟨hx, hy, h⟩
    obtain ⟨h1, h2⟩ := abs_le.mp h
    refine ⟨hx, ?_, ?_⟩
    · rw [← Real.log_le_log_iff (mul_pos pa hx) hy, Real.log_mul pa.ne' hx.ne', Real.log_rpow v0]
      linarith
    · rw [← Real.log_le_log_iff hy (div_pos hx pa), Real.log_div hx.ne' pa.ne', Real.log_rpow v0]
      linarith

theorem near_rel {u a x y : ℝ} (u1 : u ≤ 1) (a1 : 1 ≤ a) (hau : a * u < 1) (h : Near u a x y) : |y - x| ≤ a * u / (1 - a * u) * x := by
  obtain ⟨hx, h1, h2⟩ := h
  have b : 1 - a * u ≤ (1 - u) ^ a := by
    have := one_add_mul_self_le_rpow_one_add (show (-1 : ℝ) ≤ -u by linarith) a1
    rw [show (1 : ℝ) + -u = 1 - u by ring] at this
    linarith
  have q : 0 < 1 - a * u := by linarith
  have au : 0 ≤ a * u ∨ a * u < 0 := le_or_gt 0 _
  have e1 : x / (1 - u) ^ a ≤ x / (1 - a * u) := div_le_div_of_nonneg_left hx.le q b
  have e2 : x / (1 - a * u) = x + a * u / (1 - a * u) * x := by field_simp; ring
  have e3 : (1 - a * u) * x ≤ (1 - u) ^ a * x := mul_le_mul_of_nonneg_right b hx.le
  have e4 : a * u * x ≤ a * u / (1 - a * u) * x := by
    apply mul_le_mul_of_nonneg_right _ hx.le
    rw [le_div_iff₀ q]
    nlinarith [sq_nonneg (a * u)]
  rw [abs_le]
  constructor <;> nlinarith

section rules
variable {u a b x y x' y' : ℝ} (u0 : 0 ≤ u) (u1 : u < 1)
include u0 u1

theorem L_nonneg : 0 ≤ -Real.log (1 - u) := by
  have := Real.log_nonpos (by linarith) (show 1 - u ≤ 1 by linarith)
  linarith

theorem near_refl (hx : 0 < x) : Near u 0 x x := (near_iff u1 _ _ _).mpr ⟨hx, hx, by simp⟩

theorem near_up (hab : a ≤ b) (h : Near u a x y) : Near u b x y := by
  rw [near_iff u1] at h ⊢
  exact ⟨h.1, h.2.1, h.2.2.trans (mul_le_mul_of_nonneg_right hab (L_nonneg u0 u1))⟩

theorem near_symm (h : Near u a x y) : Near u a y x := by
  rw [near_iff u1] at h ⊢
  exact ⟨h.2.1, h.1, by rw [abs_sub_comm]; exact h.2.2⟩

theorem near_trans {z : ℝ} (h : Near u a x y) (h' : Near u b y z) : Near u (a + b) x z := by
  rw [near_iff u1] at h h' ⊢
  refine ⟨h.1, h'.2.1, ?_⟩
  have := abs_add_le (Real.log z - Real.log y) (Real.log y - Real.log x)
  rw [sub_add_sub_cancel] at this
  linarith [h.2.2, h'.2.2]

theorem near_mul (h : Near u a x y) (h' : Near u b x' y') : Near u (a + b) (x * x') (y * y') := by
  rw [near_iff u1] at h h' ⊢
  obtain ⟨p1, p2, p3⟩ := h
  obtain ⟨q1, q2, q3⟩ := h'
  refine ⟨mul_pos p1 q1, mul_pos p2 q2, ?_⟩
  rw [Real.log_mul p1.ne' q1.ne', Real.log_mul p2.ne' q2.ne', abs_le]
  rw [abs_le] at p3 q3
  constructor <;> linarith

theorem near_div (h : Near u a x y) (h' : Near u b x' y') : Near u (a + b) (x / x') (y / y') := by
  rw [near_iff u1] at h h' ⊢
  obtain ⟨p1, p2, p3⟩ := h
  obtain ⟨q1, q2, q3⟩ := h'
  refine ⟨div_pos p1 q1, div_pos p2 q2, ?_⟩
  rw [Real.log_div p1.ne' q1.ne', Real.log_div p2.ne' q2.ne', abs_le]
  rw [abs_le] at p3 q3
  constructor <;> linarith

theorem near_rpow (e : ℝ) (h : Near u a x y) : Near u (|e| * a) (x ^ e) (y ^ e) := by
  rw [near_iff u1] at h ⊢
  obtain ⟨p1, p2, p3⟩ := h
  refine ⟨Real.rpow_pos_of_pos p1 e, Real.rpow_pos_of_pos p2 e, ?_⟩
  rw [Real.log_rpow p1, Real.log_rpow p2, ← mul_sub, abs_mul, mul_assoc]
  exact mul_le_mul_of_nonneg_left p3 (abs_nonneg e)

theorem near_sqrt (h : Near u a x y) : Near u (a / 2) (Real.sqrt x) (Real.sqrt y) := by
  have := near_rpow u0 u1 (1 / 2) h
  rw [← Real.sqrt_eq_rpow, ← Real.sqrt_eq_rpow, abs_of_pos (by norm_num : (0 : ℝ) < 1 / 2)] at this
  rwa [div_eq_inv_mul, ← one_div]

theorem near_add (h : Near u a x y) (h' : Near u a x' y') : Near u a (x + x') (y + y') :=
  ⟨add_pos h.1 h'.1, by rw [mul_add]; exact add_le_add h.2.1 h'.2.1, by rw [add_div]; exact add_le_add h.2.2 h'.2.2⟩

end rules

theorem near_pos {u a x y : ℝ} (u1 : u < 1) (h : Near u a x y) : 0 < y := ((near_iff u1 _ _ _).mp h).2.1

/-- one rounding -/
theorem near_one {p : ℕ} (hp : 1 ≤ p) {y : ℝ} (hy : 0 < y) : Near (ulp p) 1 y ((fmt p hp).r y) := by
  obtain ⟨u0, u1⟩ := ulp_range hp
  have e := binary_rel p y
  rw [abs_of_pos hy, abs_le] at e
  change -(ulp p * y) ≤ (fmt p hp).r y - y ∧ (fmt p hp).r y - y ≤ ulp p * y at e
  refine ⟨hy, ?_, ?_⟩
  · rw [Real.rpow_one]; linarith
  · rw [Real.rpow_one, le_div_iff₀ (by linarith)]
    nlinarith [sq_nonneg (ulp p)]

theorem near_round {p : ℕ} (hp : 1 ≤ p) {a x y : ℝ} (h : Near (ulp p) a x y) : Near (ulp p) (a + 1) x ((fmt p hp).r y) := by
  obtain ⟨u0, u1⟩ := ulp_range hp
  exact near_trans u0.le (by linarith) h (near_one hp (near_pos (by linarith) h))

/-- sums of positive terms in any order -/
theorem near_sum {p : ℕ} (hp : 1 ≤ p) (j : ℝ) (f g : ℕ → ℝ) (S : Order) (h : ∀ i ∈ S.terms, Near (ulp p) j (f i) (g i)) :
    Near (ulp p) (j + ((S.terms.length : ℝ) - 1)) (S.terms.map f).sum (S.sum (fmt p hp) g) := by
  obtain ⟨u0, u1⟩ := ulp_range hp
  have u1' : ulp p < 1 := by linarith
  induction S with
  | term i =>
    simpa [Order.terms, Order.sum] using h i (by simp [Order.terms])
  | add a b iha ihb =>
    simp only [Order.terms, List.mem_append] at h
    have ha := iha (fun i hi => h i (Or.inl hi))
    have hb := ihb (fun i hi => h i (Or.inr hi))
    have na : (1 : ℝ) ≤ a.terms.length := by exact_mod_cast terms_ne a
    have nb : (1 : ℝ) ≤ b.terms.length := by exact_mod_cast terms_ne b
    have ha' := near_up u0.le u1' (b := j + ((a.terms.length : ℝ) + b.terms.length - 2)) (by linarith) ha
    have hb' := near_up u0.le u1' (b := j + ((a.terms.length : ℝ) + b.terms.length - 2)) (by linarith) hb
    have := near_round hp (near_add u0.le u1' ha' hb')
    simp only [Order.terms, Order.sum, List.map_append, List.sum_append, List.length_append]
    refine near_up u0.le u1' ?_ this
    push_cast
    linarith

/-! ### Kahan's sum -/

theorem r_rel {p : ℕ} (hp : 1 ≤ p) (x : ℝ) : |(fmt p hp).r x - x| ≤ ulp p * |x| := binary_rel p x

/-- after the first term: one more term costs at most 7 errors, and the compensation stays small -/
theorem kahan_step {p : ℕ} (hp : 1 ≤ p) (h6 : 6 ≤ p) {s c x : ℝ} (hs : 0 < s) (hx : 0 ≤ x) (hc : |c| ≤ 4 * ulp p * s) :
    Near (ulp p) 7 (s + x) (kahanStep (fmt p hp) (s, c) x).1 ∧
    |(kahanStep (fmt p hp) (s, c) x).2| ≤ 4 * ulp p * (kahanStep (fmt p hp) (s, c) x).1 := by
  obtain ⟨u0, -⟩ := ulp_range hp
  have u6 : ulp p ≤ 1 / 64 := by
    have : (2 : ℝ) ^ (-(p : ℤ)) ≤ 2 ^ (-6 : ℤ) := zpow_le_zpow_right₀ (by norm_num) (by omega)
    unfold ulp
    refine this.trans ?_
    norm_num
  simp only [kahanStep]
  generalize hy : (fmt p hp).r (x - c) = y
  generalize ht : (fmt p hp).r (s + y) = t
  generalize hd : (fmt p hp).r (t - s) = e
  have ry := r_rel hp (x - c)
  have rt := r_rel hp (s + y)
  have rd := r_rel hp (t - s)
  have rc := r_rel hp (e - y)
  rw [hy] at ry
  rw [ht] at rt
  rw [hd] at rd
  generalize hk : (fmt p hp).r (e - y) = k at rc
  generalize ulp p = u at *
  have hxc : |x - c| ≤ x + 4 * u * s := by
    have := abs_sub x c
    rw [abs_of_nonneg hx] at this
    linarith
  have ycx : |y - x| ≤ 5 * u * (s + x) := by
    have h1 : |y - x| ≤ |y - (x - c)| + |c| := by
      have := abs_sub_le y (x - c) x
      rw [show x - c - x = -c by ring, abs_neg] at this
      exact this
    have h2 : u * |x - c| ≤ u * (x + 4 * u * s) := mul_le_mul_of_nonneg_left hxc u0.le
    have h3 : u * (4 * u * s) ≤ u * s := by
      apply mul_le_mul_of_nonneg_left _ u0.le
      nlinarith
    nlinarith [mul_nonneg u0.le hx, mul_pos u0 hs]
  have sy : |s + y - (s + x)| ≤ 5 * u * (s + x) := by rwa [show s + y - (s + x) = y - x by ring]
  rw [abs_le] at sy ycx
  have sx : 0 < s + x := by linarith
  have q1 : (1 - 5 * u) * (s + x) ≤ s + y := by linarith
  have q2 : s + y ≤ (1 + 5 * u) * (s + x) := by linarith
  have sy0 : 0 < s + y := lt_of_lt_of_le (mul_pos (by linarith) sx) q1
  rw [abs_of_pos sy0, abs_le] at rt
  have t1 : (1 - u) * (s + y) ≤ t := by linarith
  have t2 : t ≤ (1 + u) * (s + y) := by linarith
  have t0 : 0 < t := lt_of_lt_of_le (mul_pos (by linarith) sy0) t1
  have v1 : (1 - u) ^ (7 : ℝ) = (1 - u) ^ 7 := by
    rw [show (7 : ℝ) = ((7 : ℕ) : ℝ) by norm_num, Real.rpow_natCast]
  have v0 : 0 < 1 - u := by linarith
  have b6 : (1 - u) ^ 6 ≤ 1 - 5 * u := by
    have h2 : (1 - u) ^ 2 ≤ 1 - 2 * u + u ^ 2 := by nlinarith
    have h3 : (1 - u) ^ 3 ≤ 1 - 3 * u + 3 * u ^ 2 := by nlinarith [pow_pos u0 3]
    have : (1 - u) ^ 6 = (1 - u) ^ 3 * (1 - u) ^ 3 := by ring
    have h3' : 0 ≤ (1 - u) ^ 3 := by positivity
    have : (1 - u) ^ 6 ≤ (1 - 3 * u + 3 * u ^ 2) ^ 2 := by rw [this, pow_two]; exact mul_le_mul h3 h3 h3' (h3'.trans h3)
    refine this.trans ?_
    nlinarith [pow_pos u0 2, pow_pos u0 3, pow_pos u0 4, mul_pos (pow_pos u0 2) (show 0 < 1 - u by linarith)]
  refine ⟨⟨sx, ?_, ?_⟩, ?_⟩
  · rw [v1]
    calc (1 - u) ^ 7 * (s + x) = (1 - u) * ((1 - u) ^ 6 * (s + x)) := by ring
      _ ≤ (1 - u) * ((1 - 5 * u) * (s + x)) := mul_le_mul_of_nonneg_left (mul_le_mul_of_nonneg_right b6 sx.le) v0.le
      _ ≤ (1 - u) * (s + y) := mul_le_mul_of_nonneg_left q1 v0.le
      _ ≤ t := t1
  · rw [v1, le_div_iff₀ (by positivity)]
    have h7 : (1 - u) ^ 7 * ((1 + u) * (1 + 5 * u)) ≤ 1 := by
      have e1 : (1 - u) ^ 7 = (1 - u) ^ 6 * (1 - u) := by ring
      calc (1 - u) ^ 7 * ((1 + u) * (1 + 5 * u)) = (1 - u) ^ 6 * ((1 - u) * ((1 + u) * (1 + 5 * u))) := by rw [e1]; ring
        _ ≤ (1 - 5 * u) * ((1 - u) * ((1 + u) * (1 + 5 * u))) := mul_le_mul_of_nonneg_right b6 (by positivity)
        _ = (1 - 25 * u ^ 2) * (1 - u ^ 2) := by ring
        _ ≤ 1 := by
          have hu : u ^ 2 ≤ 1 := by nlinarith
          exact mul_le_one₀ (by linarith [pow_pos u0 2]) (by linarith) (by linarith [pow_pos u0 2])
    calc t * (1 - u) ^ 7 ≤ (1 + u) * ((1 + 5 * u) * (s + x)) * (1 - u) ^ 7 := by
          apply mul_le_mul_of_nonneg_right _ (by positivity)
          exact t2.trans (mul_le_mul_of_nonneg_left q2 (by linarith))
      _ = (1 - u) ^ 7 * ((1 + u) * (1 + 5 * u)) * (s + x) := by ring
      _ ≤ 1 * (s + x) := mul_le_mul_of_nonneg_right h7 sx.le
      _ = s + x := one_mul _
  · -- the compensation
    have hst : (1 - 7 * u) * s ≤ t := by
      have h1 : (1 - u) * ((1 - 5 * u) * (s + x)) ≤ t := (mul_le_mul_of_nonneg_left q1 v0.le).trans t1
      have h2 : (1 - 7 * u) ≤ (1 - u) * (1 - 5 * u) := by nlinarith [sq_nonneg u]
      have h3 : (1 - 7 * u) * (s + x) ≤ t := le_trans (by rw [← mul_assoc]; exact mul_le_mul_of_nonneg_right h2 sx.le) h1
      have h4 : 0 ≤ (1 - 7 * u) * x := mul_nonneg (by linarith) hx
      rw [mul_add] at h3
      linarith
    have hs' : s ≤ 9 / 8 * t := by
      have : 57 / 64 * s ≤ (1 - 7 * u) * s := mul_le_mul_of_nonneg_right (by linarith) hs.le
      linarith
    have hts : |t - s| ≤ 9 / 8 * t := by
      rw [abs_le]
      constructor <;> linarith
    have hsy : s + y ≤ 33 / 32 * t := by
      have : 63 / 64 * (s + y) ≤ (1 - u) * (s + y) := mul_le_mul_of_nonneg_right (by linarith) sy0.le
      linarith
    have hey : |e - y| ≤ u * (s + y) + u * (9 / 8 * t) := by
      have h1 : e - y = (e - (t - s)) + (t - (s + y)) := by ring
      rw [h1]
      refine (abs_add_le _ _).trans ?_
      have h2 : |t - (s + y)| ≤ u * (s + y) := abs_le.mpr rt
      have h3 : u * |t - s| ≤ u * (9 / 8 * t) := mul_le_mul_of_nonneg_left hts u0.le
      linarith
    have hey' : |e - y| ≤ 3 * u * t := by
      have := mul_le_mul_of_nonneg_left hsy u0.le
      have := mul_pos u0 t0
      linarith
    have hkk : |k| ≤ |e - y| + u * |e - y| := by
      have := abs_sub_le k (e - y) 0
      simp only [sub_zero] at this
      linarith
    have h1 : u * |e - y| ≤ 1 / 64 * (3 * u * t) := mul_le_mul u6 hey' (abs_nonneg _) (by norm_num)
    have := mul_pos u0 t0
    linarith

theorem kahan_first {p : ℕ} (hp : 1 ≤ p) {x : ℝ} (hx : (fmt p hp).Rep x) : kahanStep (fmt p hp) (0, 0) x = (x, 0) := by
  unfold Rounding.Rep at hx
  have z := r_zero (fmt p hp)
  simp only [kahanStep, sub_zero, zero_add, hx, sub_self, z]

theorem kahan_fold {p : ℕ} (hp : 1 ≤ p) (h6 : 6 ≤ p) {α : Type} (j : ℝ) (f g : α → ℝ) (l : List α) (h : ∀ i ∈ l, Near (ulp p) j (f i) (g i))
    {a s c x : ℝ} (ja : j ≤ a) (hs : Near (ulp p) a x s) (hc : |c| ≤ 4 * ulp p * s) :
    Near (ulp p) (a + 7 * l.length) (x + (l.map f).sum) ((l.map g).foldl (kahanStep (fmt p hp)) (s, c)).1 := by
  obtain ⟨u0, u1⟩ := ulp_range hp
  have u1' : ulp p < 1 := by linarith
  induction l generalizing a s c x with
  | nil => simpa using hs
  | cons i l ih =>
    have hi := near_up u0.le u1' ja (h i (by simp))
    obtain ⟨k1, k2⟩ := kahan_step hp h6 (near_pos u1' hs) (near_pos u1' hi).le hc
    have st := near_trans u0.le u1' (near_add u0.le u1' hs hi) k1
    simp only [List.map_cons, List.foldl_cons, List.sum_cons, List.length_cons]
    generalize kahanStep (fmt p hp) (s, c) (g i) = z at k2 st ⊢
    obtain ⟨s', c'⟩ := z
    have := ih (fun i' hi' => h i' (by simp [hi'])) (a := a + 7) (by linarith) st k2
    rw [← add_assoc]
    refine near_up u0.le u1' ?_ this
    push_cast
    linarith

/-- pandas' compensated sum of `n` positive terms -/
theorem C257_sum {p : ℕ} (hp : 1 ≤ p) (h6 : 6 ≤ p) {α : Type} (j : ℝ) (f g : α → ℝ) (l : List α) (hl : l ≠ []) (h : ∀ i ∈ l, Near (ulp p) j (f i) (g i))
    (hr : ∀ i ∈ l, (fmt p hp).Rep (g i)) : Near (ulp p) (j + 7 * ((l.length : ℝ) - 1)) (l.map f).sum (kahan (fmt p hp) (l.map g)) := by
  obtain ⟨u0, u1⟩ := ulp_range hp
  have u1' : ulp p < 1 := by linarith
  cases l with
  | nil => exact absurd rfl hl
  | cons i l =>
    have hi := h i (by simp)
    unfold kahan
    simp only [List.map_cons, List.foldl_cons, List.sum_cons, List.length_cons]
    rw [kahan_first hp (hr i (by simp))]
    have := kahan_fold hp h6 j f g l (fun i' hi' => h i' (by simp [hi'])) (le_refl j) hi (c := 0)
      (by rw [abs_zero]; have := near_pos u1' hi; positivity)
    refine near_up u0.le u1' ?_ this
    push_cast
    linarith

/-! ## C257 -/

section quantities
variable {p : ℕ} (hp : 1 ≤ p) (K : Const) (d : RData)

/-- the mass density of one species: one error -/
theorem near_rho {s : String} (hn : 0 < d.n s) : Near (ulp p) 1 (rR K d s) (rhoR (fmt p hp) K d s) := near_one hp (mul_pos hn (K.mInMp_pos s))

theorem near_wsq {c s : String} (hw : 0 < d.w s c) : Near (ulp p) 3 ((d.w s c * K.uV) ^ 2) (wsqR (fmt p hp) K d c s) := by
  obtain ⟨u0, u1⟩ := ulp_range hp
  have u1' : ulp p < 1 := by linarith
  have h := near_one hp (mul_pos hw K.uV_pos)
  have := near_round hp (near_mul u0.le u1' h h)
  rw [pow_two]
  exact near_up u0.le u1' (by norm_num) this

/-- the pressure of one species: eight errors -/
theorem near_pth {c s : String} (hn : 0 < d.n s) (hw : 0 < d.w s c) : Near (ulp p) 8 (pR K d c s) (pthR (fmt p hp) K d c s) := by
  obtain ⟨u0, u1⟩ := ulp_range hp
  have u1' : ulp p < 1 := by linarith
  have hr := near_round hp (near_mul u0.le u1' (near_rho hp K d hn) (near_refl u0.le u1' K.uRho_pos))
  have h1 := near_round hp (near_mul u0.le u1' (near_wsq hp K d hw) hr)
  have h2 := near_one hp (show 0 < 1 / 2 / K.uPth from div_pos (by norm_num) K.uPth_pos)
  have h3 := near_round hp (near_mul u0.le u1' h2 h1)
  have e : pR K d c s = 1 / 2 / K.uPth * ((d.w s c * K.uV) ^ 2 * (rR K d s * K.uRho)) := by
    unfold pR rR
    norm_num
  rw [e]
  exact near_up u0.le u1' (by norm_num) h3

/-- the temperature of one species: seven errors -/
theorem near_temp {c s : String} (hw : 0 < d.w s c) : Near (ulp p) 7 (tR K d c s) (tempR (fmt p hp) K d c s) := by
  obtain ⟨u0, u1⟩ := ulp_range hp
  have u1' : ulp p < 1 := by linarith
  have h1 := near_one hp (show 0 < 1 / 2 * K.m s from mul_pos (by norm_num) (K.m_pos s))
  have h2 := near_one hp (mul_pos K.kbJ_pos K.uT_pos)
  have h3 := near_round hp (near_div u0.le u1' h1 h2)
  have h4 := near_round hp (near_mul u0.le u1' h3 (near_wsq hp K d hw))
  have e : tR K d c s = 1 / 2 * K.m s / (K.kbJ * K.uT) * (d.w s c * K.uV) ^ 2 := by
    unfold tR
    norm_num
  rw [e]
  exact near_up u0.le u1' (by norm_num) h4

theorem across_sum (ps : List String) (f : String → ℝ) {S : Order} (hS : S.Of ps.length) :
    (S.terms.map fun i => f (ps.getD i "")).sum = (ps.map f).sum := by
  rw [of_sum hS (fun i => f (ps.getD i ""))]
  clear hS S
  induction ps using List.reverseRecOn with
  | nil => simp
  | append_singleton l a ih =>
    rw [List.length_append, List.length_singleton, Finset.sum_range_succ, List.map_append, List.sum_append, ← ih]
    congr 1
    · apply Finset.sum_congr rfl
      intro i hi
      have hi' := Finset.mem_range.mp hi
      simp [List.getD, List.getElem?_append_left hi']
    · simp [List.getD]

theorem near_field {T : Order} (hT : T.Of 3) (hb : bsqR d ≠ 0) : Near (ulp p) (5 / 2) (Real.sqrt (bsqR d)) (mag (fmt p hp) T (field d)) := by
  obtain ⟨u0, u1⟩ := ulp_range hp
  have u1' : ulp p < 1 := by linarith
  -- the squares may vanish: bound the sum with the inequalities for nonnegative terms
  have h := sum_within hp 1 (fun i => field d i * field d i) (fun i => (fmt p hp).r (field d i * field d i)) T (fun i _ => mul_self_nonneg _)
    (fun i _ => sq_nonneg' _ _) (fun i _ => within_sq hp (field d i))
  rw [of_sum hT, of_length hT] at h
  have e : ∑ i ∈ Finset.range 3, field d i * field d i = bsqR d := by
    simp only [Finset.sum_range_succ, Finset.sum_range_zero, field, bsqR]
    norm_num
    ring
  rw [e] at h
  have b0 : 0 < bsqR d := lt_of_le_of_ne (bsqR_nonneg d) (Ne.symm hb)
  simp only [Nat.reduceSub, Nat.reduceAdd] at h
  have n3 : Near (ulp p) 3 (bsqR d) (T.sum (fmt p hp) fun i => (fmt p hp).r (field d i * field d i)) := by
    have v : (1 - ulp p) ^ (3 : ℝ) = (1 - ulp p) ^ 3 := by rw [show (3 : ℝ) = ((3 : ℕ) : ℝ) by norm_num, Real.rpow_natCast]
    refine ⟨b0, by rw [v]; exact h.1, ?_⟩
    have v0 : 0 < 1 - ulp p := by linarith
    rw [v, le_div_iff₀ (by positivity)]
    have q : (1 + ulp p) ^ 3 * (1 - ulp p) ^ 3 ≤ 1 := by
      rw [← mul_pow]
      apply pow_le_one₀
      · nlinarith
      · nlinarith
    calc _ ≤ (1 + ulp p) ^ 3 * bsqR d * (1 - ulp p) ^ 3 := mul_le_mul_of_nonneg_right h.2 (by positivity)
      _ = (1 + ulp p) ^ 3 * (1 - ulp p) ^ 3 * bsqR d := by ring
      _ ≤ 1 * bsqR d := mul_le_mul_of_nonneg_right q b0.le
      _ = bsqR d := one_mul _
  have := near_round hp (near_sqrt u0.le u1' n3)
  exact near_up u0.le u1' (by norm_num) this

/-- every species is there: positive density and thermal speeds -/
structure Present (ps : List String) : Prop where
  some : ps ≠ []
  n : ∀ s ∈ ps, 0 < d.n s
  w : ∀ s ∈ ps, ∀ c ∈ ["par", "per", "scalar"], 0 < d.w s c

theorem C257_density {ps : List String} (h : Present d ps) {S : Order} (hS : S.Of ps.length) :
    ∃ x, rhoTot K d.obs ps = .fin x ∧ Near (ulp p) ps.length x (rhoTotR (fmt p hp) S K d ps) := by
  obtain ⟨u0, u1⟩ := ulp_range hp
  refine ⟨_, rhoTot_fin (d.measured ps), ?_⟩
  have hs : ∀ i ∈ S.terms, ps.getD i "" ∈ ps := by
    intro i hi
    have hi' := (mem_of hS i).mp hi
    have e : ps.getD i "" = ps[i] := by simp [List.getD, List.getElem?_eq_getElem hi']
    rw [e]
    exact List.getElem_mem hi'
  have := near_sum hp 1 (fun i => rR K d (ps.getD i "")) (fun i => rhoR (fmt p hp) K d (ps.getD i "")) S
    (fun i hi => near_rho hp K d (h.n _ (hs i hi)))
  rw [across_sum ps (rR K d) hS, of_length hS] at this
  exact near_up u0.le (by linarith) (by linarith) this

theorem C257_pressure (h6 : 6 ≤ p) {ps : List String} (h : Present d ps) {c : String} (hc : c ∈ ["par", "per", "scalar"]) :
    ∃ x, pthTot K d.obs c ps = .fin x ∧ Near (ulp p) (7 * ps.length + 1) x (pthTotR (fmt p hp) K d c ps) := by
  obtain ⟨u0, u1⟩ := ulp_range hp
  refine ⟨_, pthTot_fin (d.measured ps) hc, ?_⟩
  have := C257_sum hp h6 8 (pR K d c) (pthR (fmt p hp) K d c) ps h.some (fun s hs => near_pth hp K d (h.n s hs) (h.w s hs c hc))
    (fun s _ => (fmt p hp).idem _)
  exact near_up u0.le (by linarith) (by linarith) this

theorem C257_temperature (h6 : 6 ≤ p) {ps : List String} (h : Present d ps) {c : String} (hc : c ∈ ["par", "per", "scalar"]) :
    ∃ x, tempTot K d.obs c ps = .fin x ∧ Near (ulp p) (7 * ps.length) x (tempTotR (fmt p hp) K d c ps) := by
  obtain ⟨u0, u1⟩ := ulp_range hp
  refine ⟨_, tempTot_fin (d.measured ps) hc, ?_⟩
  have := C257_sum hp h6 7 (tR K d c) (tempR (fmt p hp) K d c) ps h.some (fun s hs => near_temp hp K d (h.w s hs c hc))
    (fun s _ => (fmt p hp).idem _)
  exact near_up u0.le (by linarith) (by linarith) this

theorem C257_beta (h6 : 6 ≤ p) {ps : List String} (h : Present d ps) {c : String} (hc : c ∈ ["par", "per", "scalar"]) {T : Order} (hT : T.Of 3)
    (hb : ¬ (d.bx = 0 ∧ d.by_ = 0 ∧ d.bz = 0)) :
    ∃ x, betaOf K d.obs (pthTot K d.obs c ps) = .fin x ∧
      Near (ulp p) (7 * ps.length + 13) x (betaOfR (fmt p hp) T K d (pthTotR (fmt p hp) K d c ps)) := by
  obtain ⟨u0, u1⟩ := ulp_range hp
  have u1' : ulp p < 1 := by linarith
  have hb' : bsqR d ≠ 0 := by
    intro e
    unfold bsqR at e
    apply hb
    refine ⟨?_, ?_, ?_⟩ <;> nlinarith [sq_nonneg d.bx, sq_nonneg d.by_, sq_nonneg d.bz]
  obtain ⟨x, hx, nx⟩ := C257_pressure hp K d h6 h hc
  refine ⟨_, by rw [hx]; exact betaOf_fin (d.measured ps) hb' x, ?_⟩
  have f := near_field hp d hT hb'
  have f2 := near_round hp (near_mul u0.le u1' f f)
  rw [Real.mul_self_sqrt (bsqR_nonneg d)] at f2
  have q := near_round hp (near_div u0.le u1' nx f2)
  have k1 := near_one hp (mul_pos K.uB_pos K.uB_pos)
  have k2 := near_round hp (near_div u0.le u1' (near_refl u0.le u1' K.uPth_pos) k1)
  have k3 := near_one hp (show 0 < 2 * K.mu0 from mul_pos (by norm_num) K.mu0_pos)
  have k4 := near_round hp (near_mul u0.le u1' k3 k2)
  have r := near_round hp (near_mul u0.le u1' q k4)
  have e : 2 * K.mu0 * (x * K.uPth) / (bsqR d * K.uB ^ 2) = x / bsqR d * (2 * K.mu0 * (K.uPth / (K.uB * K.uB))) := by
    have := K.uB_pos.ne'
    field_simp
  rw [e]
  exact near_up u0.le u1' (by linarith) r

theorem C257_sound (h6 : 6 ≤ p) {ps : List String} (h : Present d ps) {S : Order} (hS : S.Of ps.length) :
    ∃ x, csOf K (pthTot K d.obs "scalar" ps) (rhoTot K d.obs ps) = .fin x ∧
      Near (ulp p) (4 * ps.length + 9 / 2) x (csOfR (fmt p hp) K (pthTotR (fmt p hp) K d "scalar" ps) (rhoTotR (fmt p hp) S K d ps)) := by
  obtain ⟨u0, u1⟩ := ulp_range hp
  have u1' : ulp p < 1 := by linarith
  obtain ⟨x, hx, nx⟩ := C257_pressure hp K d h6 h (c := "scalar") (by simp)
  obtain ⟨y, hy, ny⟩ := C257_density hp K d h hS
  have h1 := near_round hp (near_mul u0.le u1' nx (near_refl u0.le u1' K.uPth_pos))
  have h2 := near_round hp (near_mul u0.le u1' ny (near_refl u0.le u1' K.uRho_pos))
  have h3 := near_round hp (near_div u0.le u1' h1 h2)
  have h4 := near_round hp (near_mul u0.le u1' h3 (near_refl u0.le u1' K.gamma_pos))
  have h5 := near_round hp (near_sqrt u0.le u1' h4)
  have h7 := near_round hp (near_div u0.le u1' h5 (near_refl u0.le u1' K.uV_pos))
  refine ⟨Real.sqrt (x * K.uPth / (y * K.uRho) * K.gamma) / K.uV, ?_, near_up u0.le u1' (by linarith) h7⟩
  unfold csOf
  rw [hx, hy, Fl.fin_mul, Fl.fin_mul, Fl.fin_div _ _ h2.1.ne', Fl.fin_mul, Fl.sqrt_fin _ h4.1.le, Fl.fin_div _ _ K.uV_pos.ne']

/-- what is assumed of the library's power: at most `j` errors -/
def PowerOk (p : ℕ) (j : ℝ) (pw : ℝ → ℝ → ℝ) : Prop := ∀ x e : ℝ, 0 < x → Near (ulp p) j (x ^ e) (pw x e)

/-- the correctly rounded power, for instance, with one error -/
theorem power_rounded : PowerOk p 1 fun x e => (fmt p hp).r (x ^ e) := fun _ e hx => near_one hp (Real.rpow_pos_of_pos hx e)

include hp in
theorem near_power {j : ℝ} {pw : ℝ → ℝ → ℝ} (hw : PowerOk p j pw) (e : ℝ) {a x y : ℝ} (h : Near (ulp p) a x y) :
    Near (ulp p) (|e| * a + j) (x ^ e) (pw y e) := by
  obtain ⟨u0, u1⟩ := ulp_range hp
  have u1' : ulp p < 1 := by linarith
  exact near_trans u0.le u1' (near_rpow u0.le u1' e h) (hw y e (near_pos u1' h))

theorem C257_alfven {j : ℝ} {pw : ℝ → ℝ → ℝ} (hw : PowerOk p j pw) {ps : List String} (h : Present d ps) {S T : Order} (hS : S.Of ps.length)
    (hT : T.Of 3) (hb : ¬ (d.bx = 0 ∧ d.by_ = 0 ∧ d.bz = 0)) :
    ∃ x, caOf K d.obs (rhoTot K d.obs ps) = .fin x ∧
      Near (ulp p) (ps.length / 2 + j + 8) x (caOfR (fmt p hp) T pw K d (rhoTotR (fmt p hp) S K d ps)) := by
  obtain ⟨u0, u1⟩ := ulp_range hp
  have u1' : ulp p < 1 := by linarith
  have hb' : bsqR d ≠ 0 := by
    intro e
    unfold bsqR at e
    apply hb
    refine ⟨?_, ?_, ?_⟩ <;> nlinarith [sq_nonneg d.bx, sq_nonneg d.by_, sq_nonneg d.bz]
  obtain ⟨y, hy, ny⟩ := C257_density hp K d h hS
  have h1 := near_power hp hw (-(1 / 2)) ny
  rw [abs_neg, abs_of_pos (by norm_num : (0 : ℝ) < 1 / 2)] at h1
  have h2 := near_round hp (near_mul u0.le u1' h1 (near_field hp d hT hb'))
  have k1 := near_one hp (mul_pos K.uRho_pos K.mu0_pos)
  have k2 := near_round hp (near_sqrt u0.le u1' k1)
  have k3 := near_round hp (near_mul u0.le u1' k2 (near_refl u0.le u1' K.uV_pos))
  have k4 := near_round hp (near_div u0.le u1' (near_refl u0.le u1' K.uB_pos) k3)
  have h3 := near_round hp (near_mul u0.le u1' h2 k4)
  refine ⟨_, ?_, near_up u0.le u1' (by linarith) h3⟩
  unfold caOf
  rw [hy, Fl.rpow_fin _ _ ny.1, bmag_fin (d.measured ps), Fl.fin_mul, Fl.fin_mul]

theorem C257_entropy (h6 : 6 ≤ p) {j : ℝ} {pw : ℝ → ℝ → ℝ} (hw : PowerOk p j pw) {ps : List String} (h : Present d ps) {S : Order} (hS : S.Of ps.length) :
    ∃ x, entropyOf K (pthTot K d.obs "scalar" ps) (rhoTot K d.obs ps) = .fin x ∧
      Near (ulp p) (7 * ps.length + K.gamma * (ps.length + 1) + j + 4) x
        (entropyOfR (fmt p hp) pw K (pthTotR (fmt p hp) K d "scalar" ps) (rhoTotR (fmt p hp) S K d ps)) := by
  obtain ⟨u0, u1⟩ := ulp_range hp
  have u1' : ulp p < 1 := by linarith
  obtain ⟨x, hx, nx⟩ := C257_pressure hp K d h6 h (c := "scalar") (by simp)
  obtain ⟨y, hy, ny⟩ := C257_density hp K d h hS
  have h1 := near_round hp (near_mul u0.le u1' nx (near_refl u0.le u1' K.uPth_pos))
  have h2 := near_round hp (near_mul u0.le u1' ny (near_refl u0.le u1' K.uRho_pos))
  have h3 := near_power hp hw (-K.gamma) h2
  rw [abs_neg, abs_of_pos K.gamma_pos] at h3
  have h4 := near_round hp (near_mul u0.le u1' h1 h3)
  have h5 := near_round hp (near_div u0.le u1' h4 (near_refl u0.le u1' K.uS_pos))
  refine ⟨_, ?_, near_up u0.le u1' (by linarith) h5⟩
  unfold entropyOf
  rw [hx, hy, Fl.fin_mul, Fl.fin_mul, Fl.rpow_fin _ _ h2.1, Fl.fin_mul, Fl.fin_div _ _ K.uS_pos.ne']

theorem C257_anisotropy (h6 : 6 ≤ p) {j : ℝ} {pw : ℝ → ℝ → ℝ} (hw : PowerOk p j pw) {ps : List String} (h : Present d ps) :
    ∃ x, aniOf (pthTot K d.obs "par" ps) (pthTot K d.obs "per" ps) = .fin x ∧
      Near (ulp p) (14 * ps.length + 2 * j + 3) x (aniOfR (fmt p hp) pw (pthTotR (fmt p hp) K d "par" ps) (pthTotR (fmt p hp) K d "per" ps)) := by
  obtain ⟨u0, u1⟩ := ulp_range hp
  have u1' : ulp p < 1 := by linarith
  obtain ⟨x, hx, nx⟩ := C257_pressure hp K d h6 h (c := "par") (by simp)
  obtain ⟨y, hy, ny⟩ := C257_pressure hp K d h6 h (c := "per") (by simp)
  have h1 := near_power hp hw (-1) nx
  have h2 := near_power hp hw 1 ny
  rw [abs_neg, abs_one] at h1
  rw [abs_one] at h2
  have h3 := near_round hp (near_mul u0.le u1' h1 h2)
  rw [Real.rpow_neg_one, Real.rpow_one] at h3
  refine ⟨_, ?_, near_up u0.le u1' (by linarith) h3⟩
  unfold aniOf
  rw [hx, hy, Fl.fin_div _ _ nx.1.ne', one_div]
  simp only [Fl.prodSkip_cons_fin, Fl.prodSkip_nil, Fl.one_def, Fl.fin_mul, mul_one]

end quantities

/-- in double precision: `a` errors are a relative error of at most `a` times 1.2e-16 -/
theorem C257_double {a x y : ℝ} (a1 : 1 ≤ a) (a2 : a ≤ 10 ^ 12) (h : Near (ulp 53) a x y) : |y - x| ≤ a * (12 / 10 ^ 17) * x := by
  have hu : ulp 53 = 1 / 2 ^ 53 := by
    unfold ulp
    norm_num
  have u0 : 0 < ulp 53 := by rw [hu]; norm_num
  have hau : a * ulp 53 ≤ 1 / 1000 := by
    rw [hu]
    have : a * (1 / 2 ^ 53) ≤ 10 ^ 12 * (1 / 2 ^ 53) := mul_le_mul_of_nonneg_right a2 (by norm_num)
    refine this.trans ?_
    norm_num
  refine (near_rel (by rw [hu]; norm_num) a1 (by linarith) h).trans ?_
  apply mul_le_mul_of_nonneg_right _ h.1.le
  rw [div_le_iff₀ (by linarith)]
  have h1 : ulp 53 ≤ (12 / 10 ^ 17) * (1 - 1 / 1000) := by rw [hu]; norm_num
  calc a * ulp 53 ≤ a * ((12 / 10 ^ 17) * (1 - 1 / 1000)) := mul_le_mul_of_nonneg_left h1 (by linarith)
    _ = a * (12 / 10 ^ 17) * (1 - 1 / 1000) := by ring
    _ ≤ _ := mul_le_mul_of_nonneg_left (by linarith) (by positivity)

/-- for example: the plasma beta of protons and alphas is accurate to 4e-15 -/
example (K : Const) : ∃ x, betaOf K (RData.obs ⟨fun _ => 3, fun _ => 400, fun _ => 0, fun _ => 0, fun _ _ => 50, 3, 4, 0⟩)
      (pthTot K (RData.obs ⟨fun _ => 3, fun _ => 400, fun _ => 0, fun _ => 0, fun _ _ => 50, 3, 4, 0⟩) "par" ["a", "p1"]) = .fin x ∧
    |betaOfR double xyz K ⟨fun _ => 3, fun _ => 400, fun _ => 0, fun _ => 0, fun _ _ => 50, 3, 4, 0⟩
      (pthTotR double K ⟨fun _ => 3, fun _ => 400, fun _ => 0, fun _ => 0, fun _ _ => 50, 3, 4, 0⟩ "par" ["a", "p1"]) - x| ≤ 4 / 10 ^ 15 * x := by
  obtain ⟨x, h1, h2⟩ := C257_beta (p := 53) (by norm_num) K ⟨fun _ => 3, fun _ => 400, fun _ => 0, fun _ => 0, fun _ _ => 50, 3, 4, 0⟩ (by norm_num)
    (ps := ["a", "p1"]) ⟨by simp, fun _ _ => by norm_num, fun _ _ _ _ => by norm_num⟩ (c := "par") (by simp) (T := xyz) (by unfold xyz Order.Of; decide)
    (by norm_num)
  refine ⟨x, h1, ?_⟩
  have := C257_double (by norm_num) (by norm_num) h2
  refine this.trans ?_
  apply mul_le_mul_of_nonneg_right _ h2.1.le
  norm_num

end Rnd
end SW
