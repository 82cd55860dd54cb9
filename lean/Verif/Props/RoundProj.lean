import Verif.RoundProj
import Verif.Props.RoundPhys2
import Verif.Props.RoundFit
import Verif.Props.PlasmaKinetic

/-!
# C286: projections with rounding; C287: ratio of distribution functions with rounding

Specification: `norm3 v` is the length, `along v b` the component of `v` along `b`, `across3 v b` the length of the rest.
-/

namespace SW
namespace Rnd

/-! ### specification -/

noncomputable def norm3 (v : ℕ → ℝ) : ℝ := Real.sqrt (v 0 ^ 2 + v 1 ^ 2 + v 2 ^ 2)

noncomputable def along (v b : ℕ → ℝ) : ℝ := (v 0 * b 0 + v 1 * b 1 + v 2 * b 2) / norm3 b

noncomputable def across3 (v b : ℕ → ℝ) : ℝ := Real.sqrt (norm3 v ^ 2 - along v b ^ 2)

/-! ### lengths -/

theorem norm3_nonneg (v : ℕ → ℝ) : 0 ≤ norm3 v := Real.sqrt_nonneg _

theorem norm3_sq (v : ℕ → ℝ) : norm3 v ^ 2 = v 0 ^ 2 + v 1 ^ 2 + v 2 ^ 2 := Real.sq_sqrt (by positivity)

theorem dot_le (a e : ℕ → ℝ) : |a 0| * |e 0| + |a 1| * |e 1| + |a 2| * |e 2| ≤ norm3 a * norm3 e := by
  apply le_of_sq_le_sq₀' _ (mul_nonneg (norm3_nonneg _) (norm3_nonneg _))
  rw [mul_pow, norm3_sq, norm3_sq, ← sq_abs (a 0), ← sq_abs (a 1), ← sq_abs (a 2), ← sq_abs (e 0), ← sq_abs (e 1), ← sq_abs (e 2)]
  generalize |a 0| = x; generalize |a 1| = y; generalize |a 2| = z
  generalize |e 0| = x'; generalize |e 1| = y'; generalize |e 2| = z'
  nlinarith [sq_nonneg (x * y' - y * x'), sq_nonneg (x * z' - z * x'), sq_nonneg (y * z' - z * y')]
where
  le_of_sq_le_sq₀' {x y : ℝ} (h : x ^ 2 ≤ y ^ 2) (hy : 0 ≤ y) : x ≤ y := le_of_abs_le_abs' h hy
  le_of_abs_le_abs' {x y : ℝ} (h : x ^ 2 ≤ y ^ 2) (hy : 0 ≤ y) : x ≤ y := by
    by_contra hc
    push Not at hc
    nlinarith

theorem norm3_le {a e : ℕ → ℝ} (h : ∀ i < 3, |a i| ≤ |e i|) : norm3 a ≤ norm3 e := by
  apply Real.sqrt_le_sqrt
  have := sq_le_sq.mpr (h 0 (by norm_num)); have := sq_le_sq.mpr (h 1 (by norm_num)); have := sq_le_sq.mpr (h 2 (by norm_num))
  linarith

theorem norm3_smul (c : ℝ) (v : ℕ → ℝ) : norm3 (fun i => c * v i) = |c| * norm3 v := by
  unfold norm3
  rw [show (c * v 0) ^ 2 + (c * v 1) ^ 2 + (c * v 2) ^ 2 = c ^ 2 * (v 0 ^ 2 + v 1 ^ 2 + v 2 ^ 2) by ring, Real.sqrt_mul (sq_nonneg _), Real.sqrt_sq_eq_abs]

theorem norm3_add (a e : ℕ → ℝ) : norm3 (fun i => a i + e i) ≤ norm3 a + norm3 e := by
  have h1 := dot_le a e
  have h2 := norm3_sq a
  have h3 := norm3_sq e
  have n1 := norm3_nonneg a
  have n2 := norm3_nonneg e
  apply Real.sqrt_le_iff.mpr
  refine ⟨by linarith, ?_⟩
  have a0 := le_abs_self (a 0 * e 0); have a1 := le_abs_self (a 1 * e 1); have a2 := le_abs_self (a 2 * e 2)
  rw [abs_mul] at a0 a1 a2
  nlinarith

theorem norm3_abs (v : ℕ → ℝ) : norm3 (fun i => |v i|) = norm3 v := by
  unfold norm3
  simp only [sq_abs]

theorem norm3_sub {a e : ℕ → ℝ} {c : ℕ → ℝ} (h : ∀ i < 3, |a i - e i| ≤ c i) : |norm3 a - norm3 e| ≤ norm3 c := by
  have c0 : ∀ i < 3, |a i - e i| ≤ |c i| := fun i hi => (h i hi).trans (le_abs_self _)
  have h1 := norm3_add e (fun i => a i - e i)
  have h2 := norm3_add a (fun i => e i - a i)
  simp only [add_sub_cancel] at h1 h2
  have h3 : norm3 (fun i => a i - e i) ≤ norm3 c := norm3_le c0
  have h4 : norm3 (fun i => e i - a i) ≤ norm3 c := norm3_le fun i hi => by rw [abs_sub_comm]; exact c0 i hi
  have e1 : norm3 (fun i => a i) = norm3 a := rfl
  have e2 : norm3 (fun i => e i) = norm3 e := rfl
  rw [abs_le]
  constructor <;> linarith

/-- the rest of a vector after its projection -/
theorem rest_sq (v b : ℕ → ℝ) (hb : 0 < norm3 b) : norm3 (fun i => v i - b i / norm3 b * along v b) = across3 v b := by
  unfold across3
  rw [← Real.sqrt_sq (norm3_nonneg (fun i => v i - b i / norm3 b * along v b)), norm3_sq]
  congr 1
  rw [norm3_sq v]
  have hs := norm3_sq b
  unfold along
  generalize norm3 b = n at *
  have n0 := hb.ne'
  field_simp
  rw [← sub_eq_zero]
  linear_combination (v 0 * b 0 + v 1 * b 1 + v 2 * b 2) ^ 2 * hs * (-1)

/-! ### sums of signed terms in any order -/

theorem sum_signed {p : ℕ} (hp : 1 ≤ p) (f : ℕ → ℝ) (S : Order) :
    |S.sum (fmt p hp) f - (S.terms.map f).sum| ≤ ((1 + ulp p) ^ (S.terms.length - 1) - 1) * (S.terms.map fun i => |f i|).sum := by
  obtain ⟨u0, -⟩ := ulp_range hp
  induction S with
  | term i => simp [Order.sum, Order.terms]
  | add a b iha ihb =>
    simp only [Order.sum, Order.terms, List.map_append, List.sum_append, List.length_append]
    have la := terms_ne a
    have lb := terms_ne b
    have abs_sum : ∀ S : Order, |(S.terms.map f).sum| ≤ (S.terms.map fun i => |f i|).sum := by
      intro S
      generalize S.terms = l
      induction l with
      | nil => simp
      | cons x l ih =>
        simp only [List.map_cons, List.sum_cons]
        exact (abs_add_le _ _).trans (by linarith)
    have sa := abs_sum a
    have sb := abs_sum b
    have r := r_rel hp (a.sum (fmt p hp) f + b.sum (fmt p hp) f)
    have g0 : ∀ n : ℕ, (1 : ℝ) ≤ (1 + ulp p) ^ n := fun n => one_le_pow₀ (by linarith)
    have gm : ∀ {m n : ℕ}, m ≤ n → (1 + ulp p) ^ m ≤ (1 + ulp p) ^ n := fun h => pow_le_pow_right₀ (by linarith) h
    have ga := gm (show a.terms.length - 1 ≤ a.terms.length + b.terms.length - 1 - 1 by omega)
    have gb := gm (show b.terms.length - 1 ≤ a.terms.length + b.terms.length - 1 - 1 by omega)
    have gs : (1 + ulp p) ^ (a.terms.length + b.terms.length - 1) = (1 + ulp p) * (1 + ulp p) ^ (a.terms.length + b.terms.length - 1 - 1) := by
      rw [← pow_succ']
      congr 1
      omega
    rw [gs]
    generalize (1 + ulp p) ^ (a.terms.length + b.terms.length - 1 - 1) = G at *
    generalize (1 + ulp p) ^ (a.terms.length - 1) = A at *
    generalize (1 + ulp p) ^ (b.terms.length - 1) = B at *
    generalize (fmt p hp).r (a.sum (fmt p hp) f + b.sum (fmt p hp) f) = t at *
    generalize a.sum (fmt p hp) f = x at *
    generalize b.sum (fmt p hp) f = y at *
    generalize (a.terms.map f).sum = x0 at *
    generalize (b.terms.map f).sum = y0 at *
    generalize (a.terms.map fun i => |f i|).sum = X at *
    generalize (b.terms.map fun i => |f i|).sum = Y at *
    generalize ulp p = u at *
    have X0 : 0 ≤ X := (abs_nonneg _).trans sa
    have Y0 : 0 ≤ Y := (abs_nonneg _).trans sb
    have e1 : |x + y - (x0 + y0)| ≤ (G - 1) * (X + Y) := by
      rw [add_sub_add_comm]
      refine (abs_add_le _ _).trans ?_
      have := mul_le_mul_of_nonneg_right (sub_le_sub_right ga 1) X0
      have := mul_le_mul_of_nonneg_right (sub_le_sub_right gb 1) Y0
      rw [mul_add]
      linarith
    have e2 : |x + y| ≤ G * (X + Y) := by
      have := abs_sub_le (x + y) (x0 + y0) 0
      simp only [sub_zero] at this
      have := abs_add_le x0 y0
      nlinarith
    have e3 := abs_sub_le t (x + y) (x0 + y0)
    have e4 := mul_le_mul_of_nonneg_left e2 u0.le
    nlinarith

/-! ## C286 -/

section
variable {p : ℕ} (hp : 1 ≤ p)

theorem near_one_mag {T : Order} (hT : T.Of 3) (h6 : 6 ≤ p) (v : ℕ → ℝ) : |mag (fmt p hp) T v - norm3 v| ≤ 3.05 * ulp p * norm3 v := by
  obtain ⟨u0, -⟩ := ulp_range hp
  have u6 := ulp_small h6
  obtain ⟨h1, h2⟩ := C253_accuracy hp T hT v
  have n := norm3_nonneg v
  change (1 - ulp p) ^ 3 * norm3 v ≤ _ at h1
  change _ ≤ (1 + ulp p) ^ 3 * norm3 v at h2
  generalize mag (fmt p hp) T v = m at *
  generalize norm3 v = N at *
  generalize ulp p = u at *
  have k1 : 1 - 3.05 * u ≤ (1 - u) ^ 3 := by norm_num; nlinarith [sq_nonneg u]
  have k2 : (1 + u) ^ 3 ≤ 1 + 3.05 * u := by
    have : u ^ 2 ≤ 1 / 64 * u := by nlinarith
    norm_num
    nlinarith
  have := mul_le_mul_of_nonneg_right k1 n
  have := mul_le_mul_of_nonneg_right k2 n
  rw [abs_le]
  constructor <;> nlinarith

/-- a component of the unit vector -/
theorem unit_factor {U : Order} (hU : U.Of 3) (h6 : 6 ≤ p) {b : ℕ → ℝ} (hb : 0 < norm3 b) (i : ℕ) :
    |unit (fmt p hp) U b i - b i / norm3 b| ≤ 4.3 * ulp p * |b i / norm3 b| := by
  obtain ⟨u0, -⟩ := ulp_range hp
  have u6 := ulp_small h6
  have hm := near_one_mag hp hU h6 b
  unfold unit
  have hr := r_rel hp (b i / mag (fmt p hp) U b)
  generalize (fmt p hp).r (b i / mag (fmt p hp) U b) = w at *
  generalize mag (fmt p hp) U b = m at *
  generalize norm3 b = N at *
  generalize ulp p = u at *
  obtain ⟨m1, m2⟩ := abs_le.mp hm
  have m0 : 0 < m := by
    have : 3.05 * u * N ≤ 1 / 2 * N := mul_le_mul_of_nonneg_right (by norm_num; linarith) hb.le
    linarith
  have f1 : |N / m - 1| ≤ 3.21 * u := by
    rw [div_sub_one m0.ne', abs_div, abs_of_pos m0, div_le_iff₀ m0, abs_sub_comm]
    refine hm.trans ?_
    have : N * (1 - 3.05 * u) ≤ m := by linarith
    have h2 : 3.05 * N ≤ 3.21 * m := by
      have : 3.05 * u * N ≤ 3.05 / 64 * N := mul_le_mul_of_nonneg_right (by norm_num; linarith) hb.le
      norm_num at *
      linarith
    have := mul_le_mul_of_nonneg_left h2 u0.le
    linarith
  have e : b i / m = b i / N * (N / m) := by field_simp
  rw [e] at hr
  generalize b i / N = x at *
  generalize N / m = f at *
  have x0 := abs_nonneg x
  have h1 : |x * f - x| ≤ 3.21 * u * |x| := by
    rw [← mul_sub_one, abs_mul, mul_comm]
    exact mul_le_mul_of_nonneg_right f1 x0
  have h2 : |x * f| ≤ (1 + 3.21 * u) * |x| := by
    have := abs_sub_le (x * f) x 0
    simp only [sub_zero] at this
    linarith
  have h3 := mul_le_mul_of_nonneg_left h2 u0.le
  have h4 := abs_sub_le w (x * f) x
  have h5 : u * ((1 + 3.21 * u) * |x|) ≤ 1.06 * u * |x| := by
    have : (1 + 3.21 * u) * |x| ≤ 1.06 * |x| := mul_le_mul_of_nonneg_right (by norm_num; linarith) x0
    have := mul_le_mul_of_nonneg_left this u0.le
    linarith
  have h6 : 0 ≤ u * |x| := mul_nonneg u0.le x0
  norm_num at *
  linarith

theorem norm3_unit {b : ℕ → ℝ} (hb : 0 < norm3 b) : norm3 (fun i => b i / norm3 b) = 1 := by
  have := norm3_smul (1 / norm3 b) b
  rw [abs_of_pos (by positivity)] at this
  rw [show (fun i => b i / norm3 b) = fun i => 1 / norm3 b * b i by funext i; ring, this]
  field_simp

theorem along_unit (v b : ℕ → ℝ) : along v b = v 0 * (b 0 / norm3 b) + v 1 * (b 1 / norm3 b) + v 2 * (b 2 / norm3 b) := by
  unfold along
  ring

theorem along_le (v : ℕ → ℝ) {b : ℕ → ℝ} (hb : 0 < norm3 b) : |along v b| ≤ norm3 v := by
  have h := dot_le v (fun i => b i / norm3 b)
  rw [norm3_unit hb, mul_one] at h
  rw [along_unit]
  simp only [← abs_mul] at h
  exact (abs_add_le _ _).trans ((add_le_add_left (abs_add_le _ _) _).trans h)

/-- parallel component: within 8 rounding units of the length -/
theorem C286_parallel (h6 : 6 ≤ p) {T U : Order} (hT : T.Of 3) (hU : U.Of 3) (v : ℕ → ℝ) {b : ℕ → ℝ} (hb : 0 < norm3 b) :
    |projParR (fmt p hp) T U v b - along v b| ≤ 8 * ulp p * norm3 v := by
  obtain ⟨u0, -⟩ := ulp_range hp
  have u6 := ulp_small h6
  have prod : ∀ i, |(fmt p hp).r (v i * unit (fmt p hp) U b i) - v i * (b i / norm3 b)| ≤ 5.4 * ulp p * (|v i| * |b i / norm3 b|) := by
    intro i
    have h1 := unit_factor hp hU h6 hb i
    have h2 := r_rel hp (v i * unit (fmt p hp) U b i)
    generalize (fmt p hp).r (v i * unit (fmt p hp) U b i) = t at *
    generalize unit (fmt p hp) U b i = w at *
    generalize b i / norm3 b = x at *
    generalize v i = y at *
    generalize ulp p = u at *
    have y0 := abs_nonneg y
    have x0 := abs_nonneg x
    have k1 : |y * w - y * x| ≤ 4.3 * u * (|y| * |x|) := by
      rw [← mul_sub, abs_mul]
      have := mul_le_mul_of_nonneg_left h1 y0
      linarith
    have k2 : |y * w| ≤ (1 + 4.3 * u) * (|y| * |x|) := by
      have := abs_sub_le (y * w) (y * x) 0
      simp only [sub_zero, abs_mul y x] at this
      linarith
    have yx := mul_nonneg y0 x0
    generalize |y| * |x| = q at *
    have k3 := abs_sub_le t (y * w) (y * x)
    have k4 := mul_le_mul_of_nonneg_left k2 u0.le
    have k5 : u * ((1 + 4.3 * u) * q) ≤ 1.1 * u * q := by
      have : (1 + 4.3 * u) * q ≤ 1.1 * q := mul_le_mul_of_nonneg_right (by norm_num; linarith) yx
      have := mul_le_mul_of_nonneg_left this u0.le
      linarith
    norm_num at *
    linarith
  have hs := sum_signed hp (fun i => (fmt p hp).r (v i * unit (fmt p hp) U b i)) T
  rw [of_sum hT, of_sum hT, of_length hT] at hs
  simp only [Finset.sum_range_succ, Finset.sum_range_zero, zero_add, Nat.reduceSub] at hs
  have hd := dot_le v (fun i => b i / norm3 b)
  rw [norm3_unit hb, mul_one] at hd
  have p0 := prod 0
  have p1 := prod 1
  have p2 := prod 2
  rw [along_unit]
  unfold projParR
  have ab : ∀ {t x X e : ℝ}, |t - x| ≤ e → |x| = X → |t| ≤ X + e := by
    intro t x X e h hx
    have := abs_sub_le t x 0
    simp only [sub_zero] at this
    linarith
  have a0 := ab p0 (abs_mul _ _)
  have a1 := ab p1 (abs_mul _ _)
  have a2 := ab p2 (abs_mul _ _)
  generalize T.sum (fmt p hp) (fun i => (fmt p hp).r (v i * unit (fmt p hp) U b i)) = s at *
  generalize (fmt p hp).r (v 0 * unit (fmt p hp) U b 0) = t0 at *
  generalize (fmt p hp).r (v 1 * unit (fmt p hp) U b 1) = t1 at *
  generalize (fmt p hp).r (v 2 * unit (fmt p hp) U b 2) = t2 at *
  generalize v 0 * (b 0 / norm3 b) = x0 at *
  generalize v 1 * (b 1 / norm3 b) = x1 at *
  generalize v 2 * (b 2 / norm3 b) = x2 at *
  have q0 : 0 ≤ |v 0| * |b 0 / norm3 b| := by positivity
  have q1 : 0 ≤ |v 1| * |b 1 / norm3 b| := by positivity
  have q2 : 0 ≤ |v 2| * |b 2 / norm3 b| := by positivity
  generalize |v 0| * |b 0 / norm3 b| = y0 at *
  generalize |v 1| * |b 1 / norm3 b| = y1 at *
  generalize |v 2| * |b 2 / norm3 b| = y2 at *
  have n := norm3_nonneg v
  generalize norm3 v = N at *
  generalize ulp p = u at *
  have g : (1 + u) ^ 2 - 1 ≤ 2.02 * u := by norm_num; nlinarith
  have Y : |t0| + |t1| + |t2| ≤ (1 + 5.4 * u) * N := by
    have : 5.4 * u * (y0 + y1 + y2) ≤ 5.4 * u * N := mul_le_mul_of_nonneg_left hd (by positivity)
    linarith
  have Y2 : (1 + 5.4 * u) * N ≤ 1.1 * N := mul_le_mul_of_nonneg_right (by norm_num; linarith) n
  have k1 : ((1 + u) ^ 2 - 1) * (|t0| + |t1| + |t2|) ≤ 2.02 * u * (1.1 * N) :=
    mul_le_mul g (Y.trans Y2) (by positivity) (by positivity)
  have k2 : |t0 + t1 + t2 - (x0 + x1 + x2)| ≤ 5.4 * u * N := by
    have e : t0 + t1 + t2 - (x0 + x1 + x2) = (t0 - x0) + (t1 - x1) + (t2 - x2) := by ring
    rw [e]
    refine (abs_add_le _ _).trans ((add_le_add_left (abs_add_le _ _) _).trans ?_)
    have : 5.4 * u * (y0 + y1 + y2) ≤ 5.4 * u * N := mul_le_mul_of_nonneg_left hd (by positivity)
    linarith
  have k3 := abs_sub_le s (t0 + t1 + t2) (x0 + x1 + x2)
  have un := mul_nonneg u0.le n
  norm_num at *
  linarith

/-- perpendicular component: within 20 rounding units of the length -/
theorem C286_perpendicular (h6 : 6 ≤ p) {T U : Order} (hT : T.Of 3) (hU : U.Of 3) (v : ℕ → ℝ) {b : ℕ → ℝ} (hb : 0 < norm3 b) :
    |projPerR (fmt p hp) T U v b - across3 v b| ≤ 20 * ulp p * norm3 v := by
  obtain ⟨u0, -⟩ := ulp_range hp
  have u6 := ulp_small h6
  have hpar := C286_parallel hp h6 hT hU v hb
  have hal := along_le v hb
  have n := norm3_nonneg v
  have comp : ∀ i, |(fmt p hp).r (v i - (fmt p hp).r (unit (fmt p hp) U b i * projParR (fmt p hp) T U v b)) - (v i - b i / norm3 b * along v b)| ≤
      14.5 * ulp p * norm3 v * |b i / norm3 b| + ulp p * |v i - b i / norm3 b * along v b| := by
    intro i
    have h1 := unit_factor hp hU h6 hb i
    have h2 := r_rel hp (unit (fmt p hp) U b i * projParR (fmt p hp) T U v b)
    have h3 := r_rel hp (v i - (fmt p hp).r (unit (fmt p hp) U b i * projParR (fmt p hp) T U v b))
    generalize (fmt p hp).r (v i - (fmt p hp).r (unit (fmt p hp) U b i * projParR (fmt p hp) T U v b)) = t at *
    generalize (fmt p hp).r (unit (fmt p hp) U b i * projParR (fmt p hp) T U v b) = q at *
    generalize unit (fmt p hp) U b i = w at *
    generalize projParR (fmt p hp) T U v b = s at *
    generalize along v b = a at *
    generalize b i / norm3 b = x at *
    generalize norm3 v = N at *
    generalize v i = y at *
    generalize ulp p = u at *
    have x0 := abs_nonneg x
    have xN := mul_nonneg n x0
    have uxN := mul_nonneg u0.le xN
    have s1 : |s| ≤ 1.125 * N := by
      have := abs_sub_le s a 0
      simp only [sub_zero] at this
      have : 8 * u * N ≤ 1 / 8 * N := mul_le_mul_of_nonneg_right (by linarith) n
      norm_num
      linarith
    have w1 : |w * s - x * a| ≤ 12.85 * (u * (N * |x|)) := by
      have e : w * s - x * a = (w - x) * s + x * (s - a) := by ring
      rw [e]
      refine (abs_add_le _ _).trans ?_
      rw [abs_mul, abs_mul]
      have k1 : |w - x| * |s| ≤ 4.3 * u * |x| * (1.125 * N) := mul_le_mul h1 s1 (abs_nonneg _) (by positivity)
      have k2 : |x| * |s - a| ≤ |x| * (8 * u * N) := mul_le_mul_of_nonneg_left hpar x0
      norm_num at *
      linarith
    have w2 : |w * s| ≤ 1.21 * (N * |x|) := by
      have := abs_sub_le (w * s) (x * a) 0
      simp only [sub_zero, abs_mul x a] at this
      have k1 : |x| * |a| ≤ |x| * N := mul_le_mul_of_nonneg_left hal x0
      have k2 : u * (N * |x|) ≤ 1 / 64 * (N * |x|) := mul_le_mul_of_nonneg_right u6 xN
      norm_num at *
      linarith
    have w3 : |q - x * a| ≤ 14.06 * (u * (N * |x|)) := by
      have k1 := abs_sub_le q (w * s) (x * a)
      have k2 := mul_le_mul_of_nonneg_left w2 u0.le
      norm_num at *
      linarith
    have w4 : |y - q - (y - x * a)| ≤ 14.06 * (u * (N * |x|)) := by
      rw [show y - q - (y - x * a) = -(q - x * a) by ring, abs_neg]
      exact w3
    have w5 : |y - q| ≤ |y - x * a| + 14.06 * (u * (N * |x|)) := by
      have := abs_sub_le (y - q) (y - x * a) 0
      simp only [sub_zero] at this
      linarith
    have k1 := abs_sub_le t (y - q) (y - x * a)
    have k2 := mul_le_mul_of_nonneg_left w5 u0.le
    have k3 : u * (u * (N * |x|)) ≤ 1 / 64 * (u * (N * |x|)) := mul_le_mul_of_nonneg_right u6 uxN
    rw [mul_add] at k2
    norm_num at *
    linarith
  have hr := rest_sq v b hb
  -- the computed rest
  have hn : |norm3 (fun i => (fmt p hp).r (v i - (fmt p hp).r (unit (fmt p hp) U b i * projParR (fmt p hp) T U v b))) - across3 v b| ≤
      14.5 * ulp p * norm3 v + ulp p * across3 v b := by
    have h1 := norm3_sub (c := fun i => 14.5 * ulp p * norm3 v * |b i / norm3 b| + ulp p * |v i - b i / norm3 b * along v b|) fun i _ => comp i
    rw [hr] at h1
    refine h1.trans ((norm3_add _ _).trans ?_)
    rw [norm3_smul, norm3_smul, norm3_abs (fun i => b i / norm3 b), norm3_abs (fun i => v i - b i / norm3 b * along v b), norm3_unit hb, hr,
      abs_of_pos u0, abs_of_nonneg (by positivity), mul_one]
  have hm := near_one_mag hp hT h6 (fun i => (fmt p hp).r (v i - (fmt p hp).r (unit (fmt p hp) U b i * projParR (fmt p hp) T U v b)))
  have P1 : across3 v b ≤ norm3 v := by
    apply Real.sqrt_le_iff.mpr
    exact ⟨n, by nlinarith [sq_nonneg (along v b)]⟩
  have P0 : 0 ≤ across3 v b := Real.sqrt_nonneg _
  unfold projPerR
  generalize mag (fmt p hp) T (fun i => (fmt p hp).r (v i - (fmt p hp).r (unit (fmt p hp) U b i * projParR (fmt p hp) T U v b))) = m at *
  generalize norm3 (fun i => (fmt p hp).r (v i - (fmt p hp).r (unit (fmt p hp) U b i * projParR (fmt p hp) T U v b))) = r at *
  generalize across3 v b = P at *
  generalize norm3 v = N at *
  generalize ulp p = u at *
  have uN := mul_nonneg u0.le n
  have uP : u * P ≤ u * N := mul_le_mul_of_nonneg_left P1 u0.le
  have r1 : r ≤ 1.25 * N := by
    have := (abs_le.mp hn).2
    have k : u * N ≤ 1 / 64 * N := mul_le_mul_of_nonneg_right u6 n
    norm_num at *
    linarith
  have k1 : 3.05 * u * r ≤ 3.05 * u * (P + 14.5 * u * N + u * P) := by
    have := (abs_le.mp hn).2
    apply mul_le_mul_of_nonneg_left _ (by positivity)
    linarith
  have k2 : u * (u * N) ≤ 1 / 64 * (u * N) := mul_le_mul_of_nonneg_right u6 uN
  have k3 : u * (u * P) ≤ u * (u * N) := mul_le_mul_of_nonneg_left uP u0.le
  have k4 := abs_sub_le m r P
  norm_num at *
  nlinarith


/-- reversing the vector or the direction reverses the parallel component and keeps the perpendicular one, to the last bit -/
theorem C286_reverse (R : Rounding) (T U : Order) (v b : ℕ → ℝ) :
    projParR R T U (fun i => - v i) b = - projParR R T U v b ∧ projPerR R T U (fun i => - v i) b = projPerR R T U v b ∧
    projParR R T U v (fun i => - b i) = - projParR R T U v b ∧ projPerR R T U v (fun i => - b i) = projPerR R T U v b := by
  have h1 : projParR R T U (fun i => - v i) b = - projParR R T U v b := by
    unfold projParR
    rw [← sum_neg]
    simp only [neg_mul, R.odd]
  have u := (C253_reverse R U b b).2.1
  have h2 : projParR R T U v (fun i => - b i) = - projParR R T U v b := by
    unfold projParR
    rw [← sum_neg]
    simp only [u, mul_neg, R.odd]
  refine ⟨h1, ?_, h2, ?_⟩
  · unfold projPerR
    rw [h1, ← (C253_reverse R T (fun i => R.r (v i - R.r (unit R U b i * projParR R T U v b))) b).1]
    congr 1
    funext i
    rw [mul_neg, R.odd, ← R.odd (v i - _)]
    congr 1
    ring
  · unfold projPerR
    rw [h2]
    simp only [u, neg_mul_neg]

/-- a unit that is a power of two as large scales both components, and that of the direction changes nothing -/
theorem C286_unit (k : ℤ) (T U : Order) (v b : ℕ → ℝ) :
    projParR (fmt p hp) T U (fun i => 2 ^ k * v i) b = 2 ^ k * projParR (fmt p hp) T U v b ∧
    projPerR (fmt p hp) T U (fun i => 2 ^ k * v i) b = 2 ^ k * projPerR (fmt p hp) T U v b ∧
    projParR (fmt p hp) T U v (fun i => 2 ^ k * b i) = projParR (fmt p hp) T U v b ∧
    projPerR (fmt p hp) T U v (fun i => 2 ^ k * b i) = projPerR (fmt p hp) T U v b := by
  have h1 : projParR (fmt p hp) T U (fun i => 2 ^ k * v i) b = 2 ^ k * projParR (fmt p hp) T U v b := by
    unfold projParR
    rw [← sum_scale]
    simp only [mul_assoc, fmt_scale]
  have u := (C253_scale hp U k b).2
  refine ⟨h1, ?_, ?_, ?_⟩
  · unfold projPerR
    rw [h1, ← (C253_scale hp T k _).1]
    congr 1
    funext i
    rw [mul_left_comm, fmt_scale, ← mul_sub, fmt_scale]
  · unfold projParR
    simp only [u]
  · unfold projPerR projParR
    simp only [u]

theorem C286_nonneg (R : Rounding) (T U : Order) (v b : ℕ → ℝ) : 0 ≤ projPerR R T U v b := C253_nonneg R T _

/-- a sum of which one term is not zero -/
theorem sum_single (R : Rounding) (f : ℕ → ℝ) (j : ℕ) (hj : R.Rep (f j)) (S : Order) (hS : S.terms.Nodup) (h0 : ∀ i ∈ S.terms, i ≠ j → f i = 0) :
    S.sum R f = if j ∈ S.terms then f j else 0 := by
  induction S with
  | term i =>
    simp only [Order.sum, Order.terms, List.mem_singleton]
    split_ifs with h
    · rw [h]
    · exact h0 i (by simp [Order.terms]) (Ne.symm h)
  | add a b iha ihb =>
    simp only [Order.terms, List.nodup_append] at hS
    simp only [Order.sum, Order.terms, List.mem_append] at h0 ⊢
    rw [iha hS.1 fun i hi => h0 i (Or.inl hi), ihb hS.2.1 fun i hi => h0 i (Or.inr hi)]
    by_cases ha : j ∈ a.terms
    · have hb : j ∉ b.terms := fun hb => hS.2.2 j ha j hb rfl
      simp only [ha, hb, if_true, if_false, true_or, add_zero]
      exact hj
    · by_cases hb : j ∈ b.terms
      · simp only [ha, hb, if_true, if_false, or_true, zero_add]
        exact hj
      · simp only [ha, hb, if_false, or_self, add_zero, r_zero]

theorem of_nodup {n : ℕ} {S : Order} (h : S.Of n) : S.terms.Nodup := h.nodup_iff.mpr List.nodup_range

/-- a direction along an axis: the parallel component is the component of the vector and the rest is the length of the others, to the last bit -/
theorem C286_axis {T U : Order} (hT : T.Of 3) (hU : U.Of 3) (v b : ℕ → ℝ) (j : ℕ) (hj : j < 3) (hv : ∀ i < 3, (fmt p hp).Rep (v i))
    (hb : (fmt p hp).Rep (b j)) (hb0 : 0 < b j) (h0 : ∀ i < 3, i ≠ j → b i = 0) :
    projParR (fmt p hp) T U v b = v j ∧ projPerR (fmt p hp) T U v b = mag (fmt p hp) T (fun i => if i = j then 0 else v i) := by
  have hm := C253_axis hp 3 U hU b j hj hb h0
  rw [abs_of_pos hb0] at hm
  have uj : unit (fmt p hp) U b j = 1 := by
    unfold unit
    rw [hm, div_self hb0.ne', (fmt p hp).one]
  have u0 : ∀ i < 3, i ≠ j → unit (fmt p hp) U b i = 0 := by
    intro i hi hij
    unfold unit
    rw [h0 i hi hij, zero_div, r_zero]
  have e : (fmt p hp).r (v j * unit (fmt p hp) U b j) = v j := by rw [uj, mul_one]; exact hv j hj
  have hpar : projParR (fmt p hp) T U v b = v j := by
    unfold projParR
    rw [sum_single (fmt p hp) (fun i => (fmt p hp).r (v i * unit (fmt p hp) U b i)) j ((fmt p hp).idem _) T (of_nodup hT) (by
      intro i hi hij
      simp only [u0 i ((mem_of hT i).mp hi) hij, mul_zero, r_zero]), if_pos ((mem_of hT j).mpr hj)]
    exact e
  refine ⟨hpar, ?_⟩
  unfold projPerR mag
  congr 2
  have key : ∀ i ∈ T.terms, (fmt p hp).r ((fmt p hp).r (v i - (fmt p hp).r (unit (fmt p hp) U b i * projParR (fmt p hp) T U v b)) *
      (fmt p hp).r (v i - (fmt p hp).r (unit (fmt p hp) U b i * projParR (fmt p hp) T U v b))) =
      (fmt p hp).r ((if i = j then 0 else v i) * (if i = j then 0 else v i)) := by
    intro i hi
    have hi' := (mem_of hT i).mp hi
    rw [hpar]
    split_ifs with h
    · rw [h, uj, one_mul, hv j hj, sub_self, r_zero]
    · rw [u0 i hi' h, zero_mul, r_zero, sub_zero, hv i hi']
  exact le_antisymm (sum_mono _ _ _ T fun i hi => (key i hi).le) (sum_mono _ _ _ T fun i hi => (key i hi).ge)

end

/-- without rounding: the components of the specification, which are those of the exact model (`Verif/Vector.lean`) -/
theorem C286_exact {T U : Order} (hT : T.Of 3) (hU : U.Of 3) (v b : ℕ → ℝ) (hb : 0 < norm3 b) :
    projParR exact T U v b = along v b ∧ projPerR exact T U v b = across3 v b ∧
    V3.projPar (V3.ofReal (v 0) (v 1) (v 2)) (V3.ofReal (b 0) (b 1) (b 2)) = .fin (along v b) ∧
    V3.projPer (V3.ofReal (v 0) (v 1) (v 2)) (V3.ofReal (b 0) (b 1) (b 2)) = .fin (across3 v b) := by
  have hu := (C253_exact U hU b b).2.1
  have hp1 : projParR exact T U v b = along v b := by
    unfold projParR
    rw [exact_sum hT, along_unit]
    simp only [hu, Finset.sum_range_succ, Finset.sum_range_zero, zero_add]
    rfl
  have ne : (b 0, b 1, b 2) ≠ (0, 0, 0) := by
    intro h
    simp only [Prod.mk.injEq] at h
    unfold norm3 at hb
    rw [h.1, h.2.1, h.2.2] at hb
    norm_num at hb
  have ns : ∀ w : ℕ → ℝ, V3.nsq (w 0) (w 1) (w 2) = w 0 ^ 2 + w 1 ^ 2 + w 2 ^ 2 := by
    intro w
    unfold V3.nsq
    ring
  refine ⟨hp1, ?_, ?_, ?_⟩
  · unfold projPerR
    rw [(C253_exact T hT _ b).1, hp1]
    simp only [hu]
    change norm3 (fun i => v i - b i / norm3 b * along v b) = _
    exact rest_sq v b hb
  · rw [V3.projPar_ofReal _ _ _ _ _ _ ne, ns]
    rfl
  · rw [V3.projPer_ofReal _ _ _ _ _ _ ne, ns, ns]
    unfold across3 along
    rw [div_pow, norm3_sq, norm3_sq]

/-- what rounding breaks: the vector (2, 3, 6) projected on itself is shorter than 7 and has a perpendicular component -/
theorem C286_aligned_violated : projParR double xyz xyz (vec 2 3 6) (vec 2 3 6) < 7 ∧ 0 < projPerR double xyz xyz (vec 2 3 6) (vec 2 3 6) := by
  have kn : ∀ n : ℤ, |n| < 2 ^ 53 → double.r (n : ℝ) = n := fun n hn => by
    have := keep n 0 hn
    rwa [zpow_zero, mul_one] at this
  have k4 := kn 4 (by norm_num)
  have k9 := kn 9 (by norm_num)
  have k36 := kn 36 (by norm_num)
  have k13 := kn 13 (by norm_num)
  have k49 := kn 49 (by norm_num)
  have k7 := kn 7 (by norm_num)
  push_cast at k4 k9 k36 k13 k49 k7
  have v0 : vec 2 3 6 0 = 2 := rfl
  have v1 : vec 2 3 6 1 = 3 := rfl
  have v2 : vec 2 3 6 2 = 6 := rfl
  have hm : mag double xyz (vec 2 3 6) = 7 := by
    unfold mag
    simp only [xyz, Order.sum, v0, v1, v2]
    norm_num
    rw [k4, k9, k36]
    norm_num
    rw [k13]
    norm_num
    rw [k49]
    have : Real.sqrt 49 = 7 := by
      rw [show (49 : ℝ) = 7 * 7 by norm_num]
      exact Real.sqrt_mul_self (by norm_num)
    rw [this, k7]
  have ev : ∀ (q : ℝ) (m e : ℤ) , (2 : ℝ) ^ ((53 : ℤ) - 1 + e) ≤ q → q < 2 ^ ((53 : ℤ) + e) → |q / 2 ^ e - m| < 1 / 2 → double.r q = m * 2 ^ e :=
    fun q m e h1 h2 h3 => binary_eval q m e h1 h2 h3
  have t0 : double.r (2 / 7) = 5146971002709138 * 2 ^ (-54 : ℤ) := ev _ 5146971002709138 (-54) (by norm_num) (by norm_num) (by rw [abs_lt]; norm_num)
  have t1 : double.r (3 / 7) = 7720456504063707 * 2 ^ (-54 : ℤ) := ev _ 7720456504063707 (-54) (by norm_num) (by norm_num) (by rw [abs_lt]; norm_num)
  have t2 : double.r (6 / 7) = 7720456504063707 * 2 ^ (-53 : ℤ) := ev _ 7720456504063707 (-53) (by norm_num) (by norm_num) (by rw [abs_lt]; norm_num)
  have q0 : double.r (2 * (5146971002709138 * 2 ^ (-54 : ℤ))) = 5146971002709138 * 2 ^ (-53 : ℤ) :=
    ev _ 5146971002709138 (-53) (by norm_num) (by norm_num) (by rw [abs_lt]; norm_num)
  have q1 : double.r (3 * (7720456504063707 * 2 ^ (-54 : ℤ))) = 5790342378047780 * 2 ^ (-52 : ℤ) :=
    ev _ 5790342378047780 (-52) (by norm_num) (by norm_num) (by rw [abs_lt]; norm_num)
  have q2 : double.r (6 * (7720456504063707 * 2 ^ (-53 : ℤ))) = 5790342378047780 * 2 ^ (-50 : ℤ) :=
    ev _ 5790342378047780 (-50) (by norm_num) (by norm_num) (by rw [abs_lt]; norm_num)
  have s1 : double.r (5146971002709138 * 2 ^ (-53 : ℤ) + 5790342378047780 * 2 ^ (-52 : ℤ)) = 8363827879402349 * 2 ^ (-52 : ℤ) :=
    ev _ 8363827879402349 (-52) (by norm_num) (by norm_num) (by rw [abs_lt]; norm_num)
  have s2 : double.r (8363827879402349 * 2 ^ (-52 : ℤ) + 5790342378047780 * 2 ^ (-50 : ℤ)) = 7881299347898367 * 2 ^ (-50 : ℤ) :=
    ev _ 7881299347898367 (-50) (by norm_num) (by norm_num) (by rw [abs_lt]; norm_num)
  have r1 : double.r (7720456504063707 * 2 ^ (-53 : ℤ) * (7881299347898367 * 2 ^ (-50 : ℤ))) = 6755399441055743 * 2 ^ (-50 : ℤ) :=
    ev _ 6755399441055743 (-50) (by norm_num) (by norm_num) (by rw [abs_lt]; norm_num)
  have r2 : double.r (6 - 6755399441055743 * 2 ^ (-50 : ℤ)) = 4503599627370496 * 2 ^ (-102 : ℤ) :=
    ev _ 4503599627370496 (-102) (by norm_num) (by norm_num) (by rw [abs_lt]; norm_num)
  have hpar : projParR double xyz xyz (vec 2 3 6) (vec 2 3 6) = 7881299347898367 * 2 ^ (-50 : ℤ) := by
    unfold projParR unit
    rw [hm]
    simp only [xyz, Order.sum, v0, v1, v2]
    rw [t0, t1, t2, q0, q1, q2, s1, s2]
  refine ⟨by rw [hpar]; norm_num, ?_⟩
  have c := (C253_component (p := 53) (by norm_num) 3 xyz (by simp [Order.Of, xyz, Order.terms, List.range_succ])
    (fun i => double.r (vec 2 3 6 i - double.r (unit double xyz (vec 2 3 6) i * projParR double xyz xyz (vec 2 3 6) (vec 2 3 6))))
    (fun i _ => double.idem _)).1 2 (by norm_num)
  have e : double.r (vec 2 3 6 2 - double.r (unit double xyz (vec 2 3 6) 2 * projParR double xyz xyz (vec 2 3 6) (vec 2 3 6))) =
      4503599627370496 * 2 ^ (-102 : ℤ) := by
    rw [hpar]
    unfold unit
    rw [hm, v2, t2, r1, r2]
  rw [e] at c
  refine lt_of_lt_of_le ?_ c
  norm_num

example : |projPerR double xyz xyz (vec 1 2 3) (vec 3 4 0) - across3 (vec 1 2 3) (vec 3 4 0)| ≤ 20 * ulp 53 * norm3 (vec 1 2 3) :=
  C286_perpendicular (p := 53) (by norm_num) (by norm_num) (by simp [Order.Of, xyz, Order.terms, List.range_succ])
    (by simp [Order.Of, xyz, Order.terms, List.range_succ]) _ (by
      unfold norm3 vec
      apply Real.sqrt_pos.mpr
      norm_num)

/-! ## C287 -/

section
variable (R : Rounding) (T U : Order) (lg : ℝ → ℝ) (K : Const) (d : RData) (beam core : String)

theorem m2q_neg (i : ℕ) (s : String) : m2qR R K (backward d) i s = - m2qR R K d i s := by
  unfold m2qR
  rw [vel_neg]
  simp only [neg_mul, R.odd]

theorem drift_neg : beamDriftR R K (backward d) beam core = fun i => - beamDriftR R K d beam core i := by
  funext i
  unfold beamDriftR
  rw [m2q_neg, m2q_neg, flow_neg]

/-- reversing all velocities, or the field, changes no bit -/
theorem C287_reverse :
    vdfRatioR R T U lg K (backward d) beam core = vdfRatioR R T U lg K d beam core ∧
    vdfRatioR R T U lg K (withField d (-d.bx) (-d.by_) (-d.bz)) beam core = vdfRatioR R T U lg K d beam core := by
  obtain ⟨a1, a2, a3, a4⟩ := C286_reverse R T U (beamDriftR R K d beam core) (field d)
  constructor
  · unfold vdfRatioR dvwSqR
    rw [drift_neg]
    have ef : field (backward d) = field d := rfl
    rw [ef, a1, a2]
    change R.r (lg (vdfCoefR R d beam core) + R.r (R.r (R.r (-_ / d.w core "par") * R.r (-_ / d.w core "par")) + R.r (R.r (_ / d.w core "per") * _))) = _
    rw [neg_div, R.odd, neg_mul_neg]
    rfl
  · unfold vdfRatioR dvwSqR
    rw [field_neg]
    have ed : beamDriftR R K (withField d (-d.bx) (-d.by_) (-d.bz)) beam core = beamDriftR R K d beam core := rfl
    rw [ed, a3, a4]
    change R.r (lg (vdfCoefR R d beam core) + R.r (R.r (R.r (-_ / d.w core "par") * R.r (-_ / d.w core "par")) + R.r (R.r (_ / d.w core "per") * _))) = _
    rw [neg_div, R.odd, neg_mul_neg]
    rfl

/-- the drift never lowers the ratio -/
theorem C287_drift (hlg : R.Rep (lg (vdfCoefR R d beam core))) : lg (vdfCoefR R d beam core) ≤ vdfRatioR R T U lg K d beam core := by
  have h : 0 ≤ dvwSqR R T U K d beam core := r_nonneg R (add_nonneg (sq_nonneg' R _) (sq_nonneg' R _))
  have := R.mono (show lg (vdfCoefR R d beam core) ≤ lg (vdfCoefR R d beam core) + dvwSqR R T U K d beam core by linarith)
  rw [hlg] at this
  exact this

/-- populations that move together, with the same mass per charge: the logarithm alone -/
theorem C287_together (hlg : R.Rep (lg (vdfCoefR R d beam core))) (hm : K.mInMp beam / K.chargeState beam = K.mInMp core / K.chargeState core)
    (hv : d.vx beam = d.vx core ∧ d.vy beam = d.vy core ∧ d.vz beam = d.vz core) :
    vdfRatioR R T U lg K d beam core = lg (vdfCoefR R d beam core) := by
  have hd : beamDriftR R K d beam core = fun _ => 0 := by
    funext i
    unfold beamDriftR flow m2qR
    have : vel d i beam = vel d i core := by
      unfold vel
      split_ifs
      exacts [hv.1, hv.2.1, hv.2.2]
    rw [hm, this, sub_self, r_zero]
  have zs : ∀ S : Order, S.sum R (fun _ => 0) = 0 := by
    intro S
    have := sum_neg R (fun _ => 0) S
    simp only [neg_zero] at this
    linarith
  have hp : projParR R T U (fun _ => 0) (field d) = 0 := by
    unfold projParR
    simp only [zero_mul, r_zero, zs]
  have hq : projPerR R T U (fun _ => 0) (field d) = 0 := by
    unfold projPerR mag
    rw [hp]
    simp only [mul_zero, r_zero, sub_zero, zs, Real.sqrt_zero]
  unfold vdfRatioR dvwSqR
  rw [hd, hp, hq]
  simp only [zero_div, r_zero, mul_zero, add_zero]
  exact hlg

/-- populations of equal density and thermal speeds: the drift alone -/
theorem C287_equal (hlg : lg 1 = 0) (hn : d.n core ≠ 0) (hp : d.w core "par" ≠ 0) (hq : d.w core "per" ≠ 0)
    (en : d.n beam = d.n core) (ep : d.w beam "par" = d.w core "par") (eq : d.w beam "per" = d.w core "per") :
    vdfRatioR R T U lg K d beam core = dvwSqR R T U K d beam core := by
  have h : vdfCoefR R d beam core = 1 := by
    unfold vdfCoefR
    rw [en, ep, eq, div_self hn, div_self hp, div_self hq]
    simp only [R.one, mul_one]
  unfold vdfRatioR
  rw [h, hlg, zero_add]
  exact R.idem _

/-- the ratio never falls with the density of the beam -/
theorem C287_density (hlg : MonotoneOn lg (Set.Ici 0)) (hn : 0 ≤ d.n core) (hw : ∀ s c, 0 ≤ d.w s c) {n' : String → ℝ} (h0 : 0 ≤ d.n beam)
    (h : d.n beam ≤ n' beam) (hc : n' core = d.n core) :
    vdfRatioR R T U lg K d beam core ≤ vdfRatioR R T U lg K { d with n := n' } beam core := by
  have w0 : 0 ≤ R.r (R.r (d.w core "par" / d.w beam "par") * R.r (R.r (d.w core "per" / d.w beam "per") * R.r (d.w core "per" / d.w beam "per"))) :=
    r_nonneg R (mul_nonneg (r_nonneg R (div_nonneg (hw _ _) (hw _ _))) (sq_nonneg' R _))
  have c0 : 0 ≤ vdfCoefR R d beam core := r_nonneg R (mul_nonneg (r_nonneg R (div_nonneg h0 hn)) w0)
  have hcoef : vdfCoefR R d beam core ≤ vdfCoefR R { d with n := n' } beam core := by
    unfold vdfCoefR
    simp only [hc]
    exact R.mono (mul_le_mul_of_nonneg_right (R.mono (div_le_div_of_nonneg_right h hn)) w0)
  unfold vdfRatioR
  apply R.mono
  have e : dvwSqR R T U K { d with n := n' } beam core = dvwSqR R T U K d beam core := rfl
  rw [e]
  exact add_le_add_left (hlg c0 (c0.trans hcoef) hcoef) _

end

/-- the argument of the logarithm carries at most seven rounding errors -/
theorem C287_coefficient {p : ℕ} (hp : 1 ≤ p) (d : RData) (beam core : String) (hb : 0 < d.n beam) (hc : 0 < d.n core) (h1 : 0 < d.w beam "par")
    (h2 : 0 < d.w beam "per") (h3 : 0 < d.w core "par") (h4 : 0 < d.w core "per") :
    Near (ulp p) 7 (d.n beam / d.n core * (d.w core "par" / d.w beam "par" * (d.w core "per" / d.w beam "per") ^ 2)) (vdfCoefR (fmt p hp) d beam core) := by
  obtain ⟨u0, u1⟩ := ulp_range hp
  have u1' : ulp p < 1 := by linarith
  have e1 := near_one hp (div_pos hb hc)
  have e2 := near_one hp (div_pos h3 h1)
  have e3 := near_one hp (div_pos h4 h2)
  have e4 := near_round hp (near_mul u0.le u1' e3 e3)
  have e5 := near_round hp (near_mul u0.le u1' e1 (near_round hp (near_mul u0.le u1' e2 e4)))
  rw [pow_two]
  exact near_up u0.le u1' (by norm_num) e5

/-- densities in a unit that is a power of two as large, or all velocities and thermal speeds in such a unit: no bit changes -/
theorem C287_unit {p : ℕ} (hp : 1 ≤ p) (k : ℤ) (T U : Order) (lg : ℝ → ℝ) (K : Const) (d : RData) (beam core : String) :
    vdfRatioR (fmt p hp) T U lg K { d with n := fun s => 2 ^ k * d.n s } beam core = vdfRatioR (fmt p hp) T U lg K d beam core ∧
    vdfRatioR (fmt p hp) T U lg K { d with vx := fun s => 2 ^ k * d.vx s, vy := fun s => 2 ^ k * d.vy s, vz := fun s => 2 ^ k * d.vz s, w := fun s c => 2 ^ k * d.w s c }
      beam core = vdfRatioR (fmt p hp) T U lg K d beam core := by
  have k0 : (2 : ℝ) ^ k ≠ 0 := zpow_ne_zero _ (by norm_num)
  constructor
  · unfold vdfRatioR
    congr 2
    congr 1
    unfold vdfCoefR
    simp only []
    rw [mul_div_mul_left _ _ k0]
  · obtain ⟨d', hd'⟩ : ∃ d' : RData, d' = { d with vx := fun s => 2 ^ k * d.vx s, vy := fun s => 2 ^ k * d.vy s, vz := fun s => 2 ^ k * d.vz s, w := fun s c => 2 ^ k * d.w s c } := ⟨_, rfl⟩
    rw [← hd']
    have hv : ∀ i s, vel d' i s = 2 ^ k * vel d i s := by
      intro i s
      rw [hd']
      unfold vel
      split_ifs <;> rfl
    have hw : ∀ s c, d'.w s c = 2 ^ k * d.w s c := by intro s c; rw [hd']
    have hn : ∀ s, d'.n s = d.n s := by intro s; rw [hd']
    have hf : field d' = field d := by rw [hd']; rfl
    have hm : ∀ i s, m2qR (fmt p hp) K d' i s = 2 ^ k * m2qR (fmt p hp) K d i s := by
      intro i s
      unfold m2qR
      rw [hv, mul_assoc, fmt_scale]
    have hb : beamDriftR (fmt p hp) K d' beam core = fun i => 2 ^ k * beamDriftR (fmt p hp) K d beam core i := by
      funext i
      unfold beamDriftR flow
      rw [hm, hm, ← mul_sub, fmt_scale]
    obtain ⟨a1, a2, -, -⟩ := C286_unit hp k T U (beamDriftR (fmt p hp) K d beam core) (field d)
    unfold vdfRatioR dvwSqR vdfCoefR
    simp only [hb, hf, a1, a2, hw, hn, mul_div_mul_left _ _ k0]

/-- without rounding: the ratio of C24's exact model -/
theorem C287_exact {T U : Order} (hT : T.Of 3) (hU : U.Of 3) (K : Const) (d : RData) (ions : List String) (beam core : String) (h : Valid ions [beam, core])
    (hnb : 0 < d.n beam) (hnc : 0 < d.n core) (h1 : 0 < d.w beam "par") (h2 : 0 < d.w beam "per") (h3 : 0 < d.w core "par") (h4 : 0 < d.w core "per")
    (hqb : 0 < K.chargeState beam) (hqc : 0 < K.chargeState core) (hB : (d.bx, d.by_, d.bz) ≠ (0, 0, 0)) :
    vdfRatio K d.obs ions beam core = .ok (.fin (vdfRatioR exact T U Real.log K d beam core)) := by
  obtain ⟨va, vb, hab⟩ := pair_valid h
  have m2 : ∀ s, 0 < K.chargeState s → m2q K s = .fin (Real.sqrt (K.mInMp s / K.chargeState s)) := by
    intro s hs
    unfold m2q
    rw [Fl.fin_div _ _ hs.ne', Fl.sqrt_fin _ (div_pos (K.mInMp_pos s) hs).le]
  obtain ⟨D, hD⟩ : ∃ D, D = beamDriftR exact K d beam core := ⟨_, rfl⟩
  have hdv : dv K d.obs ions beam core true = .ok (V3.ofReal (D 0) (D 1) (D 2)) := by
    unfold dv
    rw [if_neg hab, velocity_single_proj h (by simp), velocity_single_proj h (by simp)]
    simp only []
    rw [m2 beam hqb, m2 core hqc, hD]
    simp only [RData.obs, V3.scale, V3.ofReal, Fl.fin_mul, V3.sub, Fl.fin_sub]
    rfl
  have hb : 0 < norm3 (field d) := by
    apply Real.sqrt_pos.mpr
    have := V3.nsq_pos hB
    unfold V3.nsq at this
    unfold field
    norm_num
    nlinarith
  obtain ⟨e1, e2, e3, e4⟩ := C286_exact hT hU D (field d) hb
  have ob : d.obs.b = V3.ofReal (field d 0) (field d 1) (field d 2) := rfl
  unfold vdfRatio
  rw [twoSpecies_ok va vb]
  simp only [hdv]
  congr 1
  unfold vdfRatioOf
  rw [ob, e3, e4]
  simp only [RData.obs]
  rw [Fl.fin_div _ _ h3.ne', Fl.fin_div _ _ h4.ne', Fl.fin_div _ _ hnc.ne', Fl.fin_div _ _ h1.ne', Fl.fin_div _ _ h2.ne']
  simp only [Fl.sq_fin, Fl.sumSkip_cons_fin, Fl.sumSkip_nil, Fl.zero_def, Fl.fin_add, add_zero, Fl.fin_mul]
  have harg : 0 < d.n beam / d.n core * (d.w core "par" / d.w beam "par" * (d.w core "per" / d.w beam "per") ^ 2) := by positivity
  rw [Fl.log_fin _ harg, Fl.fin_add]
  congr 1
  unfold vdfRatioR dvwSqR vdfCoefR
  rw [← hD, e1, e2]
  simp only [exact, pow_two]

/-- the hypotheses hold for a drifting beam -/
example : ∃ x : ℝ, vdfRatio exK exBeam.obs ["p1", "p2"] "p2" "p1" = .ok (.fin x) :=
  ⟨_, C287_exact (T := xyz) (U := xyz) (by simp [Order.Of, xyz, Order.terms, List.range_succ]) (by simp [Order.Of, xyz, Order.terms, List.range_succ])
    exK exBeam ["p1", "p2"] "p2" "p1" ⟨by simp, by decide, by decide, by decide, by decide⟩ (by simp [exBeam, exD])
    (by simp [exBeam, exD]) (by simp [exBeam, exD]) (by simp [exBeam, exD]) (by simp [exBeam, exD]) (by simp [exBeam, exD]) (by simp [exK]) (by simp [exK])
    (by simp [exBeam, exD])⟩

example : vdfRatioR double xyz xyz (fun x => double.r (Real.log x)) exK exD "p2" "p1" = double.r (Real.log (vdfCoefR double exD "p2" "p1")) :=
  C287_together double xyz xyz (fun x => double.r (Real.log x)) exK exD "p2" "p1" (double.idem _) (by simp [exK]) (by simp [exD])

example : projParR double xyz xyz (vec 1 2 3) (vec 0 4 0) = 2 := by
  have kn : ∀ n : ℤ, |n| < 2 ^ 53 → double.r (n : ℝ) = n := fun n hn => by
    have := keep n 0 hn
    rwa [zpow_zero, mul_one] at this
  have k1 := kn 1 (by norm_num)
  have k2 := kn 2 (by norm_num)
  have k3 := kn 3 (by norm_num)
  have k4 := kn 4 (by norm_num)
  push_cast at k1 k2 k3 k4
  refine (C286_axis (p := 53) (by norm_num) (by simp [Order.Of, xyz, Order.terms, List.range_succ])
    (by simp [Order.Of, xyz, Order.terms, List.range_succ]) (vec 1 2 3) (vec 0 4 0) 1 (by norm_num) ?_ k4 (by norm_num [vec]) ?_).1
  · intro i _
    unfold vec Rounding.Rep
    split_ifs
    exacts [k1, k2, k3]
  · intro i hi hij
    unfold vec
    simp only [hij, if_false]
    split_ifs <;> rfl

end Rnd
end SW
