import Verif.Props.RoundFit
import Verif.RoundFit2

/-!
# C271, C272: the remaining fit functions and the distance to the Sun with rounding
-/

namespace SW
namespace Rnd

/-! ## C271 -/

section
variable (R : Rounding) (L : Lib R) (P : PowLib)

/-- power laws with `A ≥ 0`: exactly `A` at 1, never negative; for positive abscissae rising for nonnegative and falling for nonpositive exponents; with a constant: exactly
the rounded `A + c` at 1 and `c` is never undershot; off-centre: exactly 0 at the centre for a positive exponent, and monotone to the right of it -/
theorem C271_power (A b c x0 : ℝ) (hA : 0 ≤ A) (hr : R.Rep A) (hc : R.Rep c) :
    powerR R P A b 1 = A ∧ (∀ x, 0 ≤ x → 0 ≤ powerR R P A b x) ∧
    (0 ≤ b → ∀ x y, 0 ≤ x → x ≤ y → powerR R P A b x ≤ powerR R P A b y) ∧
    (b ≤ 0 → ∀ x y, 0 < x → x ≤ y → powerR R P A b y ≤ powerR R P A b x) ∧
    powerCR R P A b c 1 = R.r (A + c) ∧ (∀ x, 0 ≤ x → c ≤ powerCR R P A b c x) ∧
    (0 ≤ b → ∀ x y, 0 ≤ x → x ≤ y → powerCR R P A b c x ≤ powerCR R P A b c y) ∧
    (b ≤ 0 → ∀ x y, 0 < x → x ≤ y → powerCR R P A b c y ≤ powerCR R P A b c x) ∧
    (0 < b → powerOffR R P A b x0 x0 = 0) ∧ (∀ x, x0 ≤ x → 0 ≤ powerOffR R P A b x0 x) ∧
    (0 ≤ b → ∀ x y, x0 ≤ x → x ≤ y → powerOffR R P A b x0 x ≤ powerOffR R P A b x0 y) ∧
    (b ≤ 0 → ∀ x y, 0 < R.r (x - x0) → x ≤ y → powerOffR R P A b x0 y ≤ powerOffR R P A b x0 x) := by
  have up : 0 ≤ b → ∀ x y, 0 ≤ x → x ≤ y → powerR R P A b x ≤ powerR R P A b y :=
    fun hb x y hx h => R.mono (mul_le_mul_of_nonneg_left (P.up x y b hx h hb) hA)
  have dn : b ≤ 0 → ∀ x y, 0 < x → x ≤ y → powerR R P A b y ≤ powerR R P A b x :=
    fun hb x y hx h => R.mono (mul_le_mul_of_nonneg_left (P.down x y b hx h hb) hA)
  have nn : ∀ x, 0 ≤ x → 0 ≤ powerR R P A b x := fun x hx => r_nonneg R (mul_nonneg hA (P.nonneg x b hx))
  have one : powerR R P A b 1 = A := by unfold powerR; rw [P.one, mul_one, hr]
  have cc : ∀ x, powerCR R P A b c x = R.r (powerR R P A b x + c) := fun _ => rfl
  have oo : ∀ x, powerOffR R P A b x0 x = powerR R P A b (R.r (x - x0)) := fun _ => rfl
  refine ⟨one, nn, up, dn, by rw [cc, one], fun x hx => ?_, fun hb x y hx h => ?_, fun hb x y hx h => ?_, fun hb => ?_, fun x hx => ?_, fun hb x y hx h => ?_, fun hb x y hx h => ?_⟩
  · have := R.mono (show c ≤ powerR R P A b x + c by linarith [nn x hx])
    rw [hc] at this
    exact this
  · rw [cc, cc]; exact R.mono (by linarith [up hb x y hx h])
  · rw [cc, cc]; exact R.mono (by linarith [dn hb x y hx h])
  · unfold powerOffR
    rw [sub_self, r_zero, P.zero b hb, mul_zero, r_zero]
  · rw [oo]; exact nn _ (r_nonneg R (by linarith))
  · rw [oo, oo]; exact up hb _ _ (r_nonneg R (by linarith)) (R.mono (by linarith))
  · rw [oo, oo]; exact dn hb _ _ hx (R.mono (by linarith))

/-- Moyal with `A ≥ 0`: never negative, at most `A` times the computed `e - 1`, and the same at points equally far from the centre -/
theorem C271_moyal (hex : ∀ t, R.Rep t → t ≤ L.ex t) (mu sigma A : ℝ) (hA : 0 ≤ A) :
    (∀ x, 0 ≤ moyalR R L mu sigma A x ∧ moyalR R L mu sigma A x ≤ R.r (A * R.r (L.ex 1 - 1))) ∧
    ∀ x y, |x - mu| = |y - mu| → moyalR R L mu sigma A x = moyalR R L mu sigma A y := by
  constructor
  · intro x
    simp only [moyalR]
    generalize R.r (R.r (x - mu) / sigma) = q
    obtain ⟨t, ht⟩ : ∃ t, t = R.r (q * q) := ⟨_, rfl⟩
    rw [← ht]
    have rt : R.Rep t := by rw [ht]; exact R.idem _
    have a0 := L.ex_nonneg (R.r (1 / 2 * R.r (t - L.ex t)))
    have a1 : L.ex (R.r (1 / 2 * R.r (t - L.ex t))) ≤ 1 := by
      have k := R.mono (show t - L.ex t ≤ 0 by linarith [hex t rt])
      rw [r_zero] at k
      have k2 := R.mono (show 1 / 2 * R.r (t - L.ex t) ≤ 0 by linarith)
      rw [r_zero] at k2
      have k3 := L.ex_mono k2
      rwa [L.ex_zero] at k3
    generalize L.ex (R.r (1 / 2 * R.r (t - L.ex t))) = a at a0 a1
    have e0 : 1 ≤ L.ex a := by rw [← L.ex_zero]; exact L.ex_mono a0
    have e1 : L.ex a ≤ L.ex 1 := L.ex_mono a1
    exact ⟨r_nonneg R (mul_nonneg hA (r_nonneg R (by linarith))), R.mono (mul_le_mul_of_nonneg_left (R.mono (by linarith)) hA)⟩
  · intro x y h
    have key : R.r (R.r (x - mu) / sigma) * R.r (R.r (x - mu) / sigma) = R.r (R.r (y - mu) / sigma) * R.r (R.r (y - mu) / sigma) := by
      rw [← abs_mul_abs_self, ← abs_mul_abs_self (R.r (R.r (y - mu) / sigma)), abs_r, abs_r R (R.r (y - mu) / sigma), abs_div, abs_div, abs_r, abs_r R (y - mu), h]
    simp only [moyalR, key]

end

theorem pos_r {p : ℕ} (hp : 1 ≤ p) {d : ℝ} (hd : 0 < d) : 0 < (fmt p hp).r d := by
  have e := binary_rel p d
  obtain ⟨u0, u1⟩ := ulp_range hp
  rw [abs_of_pos hd, abs_le] at e
  change -(ulp p * d) ≤ (fmt p hp).r d - d ∧ _ at e
  nlinarith [e.1]

theorem step_at {p : ℕ} (hp : 1 ≤ p) (h x x0 : ℝ) :
    (x < x0 → stepAt h ((fmt p hp).r (x0 - x)) = 1) ∧ (x0 < x → stepAt h ((fmt p hp).r (x0 - x)) = 0) ∧ stepAt h ((fmt p hp).r (x0 - x0)) = h := by
  refine ⟨fun hx => ?_, fun hx => ?_, ?_⟩
  · have := pos_r hp (show 0 < x0 - x by linarith)
    unfold stepAt
    rw [if_neg (not_lt.mpr this.le), if_neg this.ne']
  · have := pos_r hp (show 0 < x - x0 by linarith)
    unfold stepAt
    rw [if_pos]
    rw [show x0 - x = -(x - x0) by ring, (fmt p hp).odd]
    linarith
  · unfold stepAt
    rw [sub_self, r_zero, if_neg (lt_irrefl _), if_pos rfl]

section
variable {p : ℕ} (hp : 1 ≤ p) (L : Lib (fmt p hp))

/-- Gaussian on a step: right of the step the Gaussian plus exactly `y0`, left of it plus the rounded `y1 + y0`, however close to the step -/
theorem C271_gauss_plus (x0 y0 y1 mu sigma A x : ℝ) (h0 : (fmt p hp).Rep y0) (h1 : (fmt p hp).Rep y1) :
    (x0 < x → gaussPlusR (fmt p hp) L x0 y0 y1 mu sigma A x = (fmt p hp).r (gaussR (fmt p hp) L mu sigma A x + y0)) ∧
    (x < x0 → gaussPlusR (fmt p hp) L x0 y0 y1 mu sigma A x = (fmt p hp).r (gaussR (fmt p hp) L mu sigma A x + (fmt p hp).r (y1 + y0))) := by
  obtain ⟨s1, s0, -⟩ := step_at hp (1 / 2) x x0
  constructor
  · intro h
    unfold gaussPlusR
    rw [s0 h, mul_zero, r_zero, zero_add, h0]
  · intro h
    unfold gaussPlusR
    rw [s1 h, mul_one, h1]

/-- cut Gaussian: exactly 0 left of the step, exactly the Gaussian at and right of it -/
theorem C271_gauss_times (x0 mu sigma A x : ℝ) :
    (x < x0 → gaussTimesR (fmt p hp) L x0 mu sigma A x = 0) ∧ (x0 ≤ x → gaussTimesR (fmt p hp) L x0 mu sigma A x = gaussR (fmt p hp) L mu sigma A x) := by
  have g : (fmt p hp).r (gaussR (fmt p hp) L mu sigma A x) = gaussR (fmt p hp) L mu sigma A x := (fmt p hp).idem _
  obtain ⟨s1, s0, -⟩ := step_at hp 1 x0 x
  constructor
  · intro h
    unfold gaussTimesR
    rw [s0 h, mul_zero, r_zero]
  · intro h
    unfold gaussTimesR
    rcases h.lt_or_eq with h | rfl
    · rw [s1 h, mul_one, g]
    · rw [(step_at hp 1 x0 x0).2.2, mul_one, g]

/-- plateau and cut Gaussian: exactly `y1` left of the step, exactly the Gaussian right of it; violated at the step itself, where both are added -/
theorem C271_gauss_plateau (x0 y1 mu sigma A x : ℝ) (h1 : (fmt p hp).Rep y1) :
    (x < x0 → gaussTimesPlusR (fmt p hp) L x0 y1 mu sigma A x = y1) ∧
    (x0 < x → gaussTimesPlusR (fmt p hp) L x0 y1 mu sigma A x = gaussR (fmt p hp) L mu sigma A x) ∧
    gaussTimesPlusR (fmt p hp) L x0 y1 mu sigma A x0 = (fmt p hp).r (gaussR (fmt p hp) L mu sigma A x0 + y1) := by
  have g : ∀ x, (fmt p hp).r (gaussR (fmt p hp) L mu sigma A x) = gaussR (fmt p hp) L mu sigma A x := fun x => (fmt p hp).idem _
  obtain ⟨s1, s0, -⟩ := step_at hp 1 x0 x
  obtain ⟨t1, t0, -⟩ := step_at hp 1 x x0
  refine ⟨fun h => ?_, fun h => ?_, ?_⟩
  · unfold gaussTimesPlusR
    rw [s0 h, t1 h, mul_zero, mul_one, r_zero, zero_add, h1, h1]
  · unfold gaussTimesPlusR
    rw [s1 h, t0 h, mul_zero, mul_one, r_zero, add_zero, g, g]
  · unfold gaussTimesPlusR
    rw [(step_at hp 1 x0 x0).2.2, mul_one, mul_one, g, h1]

end

/-- `a / d * d` costs two relative errors -/
theorem there_and_back {p : ℕ} (hp : 1 ≤ p) (a d : ℝ) (hd : d ≠ 0) :
    |(fmt p hp).r ((fmt p hp).r (a / d) * d) - a| ≤ ((1 + ulp p) ^ 2 - 1) * |a| := by
  obtain ⟨e, he, h1⟩ := factor hp (a / d)
  rw [h1]
  obtain ⟨e', he', h2⟩ := factor hp (a / d * (1 + e) * d)
  rw [h2, show a / d * (1 + e) * d * (1 + e') - a = ((1 + e) * (1 + e') - 1) * a by field_simp, abs_mul]
  refine mul_le_mul_of_nonneg_right ?_ (abs_nonneg _)
  have := factors (a := 1 + e) (A := 1 + ulp p) (by simpa using he) he'
  rwa [← sq] at this

/-- saturation at a flat plateau: exactly 0 at the zero, never above the plateau, never falling; at the hinge the plateau's value up to two relative errors -/
theorem C271_plateau {p : ℕ} (hp : 1 ≤ p) (xh yh x1 m2 : ℝ) (hy : 0 ≤ yh) (hx : x1 < xh) :
    hingeSatR (fmt p hp) true xh yh x1 m2 x1 = 0 ∧ (∀ x, hingeSatR (fmt p hp) true xh yh x1 m2 x ≤ yh) ∧
    Monotone (hingeSatR (fmt p hp) true xh yh x1 m2) ∧ |hingeSatR (fmt p hp) true xh yh x1 m2 xh - yh| ≤ ((1 + ulp p) ^ 2 - 1) * yh := by
  obtain ⟨u0, u1⟩ := ulp_range hp
  have hm : 0 ≤ (fmt p hp).r (yh / (fmt p hp).r (xh - x1)) := r_nonneg _ (div_nonneg hy (r_nonneg _ (by linarith)))
  refine ⟨?_, fun x => ?_, fun x y h => ?_, ?_⟩
  · simp only [hingeSatR, slopeR, sub_self, r_zero, mul_zero, if_true]
    exact min_eq_left hy
  · simp only [hingeSatR, if_true]
    exact min_le_right _ _
  · simp only [hingeSatR, if_true]
    exact min_le_min (slope_mono _ hm h) le_rfl
  · have hd := (pos_r hp (show 0 < xh - x1 by linarith)).ne'
    have k := there_and_back hp yh _ hd
    rw [abs_of_nonneg hy] at k
    simp only [hingeSatR, if_true, slopeR]
    rcases min_choice ((fmt p hp).r ((fmt p hp).r (yh / (fmt p hp).r (xh - x1)) * (fmt p hp).r (xh - x1))) yh with c | c <;> rw [c]
    · exact k
    · rw [sub_self, abs_zero]
      exact mul_nonneg (by nlinarith) hy

/-- the line through a point with slope `m`, as the source draws it -/
theorem line_near {p : ℕ} (hp : 1 ≤ p) (xh yh m : ℝ) (hm : m ≠ 0) :
    |slopeR (fmt p hp) m ((fmt p hp).r (xh - (fmt p hp).r (yh / m))) xh - yh| ≤ ((1 + ulp p) ^ 4 - 1) * (|yh| + |m| * |xh|) := by
  have := C260_hinge_near hp xh yh m m hm hm
  unfold hingePointR at this
  rwa [min_self, max_self] at this

/-- the smaller of two near a value -/
theorem min_near {a b y e f : ℝ} (ha : |a - y| ≤ e) (hb : |b - y| ≤ f) : |min a b - y| ≤ max e f := by
  rcases min_choice a b with c | c <;> rw [c]
  · exact ha.trans (le_max_left _ _)
  · exact hb.trans (le_max_right _ _)

/-- saturation with a sloping plateau: rises to one point and falls after it (or never falls, for a rising plateau); passes the hinge up to four relative errors of the sizes
involved -/
theorem C271_hinge_saturation {p : ℕ} (hp : 1 ≤ p) (xh yh x1 m2 : ℝ) (hy : 0 ≤ yh) (hx : x1 < xh) (h2 : m2 ≠ 0) :
    (0 ≤ m2 → Monotone (hingeSatR (fmt p hp) false xh yh x1 m2)) ∧
    (m2 ≤ 0 → ∃ up : Set ℝ, (∀ x ∈ up, ∀ y ≤ x, y ∈ up) ∧
      (∀ x ∈ up, ∀ y ∈ up, x ≤ y → hingeSatR (fmt p hp) false xh yh x1 m2 x ≤ hingeSatR (fmt p hp) false xh yh x1 m2 y) ∧
      (∀ x ∉ up, ∀ y ∉ up, x ≤ y → hingeSatR (fmt p hp) false xh yh x1 m2 y ≤ hingeSatR (fmt p hp) false xh yh x1 m2 x)) ∧
    |hingeSatR (fmt p hp) false xh yh x1 m2 xh - yh| ≤ ((1 + ulp p) ^ 4 - 1) * (yh + |m2| * |xh|) := by
  obtain ⟨u0, u1⟩ := ulp_range hp
  have hm : 0 ≤ (fmt p hp).r (yh / (fmt p hp).r (xh - x1)) := r_nonneg _ (div_nonneg hy (r_nonneg _ (by linarith)))
  have e : hingeSatR (fmt p hp) false xh yh x1 m2
      = twoLineR (fmt p hp) x1 ((fmt p hp).r (xh - (fmt p hp).r (yh / m2))) ((fmt p hp).r (yh / (fmt p hp).r (xh - x1))) m2 := by
    funext x
    simp [hingeSatR, twoLineR]
  obtain ⟨-, t1, t2, -⟩ := C260_two_lines (fmt p hp) x1 ((fmt p hp).r (xh - (fmt p hp).r (yh / m2))) ((fmt p hp).r (yh / (fmt p hp).r (xh - x1))) m2
  rw [e]
  refine ⟨fun h => t1 hm h, fun h => t2 hm h, ?_⟩
  have k := there_and_back hp yh _ (pos_r hp (show 0 < xh - x1 by linarith)).ne'
  have l := line_near hp xh yh m2 h2
  have := min_near k l
  unfold twoLineR
  refine this.trans (max_le ?_ ?_) <;> rw [abs_of_nonneg hy]
  · have c : (1 + ulp p) ^ 2 - 1 ≤ (1 + ulp p) ^ 4 - 1 := by nlinarith [pow_pos u0 2, pow_pos u0 3, pow_pos u0 4]
    have c0 : 0 ≤ (1 + ulp p) ^ 4 - 1 := by nlinarith [pow_pos u0 2, pow_pos u0 3, pow_pos u0 4]
    have : 0 ≤ |m2| * |xh| := by positivity
    nlinarith [mul_le_mul_of_nonneg_right c hy, mul_nonneg c0 this]

/-- `Saturation`, whatever the computed tangent: passes the saturation point up to four relative errors of the sizes involved; never falls for a rising plateau, else rises to one
point and falls after it -/
theorem C271_saturation {p : ℕ} (hp : 1 ≤ p) (tn at_ : ℝ → ℝ) (x1 xs s theta m2 : ℝ) (hs : 0 ≤ s) (hx : x1 < xs)
    (hm : m2 = tn ((fmt p hp).r (at_ ((fmt p hp).r (s / (fmt p hp).r (xs - x1))) - theta))) (h2 : m2 ≠ 0) :
    (0 ≤ m2 → Monotone (saturationR (fmt p hp) tn at_ x1 xs s theta)) ∧
    (m2 ≤ 0 → ∃ up : Set ℝ, (∀ x ∈ up, ∀ y ≤ x, y ∈ up) ∧
      (∀ x ∈ up, ∀ y ∈ up, x ≤ y → saturationR (fmt p hp) tn at_ x1 xs s theta x ≤ saturationR (fmt p hp) tn at_ x1 xs s theta y) ∧
      (∀ x ∉ up, ∀ y ∉ up, x ≤ y → saturationR (fmt p hp) tn at_ x1 xs s theta y ≤ saturationR (fmt p hp) tn at_ x1 xs s theta x)) ∧
    |saturationR (fmt p hp) tn at_ x1 xs s theta xs - s| ≤ ((1 + ulp p) ^ 4 - 1) * (s + |m2| * |xs|) := by
  have e : saturationR (fmt p hp) tn at_ x1 xs s theta = hingeSatR (fmt p hp) false xs s x1 m2 := by
    funext x
    simp [saturationR, hingeSatR, hm]
  rw [e]
  exact C271_hinge_saturation hp xs s x1 m2 hs hx h2

/-! ## C272 -/

section
variable {p : ℕ} (hp : 1 ≤ p)

/-- the distance is the computed magnitude; the division by the unit 1 is exact -/
theorem dist_mag (S : Order) (v : ℕ → ℝ) : distR (fmt p hp) S v = mag (fmt p hp) S v := by
  unfold distR
  rw [div_one]
  exact (fmt p hp).idem _

/-- components within `k` relative errors give a length within `k` -/
theorem length_within (u0 : 0 ≤ ulp p) (u1 : ulp p ≤ 1) {k : ℕ} {a b c x y z : ℝ} (ha : Within (ulp p) k |a| |x|) (hb : Within (ulp p) k |b| |y|) (hc : Within (ulp p) k |c| |z|) :
    Within (ulp p) k (Real.sqrt (a ^ 2 + b ^ 2 + c ^ 2)) (Real.sqrt (x ^ 2 + y ^ 2 + z ^ 2)) := by
  obtain ⟨m, hm⟩ : ∃ m, m = (1 - ulp p) ^ k := ⟨_, rfl⟩
  obtain ⟨n, hn⟩ : ∃ n, n = (1 + ulp p) ^ k := ⟨_, rfl⟩
  have m0 : 0 ≤ m := by rw [hm]; exact pow_nonneg (by linarith) k
  have n0 : 0 ≤ n := by rw [hn]; exact pow_nonneg (by linarith) k
  have lo : ∀ s t : ℝ, Within (ulp p) k |s| |t| → m ^ 2 * s ^ 2 ≤ t ^ 2 ∧ t ^ 2 ≤ n ^ 2 * s ^ 2 := by
    intro s t h
    obtain ⟨h1, h2⟩ := h
    rw [← hm] at h1
    rw [← hn] at h2
    rw [← mul_pow, ← mul_pow]
    constructor
    · rw [sq_le_sq, abs_mul, abs_of_nonneg m0]; exact h1
    · rw [sq_le_sq, abs_mul, abs_of_nonneg n0]; exact h2
  unfold Within
  rw [← hm, ← hn]
  obtain ⟨a1, a2⟩ := lo _ _ ha
  obtain ⟨b1, b2⟩ := lo _ _ hb
  obtain ⟨c1, c2⟩ := lo _ _ hc
  constructor
  · rw [← Real.sqrt_sq m0, ← Real.sqrt_mul (sq_nonneg m)]
    exact Real.sqrt_le_sqrt (by nlinarith)
  · rw [← Real.sqrt_sq n0, ← Real.sqrt_mul (sq_nonneg n)]
    exact Real.sqrt_le_sqrt (by nlinarith)

theorem within_trans {u : ℝ} (u0 : 0 ≤ u) (u1 : u ≤ 1) {j k : ℕ} {x y z : ℝ} (h : Within u j x y) (h' : Within u k y z) : Within u (j + k) x z := by
  constructor
  · rw [add_comm j k, pow_add, mul_assoc]
    exact (mul_le_mul_of_nonneg_left h.1 (pow_nonneg (by linarith) k)).trans h'.1
  · rw [add_comm j k, pow_add, mul_assoc]
    exact h'.2.trans (mul_le_mul_of_nonneg_left h.2 (pow_nonneg (by linarith) k))

theorem within_one (x : ℝ) : Within (ulp p) 1 |x| |(fmt p hp).r x| := by
  rw [abs_r]
  exact within_round hp (k := 0) (by simp [Within]) (abs_nonneg x)

/-- heliocentric positions: the distance is exact up to four relative errors -/
theorem C272_hci (S : Order) (hS : S.Of 3) (rs x y z : ℝ) :
    Within (ulp p) 4 (Real.sqrt ((x * rs) ^ 2 + (y * rs) ^ 2 + (z * rs) ^ 2)) (distR (fmt p hp) S (hciR (fmt p hp) rs x y z)) := by
  obtain ⟨u0, u1⟩ := ulp_range hp
  rw [dist_mag]
  have a := C253_accuracy hp S hS (hciR (fmt p hp) rs x y z)
  have b := length_within u0.le (by linarith) (within_one hp (x * rs)) (within_one hp (y * rs)) (within_one hp (z * rs))
  exact within_trans u0.le (by linarith) b a

/-- the x component in `GSE` if the spacecraft is less than half way to the Sun: two relative errors -/
theorem gse_x (re au x : ℝ) (ha : 0 ≤ au) (hx : x * re ≤ au / 2) :
    Within (ulp p) 2 |(-x) * re + au| |(fmt p hp).r ((fmt p hp).r (-x * re) + au)| := by
  obtain ⟨u0, u1⟩ := ulp_range hp
  obtain ⟨w, hw⟩ : ∃ w, w = -x * re + au := ⟨_, rfl⟩
  have e : |(fmt p hp).r (-x * re) - -x * re| ≤ ulp p * |-x * re| := binary_rel p _
  have bound : |-x * re| ≤ w := by
    rw [hw, abs_le]
    constructor <;> nlinarith [e]
  have w0 : 0 ≤ w := (abs_nonneg _).trans bound
  obtain ⟨v, hv⟩ : ∃ v, v = (fmt p hp).r (-x * re) + au := ⟨_, rfl⟩
  have d : |v - w| ≤ ulp p * w := by
    rw [hv, hw, show (fmt p hp).r (-x * re) + au - (-x * re + au) = (fmt p hp).r (-x * re) - -x * re by ring, ← hw]
    exact e.trans (mul_le_mul_of_nonneg_left bound u0.le)
  rw [abs_le] at d
  have v0 : 0 ≤ v := by nlinarith
  have h1 : Within (ulp p) 1 w v := ⟨by rw [pow_one]; linarith, by rw [pow_one]; linarith⟩
  rw [← hv, ← hw, abs_of_nonneg w0, abs_of_nonneg (r_nonneg _ v0)]
  exact within_round hp h1 v0

/-- geocentric positions less than half way to the Sun, so for every satellite near the Earth: the distance is exact up to five relative errors -/
theorem C272_gse (S : Order) (hS : S.Of 3) (re au x y z : ℝ) (ha : 0 ≤ au) (hx : x * re ≤ au / 2) :
    Within (ulp p) 5 (Real.sqrt ((au - x * re) ^ 2 + (y * re) ^ 2 + (z * re) ^ 2)) (distR (fmt p hp) S (gseR (fmt p hp) re au x y z)) := by
  obtain ⟨u0, u1⟩ := ulp_range hp
  rw [dist_mag]
  have a := C253_accuracy hp S hS (gseR (fmt p hp) re au x y z)
  have b := length_within u0.le (by linarith) (gse_x hp re au x ha hx) (within_up u0.le (by linarith) (by norm_num : 1 ≤ 2) (abs_nonneg _) (within_one hp (y * re)))
    (within_up u0.le (by linarith) (by norm_num : 1 ≤ 2) (abs_nonneg _) (within_one hp (z * re)))
  rw [show -x * re + au = au - x * re by ring] at b
  exact within_trans u0.le (by linarith) b a

/-- the centre of the Earth is exactly one astronomical unit from the Sun; nothing has a negative
distance, the Sun's centre in `HCI` exactly 0 and nothing else -/
theorem C272_exact (S : Order) (hS : S.Of 3) (re au rs : ℝ) (ha : 0 ≤ au) (hr : (fmt p hp).Rep au) (h0 : rs ≠ 0) (x y z : ℝ) :
    distR (fmt p hp) S (gseR (fmt p hp) re au 0 0 0) = au ∧ 0 ≤ distR (fmt p hp) S (hciR (fmt p hp) rs x y z) ∧
    (distR (fmt p hp) S (hciR (fmt p hp) rs x y z) = 0 ↔ x = 0 ∧ y = 0 ∧ z = 0) := by
  have rep : ∀ i, (fmt p hp).Rep (hciR (fmt p hp) rs x y z i) := by
    intro i
    unfold hciR
    split
    · exact (fmt p hp).idem _
    · split <;> exact (fmt p hp).idem _
  rw [dist_mag, dist_mag]
  refine ⟨?_, C253_nonneg _ _ _, ?_⟩
  · have e : gseR (fmt p hp) re au 0 0 0 = fun i => if i = 0 then au else 0 := by
      funext i
      unfold gseR
      simp only [neg_zero, zero_mul, r_zero, zero_add, ite_self]
      rw [show (fmt p hp).r au = au from hr]
    have := C253_axis hp 3 S hS (gseR (fmt p hp) re au 0 0 0) 0 (by norm_num) (by rw [e]; exact hr) (fun i _ hi => by rw [e]; simp [hi])
    rw [this, e]
    simp [abs_of_nonneg ha]
  · rw [(C253_component hp 3 S hS _ (fun i _ => rep i)).2]
    have z0 : ∀ t : ℝ, (fmt p hp).r (t * rs) = 0 ↔ t = 0 := by
      intro t
      constructor
      · intro h
        by_contra ht
        have h1 : 0 < |t * rs| := abs_pos.mpr (mul_ne_zero ht h0)
        have h2 := pos_r hp h1
        rw [← abs_r, h, abs_zero] at h2
        exact lt_irrefl _ h2
      · rintro rfl
        rw [zero_mul, r_zero]
    constructor
    · intro h
      exact ⟨(z0 x).mp (h 0 (by norm_num)), (z0 y).mp (h 1 (by norm_num)), (z0 z).mp (h 2 (by norm_num))⟩
    · rintro ⟨rfl, rfl, rfl⟩ i _
      unfold hciR
      simp [r_zero]

/-- reflecting the position at the line from Earth to Sun, or in `HCI` at the Sun, does not change one digit; a unit of length scaled by a power of two scales the distance -/
theorem C272_symmetric (S : Order) (re au rs x y z : ℝ) (k : ℤ) :
    distR (fmt p hp) S (gseR (fmt p hp) re au x (-y) (-z)) = distR (fmt p hp) S (gseR (fmt p hp) re au x y z) ∧
    distR (fmt p hp) S (hciR (fmt p hp) rs (-x) (-y) (-z)) = distR (fmt p hp) S (hciR (fmt p hp) rs x y z) ∧
    distR (fmt p hp) S (hciR (fmt p hp) (2 ^ k * rs) x y z) = 2 ^ k * distR (fmt p hp) S (hciR (fmt p hp) rs x y z) := by
  refine ⟨?_, ?_, ?_⟩
  · unfold distR
    have e : ∀ v w : ℕ → ℝ, (∀ i, v i * v i = w i * w i) → mag (fmt p hp) S v = mag (fmt p hp) S w := by
      intro v w h
      unfold mag
      simp only [h]
    rw [e]
    intro i
    unfold gseR
    split
    · rfl
    · split <;> rw [neg_mul, (fmt p hp).odd, neg_mul_neg]
  · have e : hciR (fmt p hp) rs (-x) (-y) (-z) = fun i => - hciR (fmt p hp) rs x y z i := by
      funext i
      unfold hciR
      split
      · rw [neg_mul, (fmt p hp).odd]
      · split <;> rw [neg_mul, (fmt p hp).odd]
    rw [e]
    unfold distR
    rw [(C253_reverse (fmt p hp) S (hciR (fmt p hp) rs x y z) (hciR (fmt p hp) rs x y z)).1]
  · have e : hciR (fmt p hp) (2 ^ k * rs) x y z = fun i => 2 ^ k * hciR (fmt p hp) rs x y z i := by
      funext i
      unfold hciR
      have t : ∀ t : ℝ, (fmt p hp).r (t * (2 ^ k * rs)) = 2 ^ k * (fmt p hp).r (t * rs) := by
        intro t
        rw [show t * (2 ^ k * rs) = 2 ^ k * (t * rs) by ring, fmt_scale]
      simp only [t]
      split
      · rfl
      · split <;> rfl
    rw [e, dist_mag, dist_mag, (C253_scale hp S k (hciR (fmt p hp) rs x y z)).1]

end

/-- powers rounded from the exact ones qualify -/
noncomputable def roundedPow : PowLib where
  pw := fun x b => double.r (x ^ b)
  nonneg := fun x b hx => r_nonneg double (Real.rpow_nonneg hx b)
  up := fun x y b hx h hb => double.mono (Real.rpow_le_rpow hx h hb)
  down := fun x y b hx h hb => double.mono (Real.rpow_le_rpow_of_nonpos hx h hb)
  one := fun b => by rw [Real.one_rpow, double.one]
  zero := fun b hb => by rw [Real.zero_rpow hb.ne', r_zero]

/-- and so does the exponential -/
theorem rounded_exp (t : ℝ) (h : double.Rep t) : t ≤ roundedLib.ex t := by
  have := double.mono (show t ≤ Real.exp t by linarith [Real.add_one_le_exp t])
  rw [h] at this
  exact this

example : powerR double roundedPow 1 (-2) 1 = 1 ∧ powerR double roundedPow 1 (-2) 3 ≤ powerR double roundedPow 1 (-2) 2 :=
  have h := C271_power double roundedPow 1 (-2) 0 0 (by norm_num) double.one (r_zero double)
  ⟨h.1, h.2.2.2.1 (by norm_num) 2 3 (by norm_num) (by norm_num)⟩

example : moyalR double roundedLib 5 2 1 3 = moyalR double roundedLib 5 2 1 7 :=
  (C271_moyal double roundedLib rounded_exp 5 2 1 (by norm_num)).2 3 7 (by norm_num [abs_of_nonneg])

/-- a satellite 235 Earth radii sunward -/
example : (235 : ℝ) * 6.371e6 ≤ 1.496e11 / 2 := by norm_num

end Rnd
end SW
