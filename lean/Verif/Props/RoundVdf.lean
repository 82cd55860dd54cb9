import Verif.Props.RoundProj

/-!
# C292: accuracy of the ratio of distribution functions

Specification: `m2qVel K d s` is the velocity times the root of mass per charge, `exponent` the squared drift in units of the thermal speeds.
-/

namespace SW
namespace Rnd

/-! ### specification -/

noncomputable def m2qVel (K : Const) (d : RData) (s : String) (i : ℕ) : ℝ := vel d i s * Real.sqrt (K.mInMp s / K.chargeState s)

noncomputable def drift3 (K : Const) (d : RData) (beam core : String) (i : ℕ) : ℝ := m2qVel K d beam i - m2qVel K d core i

noncomputable def exponent (K : Const) (d : RData) (beam core : String) : ℝ :=
  (along (drift3 K d beam core) (field d) / d.w core "par") ^ 2 + (across3 (drift3 K d beam core) (field d) / d.w core "per") ^ 2

/-- the speeds that enter, in units of the smaller thermal speed `w` -/
noncomputable def speedRatio (K : Const) (d : RData) (beam core : String) (w : ℝ) : ℝ :=
  (norm3 (m2qVel K d beam) + norm3 (m2qVel K d core)) / w

/-! ### lemmas -/

section
variable {p : ℕ} (hp : 1 ≤ p)
include hp

theorem m2q_err (h6 : 6 ≤ p) (K : Const) (d : RData) (i : ℕ) (s : String) (hq : 0 < K.chargeState s) :
    |m2qR (fmt p hp) K d i s - m2qVel K d s i| ≤ 3.05 * ulp p * |m2qVel K d s i| := by
  obtain ⟨u0, -⟩ := ulp_range hp
  have u6 := ulp_small h6
  have hm : 0 < K.mInMp s / K.chargeState s := div_pos (K.mInMp_pos s) hq
  unfold m2qR m2qVel
  generalize K.mInMp s / K.chargeState s = x at *
  generalize vel d i s = v
  have h1 := abs_le.1 (r_rel hp x)
  rw [abs_of_pos hm] at h1
  have hx : 0 ≤ (fmt p hp).r x := by nlinarith
  have hs := Real.sqrt_pos.2 hm
  have h2 : |Real.sqrt ((fmt p hp).r x) - Real.sqrt x| ≤ ulp p * Real.sqrt x := by
    have e1 := Real.sq_sqrt hm.le
    have e2 := Real.sq_sqrt hx
    have k0 := Real.sqrt_nonneg ((fmt p hp).r x)
    generalize Real.sqrt x = a at *
    generalize Real.sqrt ((fmt p hp).r x) = b at *
    obtain ⟨l1, l2⟩ := h1
    generalize (fmt p hp).r x = y at *
    generalize ulp p = u at *
    subst e1 e2
    have ka := mul_pos hs hs
    have ku := mul_nonneg (mul_nonneg u0.le (show (0 : ℝ) ≤ 1 - u by linarith)) ka.le
    have ku2 := mul_nonneg (mul_nonneg u0.le (show (0 : ℝ) ≤ 1 + u by linarith)) ka.le
    rw [abs_le]
    constructor
    · by_contra hc
      push Not at hc
      have : b < (1 - u) * a := by linarith
      have : b * b < ((1 - u) * a) * ((1 - u) * a) := mul_self_lt_mul_self k0 this
      nlinarith
    · by_contra hc
      push Not at hc
      have : (1 + u) * a < b := by linarith
      have : ((1 + u) * a) * ((1 + u) * a) < b * b := mul_self_lt_mul_self (by positivity) this
      nlinarith
  have h3 := r_rel hp (Real.sqrt ((fmt p hp).r x))
  generalize Real.sqrt ((fmt p hp).r x) = b at *
  generalize Real.sqrt x = a at *
  have h4 := r_rel hp (v * (fmt p hp).r b)
  generalize (fmt p hp).r (v * (fmt p hp).r b) = t at *
  generalize (fmt p hp).r b = c at *
  generalize ulp p = u at *
  have hb : |b| ≤ (1 + u) * a := by
    have := abs_le.1 h2
    rw [abs_le]; constructor <;> nlinarith
  have hc : |c - a| ≤ (2 * u + u ^ 2) * a := by
    have : |c - a| ≤ |c - b| + |b - a| := abs_sub_le _ _ _
    nlinarith [mul_le_mul_of_nonneg_left hb u0.le]
  have hca : |c| ≤ (1 + (2 * u + u ^ 2)) * a := by
    have : |c| ≤ |c - a| + |a| := by
      have := abs_add_le (c - a) a
      rwa [sub_add_cancel] at this
    rw [abs_of_pos hs] at this
    linarith
  rw [abs_mul v a, abs_of_pos hs]
  rw [abs_mul] at h4
  have v0 := abs_nonneg v
  have k1 : |v * c - v * a| ≤ (2 * u + u ^ 2) * a * |v| := by
    rw [← mul_sub, abs_mul]
    nlinarith [mul_le_mul_of_nonneg_left hc v0]
  have k2 : |t - v * a| ≤ |t - v * c| + |v * c - v * a| := abs_sub_le _ _ _
  have k3 : u * (|v| * |c|) ≤ u * (|v| * ((1 + (2 * u + u ^ 2)) * a)) := by
    apply mul_le_mul_of_nonneg_left _ u0.le
    exact mul_le_mul_of_nonneg_left hca v0
  have k4 : u * (|v| * ((1 + (2 * u + u ^ 2)) * a)) + (2 * u + u ^ 2) * a * |v| = (3 * u + 3 * u ^ 2 + u ^ 3) * (|v| * a) := by ring
  have k5 : 3 * u + 3 * u ^ 2 + u ^ 3 ≤ 3.05 * u := by nlinarith [mul_pos u0 u0, mul_nonneg u0.le u0.le]
  have k6 := mul_le_mul_of_nonneg_right k5 (mul_nonneg v0 hs.le)
  linarith

theorem drift_err (h6 : 6 ≤ p) (K : Const) (d : RData) (i : ℕ) (beam core : String) (hb : 0 < K.chargeState beam) (hc : 0 < K.chargeState core) :
    |beamDriftR (fmt p hp) K d beam core i - drift3 K d beam core i| ≤ 4.1 * ulp p * (|m2qVel K d beam i| + |m2qVel K d core i|) := by
  obtain ⟨u0, -⟩ := ulp_range hp
  have u6 := ulp_small h6
  have h1 := m2q_err hp h6 K d i beam hb
  have h2 := m2q_err hp h6 K d i core hc
  unfold beamDriftR drift3 flow
  generalize m2qR (fmt p hp) K d i beam = a at *
  generalize m2qR (fmt p hp) K d i core = b at *
  have h3 := r_rel hp (a - b)
  generalize (fmt p hp).r (a - b) = t at *
  generalize m2qVel K d beam i = x at *
  generalize m2qVel K d core i = y at *
  generalize ulp p = u at *
  have x0 := abs_nonneg x
  have y0 := abs_nonneg y
  have ha : |a| ≤ |a - x| + |x| := by
    have := abs_add_le (a - x) x
    rwa [sub_add_cancel] at this
  have hb' : |b| ≤ |b - y| + |y| := by
    have := abs_add_le (b - y) y
    rwa [sub_add_cancel] at this
  have hab : |a - b| ≤ |a| + |b| := abs_sub _ _
  have k : |t - (x - y)| ≤ |t - (a - b)| + (|a - x| + |b - y|) := by
    have e : t - (x - y) = (t - (a - b)) + ((a - x) - (b - y)) := by ring
    rw [e]
    exact (abs_add_le _ _).trans (add_le_add_right (abs_sub _ _) _)
  have k2 : |a - b| ≤ (1 + 3.05 * u) * (|x| + |y|) := by nlinarith
  have k3 := mul_le_mul_of_nonneg_left k2 u0.le
  have k4 : u * ((1 + 3.05 * u) * (|x| + |y|)) ≤ 1.05 * u * (|x| + |y|) := by
    have : u * (1 + 3.05 * u) ≤ 1.05 * u := by nlinarith
    nlinarith [mul_le_mul_of_nonneg_right this (add_nonneg x0 y0)]
  nlinarith

end

theorem across_le (v : ℕ → ℝ) (b : ℕ → ℝ) : across3 v b ≤ norm3 v := by
  unfold across3
  rw [← Real.sqrt_sq (norm3_nonneg v)]
  apply Real.sqrt_le_sqrt
  rw [Real.sqrt_sq (norm3_nonneg v)]
  nlinarith [sq_nonneg (along v b)]

theorem along_sub (v w b : ℕ → ℝ) : along v b - along w b = along (fun i => v i - w i) b := by
  unfold along; ring

theorem across_sub (v w : ℕ → ℝ) {b : ℕ → ℝ} (hb : 0 < norm3 b) : |across3 v b - across3 w b| ≤ norm3 (fun i => v i - w i) := by
  rw [← rest_sq v b hb, ← rest_sq w b hb]
  have h := norm3_sub (a := fun i => v i - b i / norm3 b * along v b) (e := fun i => w i - b i / norm3 b * along w b)
    (c := fun i => |(v i - w i) - b i / norm3 b * along (fun i => v i - w i) b|) (by
      intro i _
      rw [← along_sub]
      apply le_of_eq
      congr 1
      ring)
  rw [norm3_abs (fun i => (v i - w i) - b i / norm3 b * along (fun i => v i - w i) b), rest_sq (fun i => v i - w i) b hb] at h
  exact h.trans (across_le _ _)

theorem pythagoras (v : ℕ → ℝ) {b : ℕ → ℝ} (hb : 0 < norm3 b) : along v b ^ 2 + across3 v b ^ 2 = norm3 v ^ 2 := by
  have h := abs_le.1 (along_le v hb)
  have : along v b ^ 2 ≤ norm3 v ^ 2 := by
    rw [← sq_abs (along v b)]
    exact pow_le_pow_left₀ (abs_nonneg _) (along_le v hb) 2
  unfold across3
  rw [Real.sq_sqrt (by linarith)]
  ring

/-- a quotient, rounded, and its square, rounded -/
theorem square_err {p : ℕ} (hp : 1 ≤ p) (h6 : 6 ≤ p) {P A S w v c : ℝ} (hw : 0 < w) (hv : w ≤ v) (hS : 0 ≤ S) (hA : |A| ≤ S)
    (hP : |P - A| ≤ c * ulp p * S) (hc : 0 ≤ c) (hc2 : c ≤ 25.5) :
    |(fmt p hp).r ((fmt p hp).r (P / v) * (fmt p hp).r (P / v)) - (A / v) ^ 2| ≤
      ((c + 1.4) * (2 + (c + 1.4) / 64) + 2.05) * ulp p * (S / w) ^ 2 := by
  obtain ⟨u0, -⟩ := ulp_range hp
  have u6 := ulp_small h6
  have v0 : 0 < v := lt_of_lt_of_le hw hv
  have hx : 0 ≤ S / w := div_nonneg hS hw.le
  have hSv : S / v ≤ S / w := div_le_div_of_nonneg_left hS hw hv
  have h1 := r_rel hp (P / v)
  generalize (fmt p hp).r (P / v) = t at *
  have h2 := r_rel hp (t * t)
  generalize (fmt p hp).r (t * t) = q at *
  generalize ulp p = u at *
  have hA' : |A / v| ≤ S / w := by
    rw [abs_div, abs_of_pos v0]
    exact (div_le_div_of_nonneg_right hA v0.le).trans hSv
  have hP' : |P / v - A / v| ≤ c * u * (S / w) := by
    rw [← sub_div, abs_div, abs_of_pos v0]
    refine (div_le_div_of_nonneg_right hP v0.le).trans ?_
    rw [mul_div_assoc]
    exact mul_le_mul_of_nonneg_left hSv (by positivity)
  generalize P / v = P' at *
  generalize A / v = A' at *
  generalize S / w = x at *
  have hcu : c * u ≤ 25.5 / 64 := by nlinarith
  have hPx : |P'| ≤ 1.4 * x := by
    have : |P'| ≤ |P' - A'| + |A'| := by
      have := abs_add_le (P' - A') A'
      rwa [sub_add_cancel] at this
    nlinarith
  have ht : |t - A'| ≤ (c + 1.4) * u * x := by
    have : |t - A'| ≤ |t - P'| + |P' - A'| := abs_sub_le _ _ _
    have := mul_le_mul_of_nonneg_left hPx u0.le
    linarith
  have ht2 : |t + A'| ≤ (2 + (c + 1.4) / 64) * x := by
    have e : t + A' = (t - A') + 2 * A' := by ring
    have : |t + A'| ≤ |t - A'| + |2 * A'| := by rw [e]; exact abs_add_le _ _
    rw [abs_mul, abs_two] at this
    have k : (c + 1.4) * u * x ≤ (c + 1.4) / 64 * x := by
      apply mul_le_mul_of_nonneg_right _ hx
      nlinarith
    linarith
  have hsq : |t * t - A' ^ 2| ≤ (c + 1.4) * (2 + (c + 1.4) / 64) * u * x ^ 2 := by
    have e : t * t - A' ^ 2 = (t - A') * (t + A') := by ring
    rw [e, abs_mul]
    have := mul_le_mul ht ht2 (abs_nonneg _) (by positivity)
    refine this.trans (le_of_eq ?_)
    ring
  have htx : |t| ≤ 1.43 * x := by
    have h3 : |t| ≤ |t - P'| + |P'| := by
      have := abs_add_le (t - P') P'
      rwa [sub_add_cancel] at this
    have h4 := mul_le_mul u6 hPx (abs_nonneg _) (by norm_num)
    linarith
  have htt : |t * t| ≤ 2.05 * x ^ 2 := by
    rw [abs_mul]
    have := mul_le_mul htx htx (abs_nonneg _) (by positivity)
    nlinarith [sq_nonneg x]
  have k := mul_le_mul_of_nonneg_left htt u0.le
  have : |q - A' ^ 2| ≤ |q - t * t| + |t * t - A' ^ 2| := abs_sub_le _ _ _
  nlinarith

/-! ### C292 -/

section
variable {p : ℕ} (hp : 1 ≤ p)

/-- The exponent is within 110 units of rounding of the square of the speeds in units of the smaller thermal speed. -/
theorem C292_exponent (h6 : 6 ≤ p) {T U : Order} (hT : T.Of 3) (hU : U.Of 3) (K : Const) (d : RData) (beam core : String)
    (hb : 0 < K.chargeState beam) (hc : 0 < K.chargeState core) (hB : 0 < norm3 (field d)) {w : ℝ} (hw : 0 < w) (h1 : w ≤ d.w core "par")
    (h2 : w ≤ d.w core "per") :
    |dvwSqR (fmt p hp) T U K d beam core - exponent K d beam core| ≤ 110 * ulp p * speedRatio K d beam core w ^ 2 := by
  obtain ⟨u0, -⟩ := ulp_range hp
  have u6 := ulp_small h6
  have hde := fun i => drift_err hp h6 K d i beam core hb hc
  set V := beamDriftR (fmt p hp) K d beam core with hV
  set D := drift3 K d beam core with hD
  set S := norm3 (m2qVel K d beam) + norm3 (m2qVel K d core) with hSdef
  have hS : 0 ≤ S := add_nonneg (norm3_nonneg _) (norm3_nonneg _)
  have hsum : norm3 (fun i => |m2qVel K d beam i| + |m2qVel K d core i|) ≤ S := by
    refine (norm3_add (fun i => |m2qVel K d beam i|) (fun i => |m2qVel K d core i|)).trans ?_
    rw [norm3_abs (m2qVel K d beam), norm3_abs (m2qVel K d core)]
  have hDS : norm3 D ≤ S := by
    refine le_trans (norm3_le (e := fun i => |m2qVel K d beam i| + |m2qVel K d core i|) ?_) hsum
    intro i _
    rw [abs_of_nonneg (a := |m2qVel K d beam i| + |m2qVel K d core i|) (by positivity)]
    exact abs_sub _ _
  have hVD : norm3 (fun i => V i - D i) ≤ 4.1 * ulp p * S := by
    have h := norm3_le (a := fun i => V i - D i) (e := fun i => (4.1 * ulp p) * (|m2qVel K d beam i| + |m2qVel K d core i|)) (by
      intro i _
      rw [abs_of_nonneg (a := 4.1 * ulp p * (|m2qVel K d beam i| + |m2qVel K d core i|)) (by positivity)]
      exact hde i)
    rw [norm3_smul (4.1 * ulp p) (fun i => |m2qVel K d beam i| + |m2qVel K d core i|), abs_of_nonneg (by positivity)] at h
    exact h.trans (mul_le_mul_of_nonneg_left hsum (by positivity))
  have hVS : norm3 V ≤ 1.065 * S := by
    have h := norm3_add D (fun i => V i - D i)
    simp only [add_sub_cancel] at h
    have e : norm3 (fun i => V i) = norm3 V := rfl
    rw [e] at h
    have : 4.1 * ulp p * S ≤ 0.065 * S := mul_le_mul_of_nonneg_right (by linarith) hS
    linarith
  have hpar := C286_parallel hp h6 hT hU V hB
  have hper := C286_perpendicular hp h6 hT hU V hB
  have hP : |projParR (fmt p hp) T U V (field d) - along D (field d)| ≤ 12.7 * ulp p * S := by
    have k1 : |along V (field d) - along D (field d)| ≤ 4.1 * ulp p * S := by
      rw [along_sub]; exact (along_le _ hB).trans hVD
    have k2 := abs_sub_le (projParR (fmt p hp) T U V (field d)) (along V (field d)) (along D (field d))
    have k3 := mul_le_mul_of_nonneg_left hVS (show (0 : ℝ) ≤ 8 * ulp p by positivity)
    nlinarith
  have hQ : |projPerR (fmt p hp) T U V (field d) - across3 D (field d)| ≤ 25.5 * ulp p * S := by
    have k1 := (across_sub V D hB).trans hVD
    have k2 := abs_sub_le (projPerR (fmt p hp) T U V (field d)) (across3 V (field d)) (across3 D (field d))
    have k3 := mul_le_mul_of_nonneg_left hVS (show (0 : ℝ) ≤ 20 * ulp p by positivity)
    nlinarith
  have hA : |along D (field d)| ≤ S := (along_le _ hB).trans hDS
  have hC : |across3 D (field d)| ≤ S := by
    rw [abs_of_nonneg (show 0 ≤ across3 D (field d) from Real.sqrt_nonneg _)]
    exact (across_le _ _).trans hDS
  have e1 := square_err hp h6 hw h1 hS hA hP (by norm_num) (by norm_num)
  have e2 := square_err hp h6 hw h2 hS hC hQ (by norm_num) (by norm_num)
  have hex : exponent K d beam core ≤ (S / w) ^ 2 := by
    have k := pythagoras D hB
    have w1 : 0 < d.w core "par" := lt_of_lt_of_le hw h1
    have w2 : 0 < d.w core "per" := lt_of_lt_of_le hw h2
    have i1 : along D (field d) ^ 2 / d.w core "par" ^ 2 ≤ along D (field d) ^ 2 / w ^ 2 :=
      div_le_div_of_nonneg_left (sq_nonneg _) (by positivity) (pow_le_pow_left₀ hw.le h1 2)
    have i2 : across3 D (field d) ^ 2 / d.w core "per" ^ 2 ≤ across3 D (field d) ^ 2 / w ^ 2 :=
      div_le_div_of_nonneg_left (sq_nonneg _) (by positivity) (pow_le_pow_left₀ hw.le h2 2)
    have i3 : norm3 D ^ 2 / w ^ 2 ≤ S ^ 2 / w ^ 2 :=
      div_le_div_of_nonneg_right (pow_le_pow_left₀ (norm3_nonneg _) hDS 2) (by positivity)
    unfold exponent
    rw [div_pow, div_pow, div_pow]
    rw [← k, add_div] at i3
    linarith
  have hex0 : 0 ≤ exponent K d beam core := by unfold exponent; positivity
  show |(fmt p hp).r _ - _| ≤ _
  unfold exponent at *
  unfold speedRatio
  simp only [← hD, ← hV, ← hSdef] at *
  generalize (fmt p hp).r ((fmt p hp).r (projParR (fmt p hp) T U V (field d) / d.w core "par") *
    (fmt p hp).r (projParR (fmt p hp) T U V (field d) / d.w core "par")) = a at *
  generalize (fmt p hp).r ((fmt p hp).r (projPerR (fmt p hp) T U V (field d) / d.w core "per") *
    (fmt p hp).r (projPerR (fmt p hp) T U V (field d) / d.w core "per")) = b at *
  have h3 := r_rel hp (a + b)
  generalize (fmt p hp).r (a + b) = t at *
  generalize (along D (field d) / d.w core "par") ^ 2 = A at *
  generalize (across3 D (field d) / d.w core "per") ^ 2 = B at *
  generalize S / w = x at *
  generalize ulp p = u at *
  have x0 := sq_nonneg x
  have k1 : |(a + b) - (A + B)| ≤ 101.5 * u * x ^ 2 := by
    have e : (a + b) - (A + B) = (a - A) + (b - B) := by ring
    rw [e]
    refine (abs_add_le _ _).trans ((add_le_add e1 e2).trans ?_)
    have : (((12.7 + 1.4) * (2 + (12.7 + 1.4) / 64) + 2.05) + ((25.5 + 1.4) * (2 + (25.5 + 1.4) / 64) + 2.05) : ℝ) ≤ 101.5 := by norm_num
    have k := mul_le_mul_of_nonneg_right this (mul_nonneg u0.le x0)
    linarith
  have k2 : |a + b| ≤ 2.6 * x ^ 2 := by
    have h := abs_add_le ((a + b) - (A + B)) (A + B)
    rw [sub_add_cancel, abs_of_nonneg hex0] at h
    have : 101.5 * u * x ^ 2 ≤ 1.6 * x ^ 2 := mul_le_mul_of_nonneg_right (by linarith) x0
    linarith
  have k3 := mul_le_mul_of_nonneg_left k2 u0.le
  have k4 := abs_sub_le t (a + b) (A + B)
  nlinarith [mul_nonneg u0.le x0]

/-- The ratio: errors of the exponent, of the coefficient (8 units) and of the logarithm, and one rounding. -/
theorem C292_accuracy (h6 : 6 ≤ p) {T U : Order} (hT : T.Of 3) (hU : U.Of 3) (K : Const) (d : RData) (beam core : String) (lg : ℝ → ℝ) (e : ℝ)
    (hlg : |lg (vdfCoefR (fmt p hp) d beam core) - Real.log (vdfCoefR (fmt p hp) d beam core)| ≤ e)
    (hnb : 0 < d.n beam) (hnc : 0 < d.n core) (hwb : 0 < d.w beam "par") (hwb' : 0 < d.w beam "per")
    (hb : 0 < K.chargeState beam) (hc : 0 < K.chargeState core) (hB : 0 < norm3 (field d)) {w : ℝ} (hw : 0 < w) (h1 : w ≤ d.w core "par")
    (h2 : w ≤ d.w core "per") :
    let exactRatio := Real.log (d.n beam / d.n core * (d.w core "par" / d.w beam "par" * (d.w core "per" / d.w beam "per") ^ 2)) +
      exponent K d beam core
    |vdfRatioR (fmt p hp) T U lg K d beam core - exactRatio| ≤
      ulp p * |exactRatio| + (1 + ulp p) * (e + 8 * ulp p + 110 * ulp p * speedRatio K d beam core w ^ 2) := by
  obtain ⟨u0, uh⟩ := ulp_range hp
  have u6 := ulp_small h6
  have hx := C292_exponent hp h6 hT hU K d beam core hb hc hB hw h1 h2
  have hco := C287_coefficient hp d beam core hnb hnc hwb hwb' (lt_of_lt_of_le hw h1) (lt_of_lt_of_le hw h2)
  have hl := ((near_iff (by linarith) _ _ _).1 hco).2.2
  have hu : -Real.log (1 - ulp p) ≤ 8 / 7 * ulp p := by
    have v0 : 0 < 1 - ulp p := by linarith
    have := Real.one_sub_inv_le_log_of_pos v0
    have k : (1 - ulp p)⁻¹ - 1 ≤ 8 / 7 * ulp p := by
      rw [sub_le_iff_le_add, inv_le_iff_one_le_mul₀ v0]
      nlinarith
    linarith
  intro exactRatio
  show |(fmt p hp).r _ - _| ≤ _
  have hr := r_rel hp (lg (vdfCoefR (fmt p hp) d beam core) + dvwSqR (fmt p hp) T U K d beam core)
  simp only [exactRatio]
  generalize speedRatio K d beam core w ^ 2 = x at *
  generalize (fmt p hp).r (lg (vdfCoefR (fmt p hp) d beam core) + dvwSqR (fmt p hp) T U K d beam core) = t at *
  generalize dvwSqR (fmt p hp) T U K d beam core = D at *
  generalize lg (vdfCoefR (fmt p hp) d beam core) = L at *
  generalize Real.log (vdfCoefR (fmt p hp) d beam core) = M at *
  generalize Real.log (d.n beam / d.n core * (d.w core "par" / d.w beam "par" * (d.w core "per" / d.w beam "per") ^ 2)) = N at *
  generalize exponent K d beam core = E at *
  have k1 : |(L + D) - (N + E)| ≤ e + 8 * ulp p + 110 * ulp p * x := by
    have e1 : (L + D) - (N + E) = (L - M) + (M - N) + (D - E) := by ring
    rw [e1]
    have := abs_add_three (L - M) (M - N) (D - E)
    linarith
  have k2 : |L + D| ≤ |N + E| + (e + 8 * ulp p + 110 * ulp p * x) := by
    have h := abs_add_le ((L + D) - (N + E)) (N + E)
    rw [sub_add_cancel] at h
    linarith
  have k3 := mul_le_mul_of_nonneg_left k2 u0.le
  have k4 := abs_sub_le t (L + D) (N + E)
  linarith

end

/-- Without rounding the exponent and the ratio are those of the specification, so the bounds are from the model of C24 (C287). -/
theorem C292_exact {T U : Order} (hT : T.Of 3) (hU : U.Of 3) (K : Const) (d : RData) (beam core : String) (hB : 0 < norm3 (field d)) :
    dvwSqR exact T U K d beam core = exponent K d beam core ∧
    vdfRatioR exact T U Real.log K d beam core =
      Real.log (d.n beam / d.n core * (d.w core "par" / d.w beam "par" * (d.w core "per" / d.w beam "per") ^ 2)) + exponent K d beam core := by
  have hD : beamDriftR exact K d beam core = drift3 K d beam core := rfl
  obtain ⟨e1, e2, -, -⟩ := C286_exact hT hU (drift3 K d beam core) (field d) hB
  have h : dvwSqR exact T U K d beam core = exponent K d beam core := by
    unfold dvwSqR exponent
    rw [hD, e1, e2]
    simp only [exact, pow_two]
  refine ⟨h, ?_⟩
  unfold vdfRatioR vdfCoefR
  rw [h]
  simp only [exact, pow_two]

/-- a drifting beam in double precision, with a logarithm that is rounded correctly -/
example : |dvwSqR double xyz xyz exK exBeam "p2" "p1" - exponent exK exBeam "p2" "p1"| ≤ 110 * ulp 53 * speedRatio exK exBeam "p2" "p1" 1 ^ 2 :=
  C292_exponent (p := 53) (by norm_num) (by norm_num) (by simp [Order.Of, xyz, Order.terms, List.range_succ])
    (by simp [Order.Of, xyz, Order.terms, List.range_succ]) exK exBeam "p2" "p1" (by simp [exK]) (by simp [exK])
    (by
      apply Real.sqrt_pos.mpr
      norm_num [field, exBeam, exD])
    one_pos (by simp [exBeam, exD]) (by simp [exBeam, exD])

end Rnd
end SW
