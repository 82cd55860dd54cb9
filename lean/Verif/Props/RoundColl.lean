import Verif.Props.RoundPhys2
import Verif.Props.PlasmaKinetic
import Verif.RoundColl
import Mathlib.MeasureTheory.Integral.IntervalIntegral.Basic
import Mathlib.Analysis.SpecialFunctions.Integrals.Basic
import Mathlib.Analysis.Real.Pi.Bounds

/-!
# C283, C284: Coulomb logarithm and collision rate with rounding
-/

namespace SW
namespace Rnd

/-! ## C283 -/

/-- C283: exchanging the species changes no bit of the Coulomb logarithm -/
theorem C283_symmetric (R : Rounding) (lg : ℝ → ℝ) (K : Const) (d : RData) (a b : String) : lnlambdaR R lg K d a b = lnlambdaR R lg K d b a := by
  unfold lnlambdaR coulombR
  simp only []
  rw [add_comm (debyeR R K d a), mul_comm (K.chargeState a), add_comm (K.mAmu a), add_comm (R.r (K.mAmu a * _))]

/-- temperature in eV -/
noncomputable def tEv (K : Const) (d : RData) (s : String) : ℝ := tR K d "scalar" s * K.uT * K.kbEV

/-- the argument of the Coulomb logarithm: NRL formulary, `z z' (a + a') / (a T' + a' T) * sqrt(n z^2 / T + n' z'^2 / T')` -/
noncomputable def coulomb (K : Const) (d : RData) (a b : String) : ℝ :=
  K.chargeState a * K.chargeState b * (K.mAmu a + K.mAmu b) / (K.mAmu a * tEv K d b + K.mAmu b * tEv K d a) *
    Real.sqrt (d.n a * K.uN * K.chargeState a ^ 2 / tEv K d a + d.n b * K.uN * K.chargeState b ^ 2 / tEv K d b)

section
variable (K : Const) (d : RData) {a b : String}

theorem tEv_pos {s : String} (hw : 0 < d.w s "scalar") : 0 < tEv K d s := by
  have hT := K.uT_pos; have hk := K.kbEV_pos; have hkJ := K.kbJ_pos; have hv := K.uV_pos; have hm := K.m_pos s
  unfold tEv tR
  positivity

theorem lnlambda_value (hna : 0 < d.n a) (hnb : 0 < d.n b) (hwa : 0 < d.w a "scalar") (hwb : 0 < d.w b "scalar")
    (hz : 0 < K.chargeState a * K.chargeState b) : lnlambdaOf K d.obs a b = .fin (29.9 - Real.log (coulomb K d a b)) := by
  have hm := d.measured [a, b]
  have za : K.chargeState a ≠ 0 := left_ne_zero_of_mul hz.ne'
  have ta := tEv_pos K d hwa
  have tb := tEv_pos K d hwb
  have hu := K.uN_pos
  have hA := K.mAmu_pos a; have hB := K.mAmu_pos b
  unfold lnlambdaOf coulomb
  simp only []
  rw [tempS_fin hm (c := "scalar") (by simp) (show a ∈ [a, b] by simp),
    tempS_fin hm (c := "scalar") (by simp) (show b ∈ [a, b] by simp), hm.n a (by simp), hm.n b (by simp)]
  simp only [Fl.fin_mul]
  change _ - Fl.log (Fl.fin _ / (Fl.fin (K.mAmu a * tEv K d b) + Fl.fin (K.mAmu b * tEv K d a)) *
    Fl.sqrt (Fl.fin _ / Fl.fin (tEv K d a) + Fl.fin _ / Fl.fin (tEv K d b))) = _
  have hd : K.mAmu a * tEv K d b + K.mAmu b * tEv K d a ≠ 0 := by positivity
  rw [Fl.fin_div _ _ ta.ne', Fl.fin_div _ _ tb.ne', Fl.fin_add, Fl.fin_add, Fl.sqrt_fin _ (by positivity),
    Fl.fin_div _ _ hd, Fl.fin_mul, Fl.log_fin, Fl.fin_sub]
  have hr : 0 < d.n a * K.uN * K.chargeState a ^ 2 / tEv K d a + d.n b * K.uN * K.chargeState b ^ 2 / tEv K d b := by positivity
  have := Real.sqrt_pos.mpr hr
  positivity

variable {p : ℕ} (hp : 1 ≤ p)

theorem near_tEv {s : String} (hw : 0 < d.w s "scalar") : Near (ulp p) 9 (tEv K d s) (tempEvR (fmt p hp) K d s) := by
  obtain ⟨u0, u1⟩ := ulp_range hp
  have u1' : ulp p < 1 := by linarith
  have h := near_round hp (near_mul u0.le u1' (near_round hp (near_mul u0.le u1' (near_temp hp K d hw) (near_refl u0.le u1' K.uT_pos)))
    (near_refl u0.le u1' K.kbEV_pos))
  exact near_up u0.le u1' (by norm_num) h

theorem near_debye {s : String} (hn : 0 < d.n s) (hw : 0 < d.w s "scalar") (hz : K.chargeState s ≠ 0) :
    Near (ulp p) 13 (d.n s * K.uN * K.chargeState s ^ 2 / tEv K d s) (debyeR (fmt p hp) K d s) := by
  obtain ⟨u0, u1⟩ := ulp_range hp
  have u1' : ulp p < 1 := by linarith
  have h1 := near_one hp (mul_pos hn K.uN_pos)
  have h2 := near_one hp (mul_self_pos.mpr hz)
  have h3 := near_round hp (near_div u0.le u1' (near_round hp (near_mul u0.le u1' h1 h2)) (near_tEv K d hp hw))
  rw [pow_two]
  exact near_up u0.le u1' (by norm_num) h3

/-- the argument of the logarithm carries at most 24 rounding errors -/
theorem near_coulomb (hna : 0 < d.n a) (hnb : 0 < d.n b) (hwa : 0 < d.w a "scalar") (hwb : 0 < d.w b "scalar")
    (hz : 0 < K.chargeState a * K.chargeState b) : Near (ulp p) 24 (coulomb K d a b) (coulombR (fmt p hp) K d a b) := by
  obtain ⟨u0, u1⟩ := ulp_range hp
  have u1' : ulp p < 1 := by linarith
  have za : K.chargeState a ≠ 0 := left_ne_zero_of_mul hz.ne'
  have zb : K.chargeState b ≠ 0 := right_ne_zero_of_mul hz.ne'
  have hA := K.mAmu_pos a; have hB := K.mAmu_pos b
  have r := near_round hp (near_sqrt u0.le u1' (near_round hp (near_add u0.le u1' (near_debye K d hp hna hwa za) (near_debye K d hp hnb hwb zb))))
  have t1 := near_round hp (near_mul u0.le u1' (near_refl u0.le u1' hA) (near_tEv K d hp hwb))
  have t2 := near_round hp (near_mul u0.le u1' (near_refl u0.le u1' hB) (near_tEv K d hp hwa))
  have l := near_round hp (near_div u0.le u1'
    (near_round hp (near_mul u0.le u1' (near_one hp hz) (near_one hp (add_pos hA hB)))) (near_round hp (near_add u0.le u1' t1 t2)))
  exact near_up u0.le u1' (by norm_num) (near_round hp (near_mul u0.le u1' l r))

/-- C283: if the argument of the logarithm is between e^-40 and e^40 and `np.log` is within one rounding error, the Coulomb logarithm of like charges is
within 165 units of rounding of the exact one: 2e-14 in double precision -/
theorem C283_accuracy (h10 : 10 ≤ p) (hna : 0 < d.n a) (hnb : 0 < d.n b) (hwa : 0 < d.w a "scalar") (hwb : 0 < d.w b "scalar")
    (hz : 0 < K.chargeState a * K.chargeState b) {lg : ℝ → ℝ} (hlg : ∀ x, 0 < x → |lg x - Real.log x| ≤ ulp p * |Real.log x|)
    (hX : |Real.log (coulomb K d a b)| ≤ 40) :
    ∃ L, lnlambdaOf K d.obs a b = .fin L ∧ |lnlambdaR (fmt p hp) lg K d a b - L| ≤ 165 * ulp p := by
  obtain ⟨u0, u1⟩ := ulp_range hp
  have u1' : ulp p < 1 := by linarith
  have us : ulp p ≤ 1 / 1024 := by
    unfold ulp
    rw [zpow_neg, zpow_natCast, one_div]
    have : (2 : ℝ) ^ 10 ≤ 2 ^ p := pow_le_pow_right₀ (by norm_num) h10
    exact (inv_le_inv₀ (by positivity) (by norm_num)).mpr (by linarith)
  refine ⟨_, lnlambda_value K d hna hnb hwa hwb hz, ?_⟩
  have n := near_coulomb K d hp hna hnb hwa hwb hz
  obtain ⟨X0, x0, hl⟩ := (near_iff u1' _ _ _).mp n
  unfold lnlambdaR
  have hx := hlg _ x0
  have r1 := r_rel hp 29.9
  have r2 := r_rel hp ((fmt p hp).r 29.9 - lg (coulombR (fmt p hp) K d a b))
  generalize coulombR (fmt p hp) K d a b = x at *
  generalize Real.log (coulomb K d a b) = A at *
  generalize Real.log x = B at *
  generalize lg x = C at *
  generalize (fmt p hp).r 29.9 = c at *
  generalize (fmt p hp).r (c - C) = t at *
  have l0 : -Real.log (1 - ulp p) ≤ ulp p / (1 - ulp p) := by
    have := Real.one_sub_inv_le_log_of_pos (show 0 < 1 - ulp p by linarith)
    have e : ulp p / (1 - ulp p) = (1 - ulp p)⁻¹ - 1 := by
      have : 1 - ulp p ≠ 0 := by linarith
      field_simp
      ring
    linarith
  have l1 : ulp p / (1 - ulp p) ≤ 1024 / 1023 * ulp p := by
    rw [div_le_iff₀ (by linarith)]
    nlinarith
  generalize ulp p = u at *
  obtain ⟨a1, a2⟩ := abs_le.mp hX
  obtain ⟨b1, b2⟩ := abs_le.mp hl
  have B1 : |B| ≤ 40.03 := abs_le.mpr ⟨by norm_num; linarith, by norm_num; linarith⟩
  have hx' : |C - B| ≤ 40.03 * u := hx.trans (by nlinarith)
  obtain ⟨c1, c2⟩ := abs_le.mp hx'
  rw [abs_of_pos (by norm_num : (0 : ℝ) < 29.9)] at r1
  obtain ⟨d1, d2⟩ := abs_le.mp r1
  have cC : |c - C| ≤ 70.1 := by
    obtain ⟨e1, e2⟩ := abs_le.mp B1
    refine abs_le.mpr ⟨?_, ?_⟩ <;> norm_num at * <;> linarith
  have r2' : |t - (c - C)| ≤ 70.1 * u := r2.trans (by nlinarith)
  obtain ⟨f1, f2⟩ := abs_le.mp r2'
  refine abs_le.mpr ⟨?_, ?_⟩ <;> norm_num at * <;> linarith

end

/-! ## C284 -/

/-- the error function -/
noncomputable def erfn (x : ℝ) : ℝ := 2 / Real.sqrt Real.pi * ∫ t in (0 : ℝ)..x, Real.exp (-t ^ 2)

/-- the exact longitudinal diffusion rate (Hernandez & Marsch 1985) -/
noncomputable def ldr (x : ℝ) : ℝ := (erfn x - x * (2 / Real.sqrt Real.pi * Real.exp (-x ^ 2))) / x ^ 3

theorem sqrt_pi : 1.77 < Real.sqrt Real.pi ∧ Real.sqrt Real.pi < 1.775 := by
  constructor
  · apply Real.lt_sqrt_of_sq_lt
    have := Real.pi_gt_d2
    norm_num at *
    linarith
  · rw [Real.sqrt_lt' (by norm_num)]
    have := Real.pi_lt_d2
    norm_num at *
    linarith

theorem two_sqrt_pi : 1.126 < 2 / Real.sqrt Real.pi ∧ 2 / Real.sqrt Real.pi < 1.13 := by
  obtain ⟨h1, h2⟩ := sqrt_pi
  have h0 : 0 < Real.sqrt Real.pi := by linarith
  constructor
  · rw [lt_div_iff₀ h0]; norm_num at *; linarith
  · rw [div_lt_iff₀ h0]; norm_num at *; linarith

theorem integral_bounds {x : ℝ} (hx : 0 ≤ x) : x - x ^ 3 / 3 ≤ ∫ t in (0 : ℝ)..x, Real.exp (-t ^ 2) ∧ ∫ t in (0 : ℝ)..x, Real.exp (-t ^ 2) ≤ x := by
  have c : Continuous fun t : ℝ => Real.exp (-t ^ 2) := by fun_prop
  have c2 : Continuous fun t : ℝ => 1 - t ^ 2 := by fun_prop
  constructor
  · have h := intervalIntegral.integral_mono_on hx (c2.intervalIntegrable (μ := MeasureTheory.volume) 0 x) (c.intervalIntegrable 0 x)
      (fun t _ => by have := Real.add_one_le_exp (-t ^ 2); show 1 - t ^ 2 ≤ _; linarith)
    refine le_trans (le_of_eq ?_) h
    rw [intervalIntegral.integral_sub (by simp) ((continuous_pow 2).intervalIntegrable 0 x)]
    simp [integral_pow]
    norm_num
  · have h := intervalIntegral.integral_mono_on hx (c.intervalIntegrable (μ := MeasureTheory.volume) 0 x) ((continuous_const (y := (1 : ℝ))).intervalIntegrable 0 x)
      (fun t _ => by rw [Real.exp_le_one_iff]; nlinarith [sq_nonneg t])
    simpa using h

/-- the exact rate of slow drifts lies between 0.7 and 1.13 -/
theorem ldr_bounds {x : ℝ} (hx : 0 < x) (h1 : x ≤ 1 / 10) : 0.7 ≤ ldr x ∧ ldr x ≤ 1.13 := by
  obtain ⟨c1, c2⟩ := two_sqrt_pi
  obtain ⟨i1, i2⟩ := integral_bounds hx.le
  have e1 := Real.add_one_le_exp (-x ^ 2)
  have e2 : Real.exp (-x ^ 2) ≤ 1 - x ^ 2 + x ^ 4 := by
    have := Real.abs_exp_sub_one_sub_id_le (x := -x ^ 2) (by rw [abs_neg, abs_of_nonneg (sq_nonneg x)]; nlinarith)
    have := (abs_le.mp this).2
    nlinarith
  unfold ldr erfn
  generalize (∫ t in (0 : ℝ)..x, Real.exp (-t ^ 2)) = I at *
  generalize Real.exp (-x ^ 2) = E at *
  generalize 2 / Real.sqrt Real.pi = c at *
  have x3 : 0 < x ^ 3 := by positivity
  have hx2 : x ^ 2 ≤ 1 / 100 := by nlinarith
  have c0 : 0 < c := by norm_num at c1; linarith
  have q : c * I - x * (c * E) = c * (I - x * E) := by ring
  rw [q]
  have l : (2 / 3 - 1 / 100) * x ^ 3 ≤ I - x * E := by
    have := mul_le_mul_of_nonneg_left e2 hx.le
    nlinarith
  have r : I - x * E ≤ x ^ 3 := by
    have := mul_le_mul_of_nonneg_left e1 hx.le
    nlinarith
  constructor
  · rw [le_div_iff₀ x3]
    norm_num at c1 ⊢
    nlinarith
  · rw [div_le_iff₀ x3]
    norm_num at c2 ⊢
    nlinarith

/-- numbers of the format that are at least `x` differ by nothing or by at least `x / 2^p` -/
theorem gap {p : ℕ} (hp : 1 ≤ p) {x e l : ℝ} (hx : 0 < x) (he : (fmt p hp).Rep e) (hl : (fmt p hp).Rep l) (xe : x ≤ e) (xl : x ≤ l) :
    e = l ∨ x * ulp p ≤ |e - l| := by
  have mult : ∀ y, (fmt p hp).Rep y → x ≤ y → ∃ m : ℤ, y = m * 2 ^ lastExp p x := by
    intro y hy hxy
    have y0 : y ≠ 0 := by linarith
    have e1 : binary p y = y := hy
    unfold binary at e1
    rw [if_neg y0] at e1
    have le : lastExp p x ≤ lastExp p y := by
      unfold lastExp
      have := Int.log_mono_right (b := 2) (abs_pos.mpr hx.ne') (abs_le_abs_of_nonneg hx.le hxy)
      omega
    obtain ⟨k, hk⟩ := Int.le.dest le
    refine ⟨rne (y / 2 ^ lastExp p y) * 2 ^ k, ?_⟩
    push_cast
    conv_lhs => rw [← e1]
    rw [← hk, zpow_add₀ (by norm_num), zpow_natCast]
    generalize rne _ = z
    ring
  obtain ⟨m, em⟩ := mult e he xe
  obtain ⟨k, ek⟩ := mult l hl xl
  by_cases h : m = k
  · left; rw [em, ek, h]
  · right
    have P : (0 : ℝ) < 2 ^ lastExp p x := by positivity
    have d1 : (1 : ℝ) ≤ |((m - k : ℤ) : ℝ)| := by
      rw [← Int.cast_abs]
      exact_mod_cast Int.one_le_abs (sub_ne_zero.mpr h)
    have : e - l = ((m - k : ℤ) : ℝ) * 2 ^ lastExp p x := by rw [em, ek]; push_cast; ring
    rw [this, abs_mul, abs_of_pos P]
    have b : x * ulp p ≤ 2 ^ lastExp p x := by
      have := Int.lt_zpow_succ_log_self (b := 2) (by norm_num) |x|
      rw [abs_of_pos hx] at this
      unfold ulp lastExp
      rw [abs_of_pos hx]
      have e2 : (2 : ℝ) ^ (Int.log 2 x - ((p : ℤ) - 1)) = 2 ^ (Int.log 2 x + 1) * 2 ^ (-(p : ℤ)) := by
        rw [← zpow_add₀ (by norm_num)]
        congr 1
        ring
      rw [e2]
      have t : (0 : ℝ) < 2 ^ (-(p : ℤ)) := by positivity
      exact mul_le_mul_of_nonneg_right (by exact_mod_cast this.le) t.le
    nlinarith

/-- what is assumed of the library functions at a normalised drift `x`, in double precision: the error function is a number of the format, and all three
have at most six percent error -/
structure LibOk (L : CollLib) (x : ℝ) : Prop where
  rep : (fmt 53 (by norm_num)).Rep (L.erf x)
  erf : |L.erf x - erfn x| ≤ erfn x / 16
  exp : |L.exp (-(fmt 53 (by norm_num)).r (x * x)) - Real.exp (-(fmt 53 (by norm_num)).r (x * x))| ≤ Real.exp (-(fmt 53 (by norm_num)).r (x * x)) / 16
  powm3 : |L.powm3 x - 1 / x ^ 3| ≤ 1 / x ^ 3 / 16

/-- C284 (violated): for every normalised drift up to 2^-28 the exact longitudinal diffusion rate is between 0.7 and 1.13, but the computed one is zero or
at least seven in absolute value -/
theorem C284_slow_violated {L : CollLib} {x : ℝ} (hx : 0 < x) (hs : x ≤ 2 ^ (-28 : ℤ)) (hr : (fmt 53 (by norm_num)).Rep x) (h : LibOk L x) :
    0.7 ≤ ldr x ∧ ldr x ≤ 1.13 ∧ (ldrR (fmt 53 (by norm_num)) L x = 0 ∨ 7 ≤ ldrR (fmt 53 (by norm_num)) L x ∨ ldrR (fmt 53 (by norm_num)) L x ≤ -7) := by
  have hs' : x ≤ 1 / 268435456 := by norm_num at hs ⊢; exact hs
  obtain ⟨l1, l2⟩ := ldr_bounds hx (by linarith)
  refine ⟨l1, l2, ?_⟩
  have hp : 1 ≤ 53 := by norm_num
  obtain ⟨u0, u1⟩ := ulp_range hp
  have u1' : ulp 53 < 1 := by linarith
  have uv : ulp 53 = 1 / 2 ^ 53 := by unfold ulp; norm_num
  -- the constant
  have nc := near_round hp (near_div u0.le u1' (near_refl u0.le u1' (zero_lt_two : (0 : ℝ) < 2)) (near_round hp (near_sqrt u0.le u1' (near_one hp Real.pi_pos))))
  have nc' := near_rel u1'.le (by norm_num) (by rw [uv]; norm_num) nc
  obtain ⟨c1, c2⟩ := two_sqrt_pi
  have cl : 1.125 ≤ (fmt 53 hp).r (2 / (fmt 53 hp).r (Real.sqrt ((fmt 53 hp).r Real.pi))) := by
    have := (abs_le.mp nc').1
    have k : (0 + (1 / 2 + 1) + 1) * ulp 53 / (1 - (0 + (1 / 2 + 1) + 1) * ulp 53) ≤ 1 / 10 ^ 6 := by rw [uv]; norm_num
    norm_num at c1 c2 ⊢
    norm_num at k this
    nlinarith
  unfold ldrR
  simp only []
  obtain ⟨e1, e2, e3, e4⟩ := h
  change (fmt 53 hp).Rep _ at e1
  change |L.exp (-(fmt 53 hp).r (x * x)) - _| ≤ _ at e3
  change (fmt 53 hp).Rep x at hr
  change (fmt 53 hp).r _ = 0 ∨ 7 ≤ (fmt 53 hp).r _ ∨ (fmt 53 hp).r _ ≤ -7
  generalize (fmt 53 hp).r (2 / (fmt 53 hp).r (Real.sqrt ((fmt 53 hp).r Real.pi))) = c at *
  -- the exponential
  have q0 : 0 ≤ (fmt 53 hp).r (x * x) := sq_nonneg' _ _
  have q1 : (fmt 53 hp).r (x * x) ≤ 1 / 1000 := by
    have := r_rel hp (x * x)
    rw [abs_of_nonneg (mul_self_nonneg x)] at this
    have := (abs_le.mp this).2
    nlinarith
  generalize (fmt 53 hp).r (x * x) = q at *
  have x1 := Real.add_one_le_exp (-q)
  generalize Real.exp (-q) = E at *
  have E1 : 0.93 ≤ L.exp (-q) := by
    have := (abs_le.mp e3).1
    norm_num
    linarith
  generalize L.exp (-q) = E' at *
  have one : 1 ≤ (fmt 53 hp).r (c * E') := by
    have := (fmt 53 hp).mono (show (1 : ℝ) ≤ c * E' by norm_num at *; nlinarith)
    rwa [(fmt 53 hp).one] at this
  generalize (fmt 53 hp).r (c * E') = g at *
  have xl : x ≤ (fmt 53 hp).r (x * g) := by
    have := (fmt 53 hp).mono (show x ≤ x * g by nlinarith)
    rwa [hr] at this
  have rl : (fmt 53 hp).Rep ((fmt 53 hp).r (x * g)) := (fmt 53 hp).idem _
  generalize (fmt 53 hp).r (x * g) = l at *
  -- the error function
  have xe : x ≤ L.erf x := by
    obtain ⟨i1, i2⟩ := integral_bounds hx.le
    have : x * 1.12 ≤ erfn x := by
      unfold erfn
      have : x * (1 - 1 / 1000) ≤ x - x ^ 3 / 3 := by nlinarith [mul_pos hx hx]
      norm_num at c1 ⊢
      nlinarith
    have t := (abs_le.mp e2).1
    norm_num at this
    linarith
  generalize L.erf x = e at *
  have P0 : 15 / 16 * (1 / x ^ 3) ≤ L.powm3 x := by
    have := (abs_le.mp e4).1
    linarith
  generalize L.powm3 x = P at *
  have x3 : 0 < 1 / x ^ 3 := by positivity
  have Pp : 0 < P := by linarith
  have big : 7 ≤ P * (x * ulp 53) := by
    have t1 : 15 / 16 * (1 / x ^ 3) * (x * ulp 53) ≤ P * (x * ulp 53) := mul_le_mul_of_nonneg_right P0 (by positivity)
    refine le_trans ?_ t1
    have t2 : 15 / 16 * (1 / x ^ 3) * (x * ulp 53) = 15 / 16 * ulp 53 / x ^ 2 := by
      field_simp
    rw [t2, uv, le_div_iff₀ (by positivity)]
    have : x ^ 2 ≤ (1 / 268435456) ^ 2 := pow_le_pow_left₀ hx.le hs' 2
    norm_num at this ⊢
    linarith
  have seven : (fmt 53 hp).r 7 = 7 := by
    have := keep 7 0 (by norm_num)
    rw [zpow_zero, mul_one] at this
    exact_mod_cast this
  have small : (fmt 53 hp).r (x * ulp 53) = x * ulp 53 := by
    have := fmt_scale hp (-53) x
    rw [hr] at this
    have w : ulp 53 = 2 ^ (-53 : ℤ) := by unfold ulp; norm_num
    rw [w, mul_comm]
    exact this
  rcases gap hp hx e1 rl xe xl with h0 | h0
  · left
    rw [h0, sub_self, r_zero, mul_zero, r_zero]
  · right
    rcases le_abs.mp h0 with h1 | h1
    · left
      have := (fmt 53 hp).mono h1
      rw [small] at this
      have := (fmt 53 hp).mono (big.trans (mul_le_mul_of_nonneg_left this Pp.le))
      rwa [seven] at this
    · right
      have h1' : e - l ≤ -(x * ulp 53) := by linarith
      have := (fmt 53 hp).mono h1'
      rw [(fmt 53 hp).odd, small] at this
      have := (fmt 53 hp).mono (show P * (fmt 53 hp).r (e - l) ≤ -7 by nlinarith)
      rwa [(fmt 53 hp).odd, seven] at this

/-- the rate is an odd and, for a positive Coulomb logarithm, monotone function of the longitudinal diffusion rate -/
theorem rate_odd (R : Rounding) (L : CollLib) (K : Const) (d : RData) (lnl : ℝ) (a b : String) (y : ℝ) :
    rateR R L K d lnl a b (-y) = -rateR R L K d lnl a b y := by
  unfold rateR
  simp only [mul_neg, neg_mul, R.odd, neg_div]

theorem coll_nonneg (R : Rounding) (K : Const) (a b : String) : 0 ≤ collCoeffR R K a b := by
  unfold collCoeffR
  simp only []
  have ha := (K.m_pos a).le; have hb := (K.m_pos b).le
  have pi0 := r_nonneg R Real.pi_pos.le
  exact r_nonneg R (div_nonneg (r_nonneg R (mul_nonneg (sq_nonneg' _ _) (sq_nonneg' _ _)))
    (r_nonneg R (mul_nonneg (r_nonneg R (mul_nonneg (r_nonneg R (mul_nonneg (r_nonneg R (mul_nonneg (by norm_num) pi0)) (sq_nonneg' _ _))) ha))
      (r_nonneg R (div_nonneg (r_nonneg R (mul_nonneg ha hb)) (r_nonneg R (add_nonneg ha hb)))))))

theorem rate_mono (R : Rounding) (L : CollLib) (K : Const) (d : RData) {lnl : ℝ} (h0 : 0 ≤ lnl) {a b : String} (hn : 0 ≤ d.n b)
    (hw : 0 ≤ L.powm3 (wabR R K d a b)) {y z : ℝ} (h : y ≤ z) : rateR R L K d lnl a b y ≤ rateR R L K d lnl a b z := by
  unfold rateR
  have k : 0 ≤ R.r (R.r (d.n b * K.uN) * lnl) := r_nonneg R (mul_nonneg (r_nonneg R (mul_nonneg hn K.uN_pos.le)) h0)
  have s1 := R.mono (mul_le_mul_of_nonneg_left h k)
  have s2 := R.mono (mul_le_mul_of_nonneg_right s1 hw)
  have s3 := R.mono (mul_le_mul_of_nonneg_left s2 (coll_nonneg R K a b))
  exact R.mono (div_le_div_of_nonneg_right s3 K.uNuc_pos.le)

/-- C284 (violated): the collision rate of two species whose normalised drift is at most 2^-28 is zero, or at least what the formula gives for seven instead
of 0.7 to 1.13, or negative and as large -/
theorem C284_rate_violated (T : Order) (lg : ℝ → ℝ) (L : CollLib) (K : Const) (d : RData) (a b : String) (hn : 0 ≤ d.n b)
    (hl : 0 ≤ lnlambdaR (fmt 53 (by norm_num)) lg K d a b) (hw : 0 ≤ L.powm3 (wabR (fmt 53 (by norm_num)) K d a b))
    (hx : 0 < dvwR (fmt 53 (by norm_num)) T K d a b) (hs : dvwR (fmt 53 (by norm_num)) T K d a b ≤ 2 ^ (-28 : ℤ))
    (h : LibOk L (dvwR (fmt 53 (by norm_num)) T K d a b)) :
    nuabR (fmt 53 (by norm_num)) T lg L K d a b = 0 ∨
    rateR (fmt 53 (by norm_num)) L K d (lnlambdaR (fmt 53 (by norm_num)) lg K d a b) a b 7 ≤ nuabR (fmt 53 (by norm_num)) T lg L K d a b ∨
    nuabR (fmt 53 (by norm_num)) T lg L K d a b ≤ -rateR (fmt 53 (by norm_num)) L K d (lnlambdaR (fmt 53 (by norm_num)) lg K d a b) a b 7 := by
  have hr : (fmt 53 (by norm_num)).Rep (dvwR (fmt 53 (by norm_num)) T K d a b) := (fmt 53 (by norm_num)).idem _
  obtain ⟨_, _, h3⟩ := C284_slow_violated hx hs hr h
  unfold nuabR
  rcases h3 with h3 | h3 | h3
  · left
    rw [h3]
    unfold rateR
    simp only [mul_zero, zero_mul, r_zero, zero_div]
  · exact Or.inr (Or.inl (rate_mono _ L K d hl hn hw h3))
  · right; right
    rw [← rate_odd]
    exact rate_mono _ L K d hl hn hw h3

/-! ### the hypotheses are met, and the exact limit -/

/-- C284: correctly rounded library functions meet the hypotheses at every positive drift -/
theorem C284_library {x : ℝ} (hx : 0 < x) : LibOk ⟨fun x => (fmt 53 (by norm_num)).r (erfn x), fun x => (fmt 53 (by norm_num)).r (Real.exp x),
    fun x => (fmt 53 (by norm_num)).r (1 / x ^ 3)⟩ x := by
  have uv : ulp 53 ≤ 1 / 16 := by unfold ulp; norm_num
  have key : ∀ y : ℝ, 0 ≤ y → |(fmt 53 (by norm_num)).r y - y| ≤ y / 16 := by
    intro y hy
    have := r_rel (p := 53) (by norm_num) y
    rw [abs_of_nonneg hy] at this
    exact this.trans (by nlinarith)
  have e0 : 0 ≤ erfn x := by
    unfold erfn
    refine mul_nonneg (by positivity) (intervalIntegral.integral_nonneg hx.le fun t _ => (Real.exp_pos _).le)
  exact ⟨(fmt 53 (by norm_num)).idem _, key _ e0, key _ (Real.exp_pos _).le, key _ (by positivity)⟩

/-- non-vacuity: a normalised drift of 2^-30 -/
example : ∃ L : CollLib, ∃ x : ℝ, 0 < x ∧ x ≤ 2 ^ (-28 : ℤ) ∧ (fmt 53 (by norm_num)).Rep x ∧ LibOk L x := by
  refine ⟨_, 2 ^ (-30 : ℤ), by positivity, by norm_num, ?_, C284_library (by positivity)⟩
  have := keep 1 (-30) (by norm_num)
  rw [Int.cast_one, one_mul] at this
  exact this

/-- C283: without rounding, the Coulomb logarithm of C22 -/
theorem C283_exact (K : Const) (d : RData) {a b : String} (hna : 0 < d.n a) (hnb : 0 < d.n b) (hwa : 0 < d.w a "scalar") (hwb : 0 < d.w b "scalar")
    (hz : 0 < K.chargeState a * K.chargeState b) : lnlambdaOf K d.obs a b = .fin (lnlambdaR exact Real.log K d a b) := by
  rw [lnlambda_value K d hna hnb hwa hwb hz]
  have t : ∀ s, tempEvR exact K d s = tEv K d s := by
    intro s
    unfold tempEvR tEv tempR tR wsqR
    simp only [exact]
    ring
  unfold lnlambdaR coulombR coulomb debyeR
  simp only [t]
  simp only [exact, pow_two]

theorem rate_algebra {qa qb e0 ma mb pi nb uN l P w uNuc : ℝ} (hma : ma ≠ 0) :
    nb / ma * (qa ^ 2 * qb ^ 2 / (4 * pi * e0 ^ 2 * (ma * mb / (ma + mb))) * uN * l * P / w ^ 3 / uNuc) =
      qa * qa * (qb * qb) / (4 * pi * (e0 * e0) * ma * (ma * mb / (ma + mb))) * (nb * uN * l * P * (1 / w ^ 3)) / uNuc := by
  generalize ma * mb / (ma + mb) = mu
  rw [show 4 * pi * (e0 * e0) * ma * mu = ma * (4 * pi * e0 ^ 2 * mu) by ring]
  generalize 4 * pi * e0 ^ 2 * mu = D
  rw [div_eq_mul_inv, div_eq_mul_inv, div_eq_mul_inv, div_eq_mul_inv, div_eq_mul_inv, div_eq_mul_inv, div_eq_mul_inv, mul_inv]
  ring

/-- C284: without rounding, the collision rate of C22 -/
theorem C284_exact (K : Const) (d : RData) {a b : String} {T : Order} (hT : T.Of 3) (hna : 0 < d.n a) (hnb : 0 < d.n b) (hwa : 0 < d.w a "scalar")
    (hwb : 0 < d.w b "scalar") (hz : 0 < K.chargeState a * K.chargeState b) (hpa : 0 < d.w a "par") (hpb : 0 < d.w b "par") (hd : dsq d a b ≠ 0) :
    nuabOf K d.obs a b (V3.sub (d.obs.v a) (d.obs.v b)) =
      .fin (nuabR exact T Real.log ⟨K.erf, Real.exp, fun x => 1 / x ^ 3⟩ K d a b) := by
  have hl := C283_exact K d hna hnb hwa hwb hz
  unfold nuabR
  generalize lnlambdaR exact Real.log K d a b = l at hl ⊢
  rw [nuab_fin K d.obs d a b (d.measured _) hpa hpb hd l hl]
  congr 1
  have hm : mag exact T (fun i => flow exact (vel d i a) (vel d i b)) = Real.sqrt (dsq d a b) := by
    rw [(C253_exact T hT _ (fun _ => 0)).1]
    unfold dsq flow vel
    simp only [exact]
    norm_num
  unfold rateR nuSym dvwR
  rw [hm]
  have hw : wabR exact K d a b = Real.sqrt (d.w a "par" ^ 2 + d.w b "par" ^ 2) * K.uV := by
    unfold wabR
    simp only [exact, pow_two]
  rw [hw]
  generalize Real.sqrt (d.w a "par" ^ 2 + d.w b "par" ^ 2) * K.uV = w
  have hx : exact.r (exact.r (Real.sqrt (dsq d a b) * K.uV) / w) = Real.sqrt (dsq d a b) * K.uV / w := rfl
  rw [hx]
  simp only []
  generalize Real.sqrt (dsq d a b) * K.uV / w = x
  have hL : ldrR exact ⟨K.erf, Real.exp, fun x => 1 / x ^ 3⟩ x = (K.erf x - x * (2 / Real.sqrt Real.pi * Real.exp (-x ^ 2))) / x ^ 3 := by
    unfold ldrR
    simp only [exact, pow_two]
    ring
  rw [hL]
  generalize (K.erf x - x * (2 / Real.sqrt Real.pi * Real.exp (-x ^ 2))) / x ^ 3 = P
  rw [rate_algebra (K.m_pos a).ne']
  rfl

/-- C284: without rounding, the rate of both species -/
theorem C284_exact_both (K : Const) (d : RData) (a b : String) (T : Order) (lg : ℝ → ℝ) (L : CollLib) :
    nucR exact T lg L (fun x => 1 / x) K d a b = nuabR exact T lg L K d a b * (1 + d.n a * K.mInMp a / (d.n b * K.mInMp b)) := by
  unfold nucR rhoR
  simp only [exact]
  ring

end Rnd
end SW
