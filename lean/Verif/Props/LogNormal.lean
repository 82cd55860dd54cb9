import Verif.LogNormal
import Verif.Props.FitFuncs
import Mathlib.Analysis.Complex.ExponentialBounds
import Mathlib.Probability.Distributions.Gaussian.Real

/-! # Properties of the log-normal conversion: C178 -/

namespace SW
namespace Swap

open MeasureTheory ProbabilityTheory Real
open scoped NNReal

/-- the distribution of the logarithm: normal with mean `m` and standard deviation `|s|` -/
noncomputable def logLaw (m s : ℝ) : Measure ℝ := gaussianReal m (Real.toNNReal (s ^ 2))

theorem var_coe (s : ℝ) : ((Real.toNNReal (s ^ 2) : ℝ≥0) : ℝ) = s ^ 2 := Real.coe_toNNReal _ (sq_nonneg s)

theorem integral_exp (m s t : ℝ) : ∫ x, Real.exp (t * x) ∂logLaw m s = Real.exp (m * t + s ^ 2 * t ^ 2 / 2) := by
  have h := congrFun (mgf_id_gaussianReal (μ := m) (v := Real.toNNReal (s ^ 2))) t
  rw [var_coe] at h
  exact h

theorem integrable_exp (m s t : ℝ) : Integrable (fun x => Real.exp (t * x)) (logLaw m s) := integrable_exp_mul_gaussianReal t

theorem normalParameters_fin (m s : ℝ) : normalParameters (.fin m) (.fin s) =
    (.fin (Real.exp (m + s ^ 2 / 2)), .fin (Real.sqrt (Real.exp (s ^ 2 + 2 * m) * (Real.exp (s ^ 2) - 1)))) := by
  have h1 : 1 ≤ Real.exp (s ^ 2) := Real.one_le_exp (by positivity)
  have hpos : 0 ≤ Real.exp (s ^ 2 + 2 * m) * (Real.exp (s ^ 2) - 1) := mul_nonneg (Real.exp_pos _).le (by linarith)
  unfold normalParameters
  simp only []
  rw [Fl.sq_fin, Fl.fin_div _ _ (by norm_num)]
  simp only [Fl.fin_add, Fl.fin_mul, exp_fin, Fl.fin_sub]
  rw [Fl.sqrt_fin _ hpos]

/-- C178: for data whose natural logarithm is normal with mean `m` and standard deviation `s`, the conversion gives exactly the mean
and the standard deviation of the data -/
theorem C178_moments (m s : ℝ) : ∃ mu sigma : ℝ, normalParameters (.fin m) (.fin s) = (.fin mu, .fin sigma) ∧
    mu = ∫ x, Real.exp x ∂logLaw m s ∧ 0 ≤ sigma ∧ sigma ^ 2 = ∫ x, (Real.exp x - mu) ^ 2 ∂logLaw m s := by
  have h1 : 1 ≤ Real.exp (s ^ 2) := Real.one_le_exp (by positivity)
  have hpos : 0 ≤ Real.exp (s ^ 2 + 2 * m) * (Real.exp (s ^ 2) - 1) := mul_nonneg (Real.exp_pos _).le (by linarith)
  have hprob : IsProbabilityMeasure (logLaw m s) := by unfold logLaw; infer_instance
  have i1 : ∫ x, Real.exp x ∂logLaw m s = Real.exp (m + s ^ 2 / 2) := by
    have := integral_exp m s 1
    simpa using this
  refine ⟨_, _, normalParameters_fin m s, i1.symm, Real.sqrt_nonneg _, ?_⟩
  rw [Real.sq_sqrt hpos]
  have e : ∀ x : ℝ, (Real.exp x - Real.exp (m + s ^ 2 / 2)) ^ 2 =
      Real.exp (2 * x) - 2 * Real.exp (m + s ^ 2 / 2) * Real.exp (1 * x) + Real.exp (m + s ^ 2 / 2) ^ 2 := by
    intro x
    have h2 : Real.exp (2 * x) = Real.exp x * Real.exp x := by rw [← Real.exp_add]; congr 1; ring
    rw [h2, one_mul]
    generalize Real.exp (m + s ^ 2 / 2) = M
    ring
  simp only [e]
  rw [integral_add, integral_sub, integral_const_mul, integral_exp, integral_exp, integral_const]
  · simp only [probReal_univ, one_smul]
    have a1 : Real.exp (m + s ^ 2 / 2) * Real.exp (m + s ^ 2 / 2) = Real.exp (s ^ 2 + 2 * m) := by rw [← Real.exp_add]; congr 1; ring
    have a2 : Real.exp (m * 2 + s ^ 2 * 2 ^ 2 / 2) = Real.exp (s ^ 2 + 2 * m) * Real.exp (s ^ 2) := by rw [← Real.exp_add]; congr 1; ring
    have a3 : Real.exp (m * 1 + s ^ 2 * 1 ^ 2 / 2) = Real.exp (m + s ^ 2 / 2) := by congr 1; ring
    rw [a2, a3, mul_assoc, a1, sq (Real.exp (m + s ^ 2 / 2)), a1]; ring
  · exact integrable_exp m s 2
  · exact (integrable_exp m s 1).const_mul _
  · exact ((integrable_exp m s 2).sub ((integrable_exp m s 1).const_mul _))
  · exact integrable_const _

/-- C178 (violated documentation): for data whose base-ten logarithm is normal with mean `m` and standard deviation `s` the
conversion gives the mean only on the exceptional line `m = -(ln 10 + 1) s² / 2` -/
theorem C178_base_ten (m s : ℝ) : ∃ mu, (normalParameters (.fin m) (.fin s)).1 = .fin mu ∧
    (mu = ∫ x, (10 : ℝ) ^ x ∂logLaw m s ↔ m = -(Real.log 10 + 1) * s ^ 2 / 2) := by
  refine ⟨_, by rw [normalParameters_fin], ?_⟩
  have hi : ∫ x, (10 : ℝ) ^ x ∂logLaw m s = Real.exp (m * Real.log 10 + s ^ 2 * Real.log 10 ^ 2 / 2) := by
    rw [← integral_exp]
    congr 1; funext x
    rw [Real.rpow_def_of_pos (by norm_num)]
  rw [hi, Real.exp_eq_exp]
  have hl : 1 < Real.log 10 := by
    rw [Real.lt_log_iff_exp_lt (by norm_num)]
    exact lt_trans Real.exp_one_lt_d9 (by norm_num)
  constructor
  · intro h
    have : (Real.log 10 - 1) * (m + (Real.log 10 + 1) * s ^ 2 / 2) = 0 := by ring_nf; ring_nf at h; linarith
    rcases mul_eq_zero.mp this with h0 | h0
    · linarith
    · linarith
  · intro h
    rw [h]; ring

/-- C178: the fit's own conversion and the tool agree on every parameter, missing ones included -/
theorem C178_agree (m s : Fl) : normalParameters m s = SW.normalParameters m s := rfl

/-- the data are not missing: half a decade of scatter about 1 -/
example : ∃ mu sigma : ℝ, normalParameters (.fin 0) (.fin 0.5) = (.fin mu, .fin sigma) ∧ 1 < mu ∧ 0 < sigma := by
  refine ⟨_, _, normalParameters_fin 0 0.5, ?_, ?_⟩
  · exact Real.one_lt_exp_iff.mpr (by norm_num)
  · apply Real.sqrt_pos.mpr
    have : 1 < Real.exp ((0.5 : ℝ) ^ 2) := Real.one_lt_exp_iff.mpr (by norm_num)
    exact mul_pos (Real.exp_pos _) (by linarith)

end Swap
end SW
