import Verif.FitCov
import Mathlib.Data.Matrix.Mul
import Mathlib.Algebra.BigOperators.Field
import Mathlib.Tactic.Ring
import Mathlib.Tactic.Linarith
import Mathlib.Tactic.FieldSimp
import Mathlib.Tactic.Positivity

/-!
# C170: parameter covariance; C171: what a fit object offers when
-/

namespace SW
namespace Cov

open scoped BigOperators

/-! ### C170 -/

/-- `J = Σ_a s_a u_a v_aᵀ` is a thin singular value decomposition: the rows of `U` and of `V` orthonormal, the singular values not
negative and in descending order. -/
structure IsSVD {n p : Nat} (J : Matrix (Fin n) (Fin p) ℝ) (U : Nat → Fin n → ℝ) (s : List ℝ) (V : Nat → Fin p → ℝ) : Prop where
  len : s.length = min n p
  eq : ∀ i j, J i j = ∑ a ∈ Finset.range s.length, U a i * s.getD a 0 * V a j
  orthU : ∀ a < s.length, ∀ b < s.length, ∑ i, U a i * U b i = if a = b then 1 else 0
  orthV : ∀ a < s.length, ∀ b < s.length, ∑ i, V a i * V b i = if a = b then 1 else 0
  nonneg : ∀ a ∈ s, 0 ≤ a
  sorted : s.Pairwise (fun a b => b ≤ a)

theorem kept_take (tol : ℝ) (s : List ℝ) (hs : s.Pairwise (fun a b => b ≤ a)) : kept tol s = s.take (kept tol s).length := by
  unfold kept
  induction s with
  | nil => rfl
  | cons a t ih =>
    rw [List.pairwise_cons] at hs
    by_cases h : tol < a
    · simp only [List.filter_cons, h, decide_true, if_true, List.length_cons, List.take_succ_cons]
      rw [← ih hs.2]
    · have : t.filter (fun a => decide (tol < a)) = [] := by
        rw [List.filter_eq_nil_iff]
        intro b hb
        have := hs.1 b hb
        simp only [decide_eq_true_eq, not_lt]
        linarith [not_lt.mp h]
      simp [h, this]

theorem kept_len (tol : ℝ) (s : List ℝ) : (kept tol s).length ≤ s.length := List.length_filter_le _ _

theorem kept_getD (tol : ℝ) (s : List ℝ) (hs : s.Pairwise (fun a b => b ≤ a)) (a : Nat) (ha : a < (kept tol s).length) :
    (kept tol s).getD a 0 = s.getD a 0 := by
  have h : (kept tol s)[a]? = s[a]? := by
    conv_lhs => rw [kept_take tol s hs]
    rw [List.getElem?_take, if_pos ha]
  rw [List.getD_eq_getElem?_getD, List.getD_eq_getElem?_getD, h]

theorem kept_pos (tol : ℝ) (s : List ℝ) (a : Nat) (ha : a < (kept tol s).length) : tol < (kept tol s).getD a 0 := by
  rw [List.getD_eq_getElem?_getD, List.getElem?_eq_getElem ha]
  have h : ∀ b ∈ kept tol s, tol < b := by
    intro b hb
    unfold kept at hb
    rw [List.mem_filter] at hb
    simpa using hb.2
  exact h _ (List.getElem_mem ha)

/-- dropped singular values are at most the threshold -/
theorem dropped_le (tol : ℝ) (s : List ℝ) (hs : s.Pairwise (fun a b => b ≤ a)) (a : Nat) (h1 : (kept tol s).length ≤ a)
    (h2 : a < s.length) : s.getD a 0 ≤ tol := by
  rw [List.getD_eq_getElem?_getD, List.getElem?_eq_getElem h2, Option.getD_some]
  by_contra hc
  have hc : tol < s[a] := not_le.mp hc
  have hall : ∀ b ∈ s.take (a + 1), tol < b := by
    intro b hb
    obtain ⟨i, hi, rfl⟩ := List.getElem_of_mem hb
    rw [List.getElem_take]
    have hi' : i ≤ a := by rw [List.length_take] at hi; omega
    rcases Nat.lt_or_eq_of_le hi' with h | h
    · exact lt_of_lt_of_le hc (List.pairwise_iff_getElem.mp hs i a (by omega) h2 h)
    · subst h; exact hc
  have : (s.take (a + 1)).length ≤ (kept tol s).length := by
    unfold kept
    calc (s.take (a + 1)).length = ((s.take (a + 1)).filter (fun x => decide (tol < x))).length := by
          rw [List.filter_eq_self.mpr (by intro b hb; simpa using hall b hb)]
      _ ≤ _ := ((List.take_sublist (a + 1) s).filter _).length_le
  rw [List.length_take] at this
  omega

theorem gram {n p : Nat} {J : Matrix (Fin n) (Fin p) ℝ} {U s V} (h : IsSVD J U s V) (i j : Fin p) :
    (J.transpose * J) i j = ∑ a ∈ Finset.range s.length, (s.getD a 0) ^ 2 * V a i * V a j := by
  rw [Matrix.mul_apply]
  simp only [Matrix.transpose_apply, h.eq]
  simp only [Finset.sum_mul_sum]
  rw [Finset.sum_comm]
  apply Finset.sum_congr rfl
  intro a ha
  rw [Finset.sum_comm]
  have : ∀ b ∈ Finset.range s.length, ∑ k : Fin n, U a k * s.getD a 0 * V a i * (U b k * s.getD b 0 * V b j)
      = if a = b then (s.getD a 0) ^ 2 * V a i * V a j else 0 := by
    intro b hb
    have e : ∀ k : Fin n, U a k * s.getD a 0 * V a i * (U b k * s.getD b 0 * V b j)
        = (s.getD a 0 * V a i * s.getD b 0 * V b j) * (U a k * U b k) := by intro k; ring
    simp only [e]
    rw [← Finset.mul_sum, h.orthU a (Finset.mem_range.mp ha) b (Finset.mem_range.mp hb)]
    split
    · rename_i hab; subst hab; ring
    · ring
  rw [Finset.sum_congr rfl this, Finset.sum_ite_eq, if_pos ha]

/-- projector on the kept directions -/
theorem proj {n p : Nat} {J : Matrix (Fin n) (Fin p) ℝ} {U s V} (h : IsSVD J U s V) (tol : ℝ) (ht : 0 ≤ tol) (i j : Fin p) :
    (pinv tol s V * (J.transpose * J)) i j = ∑ a ∈ Finset.range (kept tol s).length, V a i * V a j := by
  rw [Matrix.mul_apply]
  simp only [gram h, pinv]
  simp only [Finset.sum_mul_sum]
  rw [Finset.sum_comm]
  apply Finset.sum_congr rfl
  intro a ha
  have ha' := Finset.mem_range.mp ha
  have has : a < s.length := lt_of_lt_of_le ha' (kept_len tol s)
  rw [Finset.sum_comm]
  have hk : (kept tol s).getD a 0 = s.getD a 0 := kept_getD tol s h.sorted a ha'
  have hp : s.getD a 0 ≠ 0 := by rw [← hk]; have := kept_pos tol s a ha'; linarith
  have : ∀ b ∈ Finset.range s.length, ∑ k : Fin p, V a i / (kept tol s).getD a 0 ^ 2 * V a k * (s.getD b 0 ^ 2 * V b k * V b j)
      = if a = b then V a i * V a j else 0 := by
    intro b hb
    have e : ∀ k : Fin p, V a i / (kept tol s).getD a 0 ^ 2 * V a k * (s.getD b 0 ^ 2 * V b k * V b j)
        = (V a i / (kept tol s).getD a 0 ^ 2 * s.getD b 0 ^ 2 * V b j) * (V a k * V b k) := by intro k; ring
    simp only [e]
    rw [← Finset.mul_sum, h.orthV a has b (Finset.mem_range.mp hb), hk]
    split
    · rename_i hab; subst hab; field_simp
    · ring
  rw [Finset.sum_congr rfl this, Finset.sum_ite_eq, if_pos (Finset.mem_range.mpr has)]

theorem pinv_symm {p : Nat} (tol : ℝ) (s : List ℝ) (V : Nat → Fin p → ℝ) (i j : Fin p) : pinv tol s V i j = pinv tol s V j i := by
  unfold pinv
  apply Finset.sum_congr rfl
  intro a _
  ring

/-- The covariance is symmetric and positive semidefinite, whatever the decomposition. -/
theorem C170_symmetric {p : Nat} (tol : ℝ) (s : List ℝ) (V : Nat → Fin p → ℝ) (m : Nat) (cost : ℝ) (hc : 0 ≤ cost) (hm : p < m) :
    ∃ C : Matrix (Fin p) (Fin p) ℝ, (∀ i j, (scaled m cost (pinv tol s V)).1 i j = .fin (C i j)) ∧ C.transpose = C ∧
      ∀ x : Fin p → ℝ, 0 ≤ ∑ i, ∑ j, x i * C i j * x j := by
  have hd : (0 : ℝ) < (m : ℝ) - p := by have : (p : ℝ) < m := by exact_mod_cast hm
                                        linarith
  have hq : 0 ≤ 2 * cost / ((m : ℝ) - p) := div_nonneg (by linarith) hd.le
  refine ⟨fun i j => pinv tol s V i j * (2 * cost / ((m : ℝ) - p)), ?_, ?_, ?_⟩
  · intro i j; simp [scaled, hm]
  · funext i j
    show pinv tol s V j i * _ = _
    rw [pinv_symm]
  · intro x
    have e : ∑ i, ∑ j, x i * (pinv tol s V i j * (2 * cost / ((m : ℝ) - p))) * x j
        = (2 * cost / ((m : ℝ) - p)) * ∑ a ∈ Finset.range (kept tol s).length, ((∑ i, x i * V a i) / (kept tol s).getD a 0) ^ 2 := by
      have e1 : ∀ a, ((∑ i, x i * V a i) / (kept tol s).getD a 0) ^ 2
          = ∑ i, ∑ j, x i * V a i * (x j * V a j) / (kept tol s).getD a 0 ^ 2 := by
        intro a
        rw [div_pow, pow_two, Finset.sum_mul_sum, Finset.sum_div]
        apply Finset.sum_congr rfl; intro i _
        rw [Finset.sum_div]
      simp only [e1]
      rw [Finset.sum_comm (s := Finset.range _), Finset.mul_sum]
      apply Finset.sum_congr rfl; intro i _
      rw [Finset.sum_comm (s := Finset.range _), Finset.mul_sum]
      apply Finset.sum_congr rfl; intro j _
      rw [pinv, Finset.sum_mul, Finset.mul_sum, Finset.sum_mul, Finset.mul_sum]
      apply Finset.sum_congr rfl; intro a _
      ring
    rw [e]
    exact mul_nonneg hq (Finset.sum_nonneg (fun a _ => sq_nonneg _))

/-- With as many singular values above the threshold as parameters, the unscaled covariance is the inverse of the normal matrix `JᵀJ`,
so the reported covariance is `(JᵀJ)⁻¹` times the robust chi-square per degree of freedom. -/
theorem C170_inverse {n p : Nat} (J : Matrix (Fin n) (Fin p) ℝ) (U : Nat → Fin n → ℝ) (s : List ℝ) (V : Nat → Fin p → ℝ)
    (h : IsSVD J U s V) (hnp : p ≤ n) (tol : ℝ) (ht : 0 ≤ tol) (hk : ∀ a ∈ s, tol < a) (m : Nat) (cost : ℝ) (hm : p < m) :
    pinv tol s V * (J.transpose * J) = 1 ∧ (J.transpose * J) * pinv tol s V = 1 ∧
    (∀ i j, (scaled m cost (pinv tol s V)).1 i j = .fin ((J.transpose * J)⁻¹ i j * (2 * cost / ((m : ℝ) - p)))) ∧
    (scaled m cost (pinv tol s V)).2 = .fin (2 * cost / ((m : ℝ) - p)) := by
  have hlen : (kept tol s).length = p := by
    have : kept tol s = s := by unfold kept; rw [List.filter_eq_self]; intro a ha; simpa using hk a ha
    rw [this, h.len]; omega
  have hsl : s.length = p := by rw [h.len]; omega
  have h1 : pinv tol s V * (J.transpose * J) = 1 := by
    obtain ⟨W, hW⟩ : ∃ W : Matrix (Fin p) (Fin p) ℝ, ∀ a i : Fin p, W a i = V a.val i := ⟨fun a i => V a.val i, fun _ _ => rfl⟩
    have hWW : W * W.transpose = 1 := by
      funext a b
      rw [Matrix.mul_apply, Matrix.one_apply]
      simp only [Matrix.transpose_apply, hW]
      rw [h.orthV a (by rw [hsl]; exact a.2) b (by rw [hsl]; exact b.2)]
      simp [Fin.ext_iff]
    have hWW' : W.transpose * W = 1 := mul_eq_one_comm.mp hWW
    funext i j
    rw [proj h tol ht, hlen, ← hWW', Matrix.mul_apply, Finset.sum_range]
    simp only [Matrix.transpose_apply, hW]
  refine ⟨h1, mul_eq_one_comm.mp h1, ?_, by simp [scaled, hm]⟩
  intro i j
  rw [Matrix.inv_eq_left_inv h1]
  simp [scaled, hm]

/-- Degenerate fits: if the dropped singular values are exactly zero, the unscaled covariance is the Moore-Penrose inverse of `JᵀJ`. -/
theorem C170_pseudo {n p : Nat} (J : Matrix (Fin n) (Fin p) ℝ) (U : Nat → Fin n → ℝ) (s : List ℝ) (V : Nat → Fin p → ℝ)
    (h : IsSVD J U s V) (tol : ℝ) (ht : 0 ≤ tol) (hz : ∀ a ∈ s, a ≤ tol → a = 0) :
    (J.transpose * J) * pinv tol s V * (J.transpose * J) = J.transpose * J ∧
    pinv tol s V * (J.transpose * J) * pinv tol s V = pinv tol s V ∧
    (pinv tol s V * (J.transpose * J)).transpose = pinv tol s V * (J.transpose * J) ∧
    ((J.transpose * J) * pinv tol s V).transpose = (J.transpose * J) * pinv tol s V := by
  obtain ⟨P, hP⟩ : ∃ P, P = pinv tol s V * (J.transpose * J) := ⟨_, rfl⟩
  have pij : ∀ i j, P i j = ∑ a ∈ Finset.range (kept tol s).length, V a i * V a j := by
    intro i j; rw [hP]; exact proj h tol ht i j
  have hPs : P.transpose = P := by
    funext i j; rw [Matrix.transpose_apply, pij, pij]
    exact Finset.sum_congr rfl (fun a _ => mul_comm _ _)
  have hCs : (pinv tol s V).transpose = pinv tol s V := by funext i j; rw [Matrix.transpose_apply, pinv_symm]
  have hGs : (J.transpose * J).transpose = J.transpose * J := by rw [Matrix.transpose_mul, Matrix.transpose_transpose]
  have hGC : (J.transpose * J) * pinv tol s V = P := by
    have : P.transpose = (J.transpose * J).transpose * (pinv tol s V).transpose := by rw [hP, Matrix.transpose_mul]
    rw [hPs, hCs, hGs] at this
    exact this.symm
  have kl := kept_len tol s
  -- V_a P = V_a for kept a
  have hvp : ∀ a < s.length, ∀ j, ∑ k : Fin p, V a k * P k j = if a < (kept tol s).length then V a j else 0 := by
    intro a ha j
    simp only [pij, Finset.mul_sum]
    rw [Finset.sum_comm]
    have : ∀ b ∈ Finset.range (kept tol s).length, ∑ k : Fin p, V a k * (V b k * V b j) = if a = b then V a j else 0 := by
      intro b hb
      have hb' := Finset.mem_range.mp hb
      simp only [← mul_assoc]
      rw [← Finset.sum_mul, h.orthV a ha b (by omega)]
      split
      · rename_i e; subst e; ring
      · ring
    rw [Finset.sum_congr rfl this, Finset.sum_ite_eq]
    simp [Finset.mem_range]
  refine ⟨?_, ?_, ?_, ?_⟩
  · rw [Matrix.mul_assoc, ← hP]
    funext i j
    rw [Matrix.mul_apply]
    simp only [gram h]
    simp only [Finset.sum_mul]
    rw [Finset.sum_comm]
    apply Finset.sum_congr rfl
    intro a ha
    have ha' := Finset.mem_range.mp ha
    simp only [mul_assoc]
    rw [← Finset.mul_sum, ← Finset.mul_sum, hvp a ha' j]
    by_cases hk : a < (kept tol s).length
    · simp [hk]
    · have hle := dropped_le tol s h.sorted a (by omega) ha'
      have hmem : s.getD a 0 ∈ s := by
        rw [List.getD_eq_getElem?_getD, List.getElem?_eq_getElem ha', Option.getD_some]; exact List.getElem_mem ha'
      rw [hz _ hmem hle]; simp
  · rw [← hP]
    rw [← hGC] at hP
    have : P * pinv tol s V = Matrix.transpose (pinv tol s V * P) := by
      rw [Matrix.transpose_mul, hPs, hCs]
    rw [this]
    funext i j
    rw [Matrix.transpose_apply, Matrix.mul_apply]
    conv_lhs => simp only [pinv]
    simp only [Finset.sum_mul]
    rw [Finset.sum_comm, pinv_symm, pinv]
    apply Finset.sum_congr rfl
    intro a ha
    have ha' := Finset.mem_range.mp ha
    simp only [mul_assoc]
    rw [← Finset.mul_sum, hvp a (by omega) i, if_pos ha']
  · rw [← hP, hPs]
  · rw [hGC, hPs]

/-- The uncertainties are the square roots of the diagonal, real and not negative, if there are more observations than parameters;
otherwise all are infinite and the robust chi-square is NaN. -/
theorem C170_sigma {p : Nat} (tol : ℝ) (s : List ℝ) (V : Nat → Fin p → ℝ) (m : Nat) (cost : ℝ) (hc : 0 ≤ cost) (i : Fin p) :
    (p < m → ∃ c σ : ℝ, (scaled m cost (pinv tol s V)).1 i i = .fin c ∧ psigma (scaled m cost (pinv tol s V)).1 i = .fin σ ∧ 0 ≤ σ ∧
      σ ^ 2 = c) ∧
    (m ≤ p → psigma (scaled m cost (pinv tol s V)).1 i = .pinf ∧ (scaled m cost (pinv tol s V)).2 = .nan) := by
  constructor
  · intro hm
    obtain ⟨C, hC, -, hpos⟩ := C170_symmetric tol s V m cost hc hm
    have hii : 0 ≤ C i i := by
      have := hpos (fun k => if k = i then 1 else 0)
      simpa using this
    refine ⟨C i i, Real.sqrt (C i i), hC i i, ?_, Real.sqrt_nonneg _, Real.sq_sqrt hii⟩
    unfold psigma
    rw [hC, Fl.sqrt_fin _ hii]
  · intro hm
    have : ¬ p < m := by omega
    simp [psigma, scaled, this, Fl.sqrt]

/-- Rescaling all residuals by a positive factor (all weights by its inverse) leaves the reported uncertainties unchanged: the singular
values scale, the threshold with them, and the cost with the square. -/
theorem C170_rescale {p : Nat} (eps : ℝ) (n : Nat) (s : List ℝ) (V : Nat → Fin p → ℝ) (m : Nat) (cost c : ℝ) (hc : 0 < c)
    (i j : Fin p) :
    (scaled m (c ^ 2 * cost) (pinv (threshold eps n p (s.map (c * ·))) (s.map (c * ·)) V)).1 i j
      = (scaled m cost (pinv (threshold eps n p s) s V)).1 i j := by
  have ht : threshold eps n p (s.map (c * ·)) = c * threshold eps n p s := by
    unfold threshold
    cases s with
    | nil => simp
    | cons a t => simp only [List.map_cons, List.headD_cons]; ring
  have hk : kept (c * threshold eps n p s) (s.map (c * ·)) = (kept (threshold eps n p s) s).map (c * ·) := by
    unfold kept
    rw [List.filter_map]
    congr 1
    apply List.filter_congr
    intro a _
    simp [mul_lt_mul_iff_right₀ hc]
  by_cases hm : p < m
  · simp only [scaled, hm, if_true]
    congr 1
    rw [ht]
    unfold pinv
    rw [hk, List.length_map, Finset.sum_mul, Finset.sum_mul]
    apply Finset.sum_congr rfl
    intro a ha
    have ha' := Finset.mem_range.mp ha
    have e : ((kept (threshold eps n p s) s).map (c * ·)).getD a 0 = c * (kept (threshold eps n p s) s).getD a 0 := by
      rw [List.getD_eq_getElem?_getD, List.getD_eq_getElem?_getD, List.getElem?_map, List.getElem?_eq_getElem ha']
      rfl
    rw [e]
    generalize (kept (threshold eps n p s) s).getD a 0 = q
    have hc' : c ≠ 0 := hc.ne'
    by_cases hq : q = 0
    · simp [hq]
    · have hd : ((m : ℝ) - p) ≠ 0 := by
        have : (p : ℝ) < m := by exact_mod_cast hm
        intro h; linarith
      field_simp
  · simp [scaled, hm]

/-- a straight line through two of three points: one parameter, Jacobian (3, 4)ᵀ, singular value 5 -/
example : IsSVD (n := 2) (p := 1) (fun i _ => if i = 0 then 3 else 4) (fun _ i => if i = 0 then 3 / 5 else 4 / 5) [5] (fun _ _ => 1) where
  len := rfl
  eq := by intro i j; fin_cases i <;> simp
  orthU := by
    intro a ha b hb
    have : a = 0 := by simpa using ha
    have : b = 0 := by simpa using hb
    subst_vars; simp [Fin.sum_univ_two]; norm_num
  orthV := by
    intro a ha b hb
    have : a = 0 := by simpa using ha
    have : b = 0 := by simpa using hb
    subst_vars; simp
  nonneg := by simp
  sorted := by simp

/-! ### C171 -/

/-- the result of the last successful fit of a history -/
def lastFit {ρ} (acts : List (Act ρ)) : Option ρ :=
  (acts.filterMap (fun a => match a with | .fit (.ok r) _ => some r | _ => none)).getLast?

/-- the observations last set -/
def lastObs {ρ} (n : Nat) (acts : List (Act ρ)) : Nat :=
  (acts.filterMap (fun a => match a with | .setObs k => some k | _ => none)).getLast?.getD n

/-- what holds at any time -/
def Ok {ρ} (o : Obj ρ) : Prop :=
  (o.fit = none → o.tex = none ∧ o.plotter = none) ∧
  (∀ r, o.fit = some r → (∃ k, o.tex = some (r, k)) ∧ ∃ k t, o.plotter = some (r, k, t) ∧ ∃ k', t = (r, k'))

theorem act_ok {ρ} (o : Obj ρ) (a : Act ρ) (h : Ok o) : Ok (act o a).1 := by
  obtain ⟨h1, h2⟩ := h
  rcases a with ⟨out, ret⟩ | n | _ | _
  · cases out with
    | error e => exact ⟨h1, h2⟩
    | ok r =>
      refine ⟨?_, ?_⟩
      · intro h; simp [act, buildTeX, buildPlotter, popt] at h
      · intro r' h
        have : r = r' := by simpa [act, buildTeX, buildPlotter, popt] using h
        subst this
        exact ⟨⟨o.obs, by simp [act, buildTeX, buildPlotter, popt]⟩, o.obs, (r, o.obs), by simp [act, buildTeX, buildPlotter, popt], _, rfl⟩
  · exact ⟨h1, h2⟩
  · cases hf : o.fit with
    | none =>
      have e : (act o .buildTeX).1 = o := by simp [act, buildTeX, popt, hf]
      rw [e]; exact ⟨h1, h2⟩
    | some r =>
      have e : (act o .buildTeX).1 = { o with tex := some (r, o.obs) } := by simp [act, buildTeX, popt, hf]
      rw [e]
      refine ⟨fun h => absurd (h.symm.trans hf) (by simp), ?_⟩
      intro r' h
      have hr : r = r' := by have := hf.symm.trans h; simpa using this
      subst hr
      exact ⟨⟨_, rfl⟩, (h2 r hf).2⟩
  · cases hf : o.fit with
    | none =>
      have e : (act o .buildPlotter).1 = o := by simp [act, buildPlotter, hf]
      rw [e]; exact ⟨h1, h2⟩
    | some r =>
      obtain ⟨⟨k, hk⟩, -⟩ := h2 r hf
      have e : (act o .buildPlotter).1 = { o with plotter := some (r, o.obs, (r, k)) } := by simp [act, buildPlotter, hf, hk]
      rw [e]
      refine ⟨fun h => absurd (h.symm.trans hf) (by simp), ?_⟩
      intro r' h
      have hr : r = r' := by have := hf.symm.trans h; simpa using this
      subst hr
      exact ⟨⟨k, hk⟩, _, _, rfl, _, rfl⟩

theorem run_ok {ρ} (acts : List (Act ρ)) : ∀ o : Obj ρ, Ok o → Ok (runActs o acts) := by
  induction acts with
  | nil => intro o h; exact h
  | cons a as ih => intro o h; exact ih _ (act_ok o a h)

theorem act_fit {ρ} (o : Obj ρ) (a : Act ρ) :
    (act o a).1.fit = (match a with | .fit (.ok r) _ => some r | _ => none : Option ρ).or o.fit ∧
    (act o a).1.obs = (match a with | .setObs k => some k | _ => none : Option Nat).getD o.obs := by
  rcases a with ⟨out, ret⟩ | n | _ | _
  · cases out <;> simp [act, buildTeX, buildPlotter, popt]
  · simp [act]
  · cases hf : o.fit <;> simp [act, buildTeX, popt, hf]
  · cases hf : o.fit <;> cases ht : o.tex <;> simp [act, buildPlotter, hf, ht]

theorem run_fit {ρ} (acts : List (Act ρ)) : ∀ o : Obj ρ, (runActs o acts).fit = (lastFit acts).or o.fit ∧
    (runActs o acts).obs = lastObs o.obs acts := by
  induction acts with
  | nil => intro o; simp [runActs, lastFit, lastObs]
  | cons a as ih =>
    intro o
    rw [runActs, (ih _).1, (ih _).2]
    obtain ⟨h1, h2⟩ := act_fit o a
    rw [h1, h2]
    rcases a with ⟨out, ret⟩ | n | _ | _
    · cases out with
      | error e => simp [lastFit, lastObs]
      | ok r =>
        simp only [lastFit, lastObs, List.filterMap_cons, List.getLast?_cons]
        constructor
        · cases (List.filterMap (fun a => match a with | Act.fit (Except.ok r) _ => some r | _ => none) as).getLast? <;> simp
        · rfl
    · simp only [lastFit, lastObs, List.filterMap_cons, List.getLast?_cons]
      simp
    · simp [lastFit, lastObs]
    · simp [lastFit, lastObs]

/-- Over every history of fits, new observations and rebuilds: until a fit succeeds the parameters, the annotation and the plotter are
AttributeErrors and the chi-square is None; from then on the parameters are those of the last successful fit, and the annotation and the
plotter exist and show these same parameters. -/
theorem C171_history {ρ} (n : Nat) (acts : List (Act ρ)) :
    (lastFit acts = none → popt (runActs (fresh n) acts) = .error .attributeError ∧ chisq (runActs (fresh n) acts) = none ∧
      (runActs (fresh n) acts).tex = none ∧ (runActs (fresh n) acts).plotter = none) ∧
    (∀ r, lastFit acts = some r → popt (runActs (fresh n) acts) = .ok r ∧ chisq (runActs (fresh n) acts) = some r ∧
      (∃ k, (runActs (fresh n) acts).tex = some (r, k)) ∧ ∃ k k', (runActs (fresh n) acts).plotter = some (r, k, (r, k'))) := by
  have hok := run_ok acts (fresh n) (ρ := ρ) ⟨fun _ => ⟨rfl, rfl⟩, fun r h => by simp [fresh] at h⟩
  have hf := (run_fit acts (fresh n (ρ := ρ))).1
  rw [show (fresh n : Obj ρ).fit = none from rfl, Option.or_none] at hf
  generalize runActs (fresh n) acts = o at *
  constructor
  · intro h
    rw [h] at hf
    obtain ⟨a, b⟩ := hok.1 hf
    simp [popt, chisq, hf, a, b]
  · intro r h
    rw [h] at hf
    obtain ⟨⟨k, hk⟩, k', t, hp, k'', ht⟩ := hok.2 r hf
    refine ⟨by simp [popt, hf], by simp [chisq, hf], ⟨k, hk⟩, k', k'', ?_⟩
    rw [hp, ht]

/-- Violated: the annotation is meant to be available, with NaN parameters, for a fit that failed; but if no fit ever succeeded building it
(or the plotter) is always an AttributeError, and nothing is stored. -/
theorem C171_failed {ρ} (n : Nat) (acts : List (Act ρ)) (h : lastFit acts = none) :
    (act (runActs (fresh n) acts) .buildTeX).2 = some .attributeError ∧
    (act (runActs (fresh n) acts) .buildPlotter).2 = some .attributeError ∧
    (act (runActs (fresh n) acts) .buildTeX).1.tex = none := by
  have hf := (run_fit acts (fresh n (ρ := ρ))).1
  rw [h, show (fresh n : Obj ρ).fit = none from rfl] at hf
  have ht := ((C171_history n acts).1 h).2.2.1
  have hf : (runActs (fresh n) acts).fit = none := hf
  refine ⟨by simp [act, buildTeX, popt, hf], by simp [act, buildPlotter, hf], ?_⟩
  simpa [act, buildTeX, popt, hf] using ht

/-- A successful fit, or a rebuild after one, ties annotation and plotter to the observations of that moment; replacing the observations
afterwards changes neither: until the next success they show the old data with the old parameters, although goodness-of-fit and residuals
are computed from the new data (violated: stale). -/
theorem C171_stale {ρ} (n : Nat) (acts : List (Act ρ)) (r : ρ) (ret : Bool) (k : Nat) (fails : List (PyErr × Bool)) :
    (runActs (fresh n) (acts ++ Act.fit (.ok r) ret :: .setObs k :: fails.map (fun f => Act.fit (.error f.1) f.2))).obs = k ∧
    (runActs (fresh n) (acts ++ Act.fit (.ok r) ret :: .setObs k :: fails.map (fun f => Act.fit (.error f.1) f.2))).plotter
      = some (r, lastObs n acts, (r, lastObs n acts)) := by
  have happ : ∀ (l l' : List (Act ρ)) (o : Obj ρ), runActs o (l ++ l') = runActs (runActs o l) l' := by
    intro l
    induction l with
    | nil => intro l' o; rfl
    | cons a as ih => intro l' o; exact ih l' _
  rw [happ]
  have ho := (run_fit acts (fresh n (ρ := ρ))).2
  have ho : (runActs (fresh n) acts).obs = lastObs n acts := ho
  generalize runActs (fresh n) acts = o at *
  have hfail : ∀ (fs : List (PyErr × Bool)) (o : Obj ρ), runActs o (fs.map (fun f => Act.fit (.error f.1) f.2)) = o := by
    intro fs
    induction fs with
    | nil => intro o; rfl
    | cons f fs ih => intro o; exact ih o
  rw [runActs, runActs, hfail]
  simp [act, buildTeX, buildPlotter, popt, ho]

example : popt (runActs (fresh 0) [Act.fit (.error .fitFailed) true, .fit (.ok 7) false, .setObs 1, .fit (.error .fitFailed) true]) = .ok 7 := rfl

end Cov
end SW
