import Verif.Props.RoundPhys
import Verif.RoundHist
import Mathlib.Algebra.BigOperators.Field

/-!
# C259: computed densities integrate to 1, whatever the number of bins
-/

namespace SW
namespace Rnd

/-- `Near`, or both zero -/
def Near0 (u a x y : ℝ) : Prop := (x = 0 ∧ y = 0) ∨ Near u a x y

theorem near0_sum {u a : ℝ} (ι : Finset ℕ) (x y : ℕ → ℝ) (h : ∀ i ∈ ι, Near0 u a (x i) (y i)) (h0 : 0 < ∑ i ∈ ι, x i) :
    Near u a (∑ i ∈ ι, x i) (∑ i ∈ ι, y i) := by
  refine ⟨h0, ?_, ?_⟩
  · rw [Finset.mul_sum]
    apply Finset.sum_le_sum
    intro i hi
    rcases h i hi with ⟨a, b⟩ | n
    · rw [a, b]; simp
    · exact n.2.1
  · rw [Finset.sum_div]
    apply Finset.sum_le_sum
    intro i hi
    rcases h i hi with ⟨a, b⟩ | n
    · rw [a, b]; simp
    · exact n.2.2

section
variable {p : ℕ} (hp : 1 ≤ p)

theorem near_width {e : ℕ → ℝ} {i : ℕ} (he : e i < e (i + 1)) : Near (ulp p) 1 (e (i + 1) - e i) (width (fmt p hp) e i) := near_one hp (by linarith)

/-- a density that integrates, with the exact widths, to 1: one-dimensional histograms -/
theorem C259_density1 (k : ℕ) (e : ℕ → ℝ) (he : ∀ i < k, e i < e (i + 1)) (c : ℕ → ℕ) (hc : 0 < ∑ i ∈ Finset.range k, c i) :
    Near (ulp p) 3 1 (∑ i ∈ Finset.range k, density1R (fmt p hp) k e c i * (e (i + 1) - e i)) := by
  obtain ⟨u0, u1⟩ := ulp_range hp
  have u1' : ulp p < 1 := by linarith
  obtain ⟨N, hN⟩ : ∃ N : ℝ, N = ((∑ j ∈ Finset.range k, c j : ℕ) : ℝ) := ⟨_, rfl⟩
  have N0 : 0 < N := by rw [hN]; exact_mod_cast hc
  have e1 : ∑ i ∈ Finset.range k, (c i : ℝ) / N = 1 := by
    rw [← Finset.sum_div, hN]
    push_cast
    apply div_self
    have : ((∑ j ∈ Finset.range k, c j : ℕ) : ℝ) ≠ 0 := by rw [← hN]; exact N0.ne'
    push_cast at this
    exact this
  have key := near0_sum (u := ulp p) (a := 3) (Finset.range k) (fun i => (c i : ℝ) / N) (fun i => density1R (fmt p hp) k e c i * (e (i + 1) - e i))
    (by
      intro i hi
      have hi' := he i (Finset.mem_range.mp hi)
      unfold density1R
      rw [← hN]
      rcases Nat.eq_zero_or_pos (c i) with h | h
      · left
        rw [h]
        simp [r_zero]
      · right
        have c0 : (0 : ℝ) < c i := by exact_mod_cast h
        have w := near_round hp (near_mul u0.le u1' (near_width hp hi') (near_refl u0.le u1' N0))
        have q := near_round hp (near_div u0.le u1' (near_refl u0.le u1' c0) w)
        have d0 : 0 < e (i + 1) - e i := by linarith
        have := near_mul u0.le u1' q (near_refl u0.le u1' d0)
        have ee : (c i : ℝ) / ((e (i + 1) - e i) * N) * (e (i + 1) - e i) = c i / N := by field_simp
        rw [ee] at this
        exact near_up u0.le u1' (by norm_num) this)
    (by rw [e1]; norm_num)
  rw [e1] at key
  exact key

/-- two dimensions, `axnorm="d"` -/
theorem C259_density2 (k l : ℕ) (ex ey : ℕ → ℝ) (hx : ∀ i < k, ex i < ex (i + 1)) (hy : ∀ j < l, ey j < ey (j + 1)) (c : ℕ → ℕ → ℕ)
    (hc : 0 < ∑ i ∈ Finset.range k, ∑ j ∈ Finset.range l, c i j) :
    Near (ulp p) 5 1 (∑ i ∈ Finset.range k, ∑ j ∈ Finset.range l,
      density2R (fmt p hp) k l ex ey c i j * ((ex (i + 1) - ex i) * (ey (j + 1) - ey j))) := by
  obtain ⟨u0, u1⟩ := ulp_range hp
  have u1' : ulp p < 1 := by linarith
  obtain ⟨N, hN⟩ : ∃ N : ℝ, N = ((∑ a ∈ Finset.range k, ∑ b ∈ Finset.range l, c a b : ℕ) : ℝ) := ⟨_, rfl⟩
  have N0 : 0 < N := by rw [hN]; exact_mod_cast hc
  have e1 : ∑ i ∈ Finset.range k, ∑ j ∈ Finset.range l, (c i j : ℝ) / N = 1 := by
    simp only [← Finset.sum_div]
    rw [hN]
    push_cast
    apply div_self
    have : ((∑ a ∈ Finset.range k, ∑ b ∈ Finset.range l, c a b : ℕ) : ℝ) ≠ 0 := by rw [← hN]; exact N0.ne'
    push_cast at this
    exact this
  have cell : ∀ i ∈ Finset.range k, ∀ j ∈ Finset.range l, Near0 (ulp p) 5 ((c i j : ℝ) / N)
      (density2R (fmt p hp) k l ex ey c i j * ((ex (i + 1) - ex i) * (ey (j + 1) - ey j))) := by
    intro i hi j hj
    have hi' := hx i (Finset.mem_range.mp hi)
    have hj' := hy j (Finset.mem_range.mp hj)
    unfold density2R
    rw [← hN]
    rcases Nat.eq_zero_or_pos (c i j) with h | h
    · left
      rw [h]
      simp [r_zero]
    · right
      have c0 : (0 : ℝ) < c i j := by exact_mod_cast h
      have d0 : 0 < ex (i + 1) - ex i := by linarith
      have d1 : 0 < ey (j + 1) - ey j := by linarith
      have q1 := near_round hp (near_div u0.le u1' (near_refl u0.le u1' c0) (near_width hp hi'))
      have q2 := near_round hp (near_div u0.le u1' q1 (near_width hp hj'))
      have q3 := near_round hp (near_div u0.le u1' q2 (near_refl u0.le u1' N0))
      have := near_mul u0.le u1' q3 (near_refl u0.le u1' (mul_pos d0 d1))
      have ee : (c i j : ℝ) / (ex (i + 1) - ex i) / (ey (j + 1) - ey j) / N * ((ex (i + 1) - ex i) * (ey (j + 1) - ey j)) = c i j / N := by field_simp
      rw [ee] at this
      exact near_up u0.le u1' (by norm_num) this
  have rows : ∀ i ∈ Finset.range k, Near0 (ulp p) 5 (∑ j ∈ Finset.range l, (c i j : ℝ) / N)
      (∑ j ∈ Finset.range l, density2R (fmt p hp) k l ex ey c i j * ((ex (i + 1) - ex i) * (ey (j + 1) - ey j))) := by
    intro i hi
    have nn : ∀ j ∈ Finset.range l, 0 ≤ (c i j : ℝ) / N := fun j _ => div_nonneg (Nat.cast_nonneg _) N0.le
    rcases (Finset.sum_nonneg nn).lt_or_eq with h | h
    · right
      exact near0_sum _ _ _ (cell i hi) h
    · left
      refine ⟨h.symm, ?_⟩
      apply Finset.sum_eq_zero
      intro j hj
      have z := (Finset.sum_eq_zero_iff_of_nonneg nn).mp h.symm j hj
      rcases cell i hi j hj with ⟨-, b⟩ | n
      · exact b
      · exact absurd z n.1.ne'
  have key := near0_sum _ _ _ rows (by rw [e1]; norm_num)
  rw [e1] at key
  exact key

theorem column_near (l : ℕ) (ey : ℕ → ℝ) (hy : ∀ j < l, ey j < ey (j + 1)) (c : ℕ → ℕ) (hc : 0 < ∑ j ∈ Finset.range l, c j) :
    Near (ulp p) 3 1 (∑ j ∈ Finset.range l,
      (fmt p hp).r ((fmt p hp).r ((c j : ℝ) / ((∑ b ∈ Finset.range l, c b : ℕ) : ℝ)) / width (fmt p hp) ey j) * (ey (j + 1) - ey j)) := by
  obtain ⟨u0, u1⟩ := ulp_range hp
  have u1' : ulp p < 1 := by linarith
  obtain ⟨N, hN⟩ : ∃ N : ℝ, N = ((∑ b ∈ Finset.range l, c b : ℕ) : ℝ) := ⟨_, rfl⟩
  have N0 : 0 < N := by rw [hN]; exact_mod_cast hc
  rw [← hN]
  have e1 : ∑ i ∈ Finset.range l, (c i : ℝ) / N = 1 := by
    rw [← Finset.sum_div, hN]
    push_cast
    apply div_self
    have : ((∑ j ∈ Finset.range l, c j : ℕ) : ℝ) ≠ 0 := by rw [← hN]; exact N0.ne'
    push_cast at this
    exact this
  have key := near0_sum (u := ulp p) (a := 3) (Finset.range l) (fun i => (c i : ℝ) / N)
    (fun j => (fmt p hp).r ((fmt p hp).r ((c j : ℝ) / N) / width (fmt p hp) ey j) * (ey (j + 1) - ey j))
    (by
      intro j hj
      have hj' := hy j (Finset.mem_range.mp hj)
      rcases Nat.eq_zero_or_pos (c j) with h | h
      · left
        rw [h]
        simp [r_zero]
      · right
        have c0 : (0 : ℝ) < c j := by exact_mod_cast h
        have q1 := near_round hp (near_div u0.le u1' (near_refl u0.le u1' c0) (near_refl u0.le u1' N0))
        have q2 := near_round hp (near_div u0.le u1' q1 (near_width hp hj'))
        have d1 : 0 < ey (j + 1) - ey j := by linarith
        have := near_mul u0.le u1' q2 (near_refl u0.le u1' d1)
        have ee : (c j : ℝ) / N / (ey (j + 1) - ey j) * (ey (j + 1) - ey j) = c j / N := by field_simp
        rw [ee] at this
        exact near_up u0.le u1' (by norm_num) this)
    (by rw [e1]; norm_num)
  rw [e1] at key
  exact key

/-- `axnorm="cd"`: every column with data -/
theorem C259_column (l : ℕ) (ey : ℕ → ℝ) (hy : ∀ j < l, ey j < ey (j + 1)) (c : ℕ → ℕ → ℕ) (i : ℕ) (hc : 0 < ∑ j ∈ Finset.range l, c i j) :
    Near (ulp p) 3 1 (∑ j ∈ Finset.range l, columnR (fmt p hp) l ey c i j * (ey (j + 1) - ey j)) := column_near hp l ey hy (c i) hc

/-- `axnorm="rd"`: every row with data -/
theorem C259_row (k : ℕ) (ex : ℕ → ℝ) (hx : ∀ i < k, ex i < ex (i + 1)) (c : ℕ → ℕ → ℕ) (j : ℕ) (hc : 0 < ∑ i ∈ Finset.range k, c i j) :
    Near (ulp p) 3 1 (∑ i ∈ Finset.range k, rowR (fmt p hp) k ex c i j * (ex (i + 1) - ex i)) := column_near hp k ex hx (fun i => c i j) hc

/-- a bin has density zero exactly if it is empty -/
theorem C259_empty (k : ℕ) (e : ℕ → ℝ) (he : ∀ i < k, e i < e (i + 1)) (c : ℕ → ℕ) (i : ℕ) (hi : i < k) :
    density1R (fmt p hp) k e c i = 0 ↔ c i = 0 := by
  obtain ⟨u0, u1⟩ := ulp_range hp
  have u1' : ulp p < 1 := by linarith
  unfold density1R
  constructor
  · intro h
    by_contra hne
    have c0 : (0 : ℝ) < c i := by exact_mod_cast Nat.pos_of_ne_zero hne
    have N0 : (0 : ℝ) < ((∑ j ∈ Finset.range k, c j : ℕ) : ℝ) := by
      have : c i ≤ ∑ j ∈ Finset.range k, c j := Finset.single_le_sum (f := c) (fun _ _ => Nat.zero_le _) (Finset.mem_range.mpr hi)
      have h' : 0 < ∑ j ∈ Finset.range k, c j := by omega
      exact_mod_cast h'
    have w := near_round hp (near_mul u0.le u1' (near_width hp (he i hi)) (near_refl u0.le u1' N0))
    have q := near_pos u1' (near_round hp (near_div u0.le u1' (near_refl u0.le u1' c0) w))
    rw [h] at q
    exact lt_irrefl _ q
  · intro h
    rw [h]
    simp [r_zero]

end

/-- of two bins of the same width, the one with more data has no smaller density, for every rounding -/
theorem C259_order (R : Rounding) (k : ℕ) (e : ℕ → ℝ) (c : ℕ → ℕ) (i j : ℕ) (hw : width R e i = width R e j) (hpos : 0 ≤ width R e i) (hc : c i ≤ c j) :
    density1R R k e c i ≤ density1R R k e c j := by
  unfold density1R
  rw [← hw]
  apply R.mono
  apply div_le_div_of_nonneg_right
  · exact_mod_cast hc
  · exact r_nonneg R (mul_nonneg hpos (Nat.cast_nonneg _))

/-- three bins with 5, 0 and 2 data, in double precision: the integral is 1 up to 3.6e-16 -/
example : |(∑ i ∈ Finset.range 3, density1R double 3 (fun i => (i : ℝ) / 10) (fun i => if i = 0 then 5 else if i = 1 then 0 else 2) i *
    (((i + 1 : ℕ) : ℝ) / 10 - (i : ℝ) / 10)) - 1| ≤ 3 * (12 / 10 ^ 17) * 1 := by
  refine C257_double (by norm_num) (by norm_num) ?_
  refine C259_density1 (p := 53) (by norm_num) 3 (fun i => (i : ℝ) / 10) ?_ (fun i => if i = 0 then 5 else if i = 1 then 0 else 2) (by decide)
  intro i _
  push_cast
  linarith

end Rnd
end SW
