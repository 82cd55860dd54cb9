import Verif.Props.RoundPhys
import Mathlib.Analysis.Complex.ExponentialBounds

/-!
# C258: centre of mass and drifts with rounding
-/

namespace SW
namespace Rnd

/-! ### Kahan's sum of signed terms -/

theorem ulp_small {p : ℕ} (h6 : 6 ≤ p) : ulp p ≤ 1 / 64 := by
  have : (2 : ℝ) ^ (-(p : ℤ)) ≤ 2 ^ (-6 : ℤ) := zpow_le_zpow_right₀ (by norm_num) (by omega)
  unfold ulp
  refine this.trans ?_
  norm_num

theorem kahan_signed {p : ℕ} (hp : 1 ≤ p) (h6 : 6 ≤ p) {g A W s c x : ℝ} (g1 : 1 ≤ g) (hA : 0 ≤ A) (hW : |W| ≤ A) (hs : |s - W| ≤ (g - 1) * A)
    (hc : |c| ≤ 4 * ulp p * (g * A)) :
    |(kahanStep (fmt p hp) (s, c) x).1 - (W + x)| ≤ (g * (1 + 7 * ulp p) - 1) * (A + |x|) ∧
    |(kahanStep (fmt p hp) (s, c) x).2| ≤ 4 * ulp p * (g * (1 + 7 * ulp p) * (A + |x|)) := by
  obtain ⟨u0, -⟩ := ulp_range hp
  have u6 := ulp_small h6
  simp only [kahanStep]
  generalize hy : (fmt p hp).r (x - c) = y
  generalize ht : (fmt p hp).r (s + y) = t
  generalize hd : (fmt p hp).r (t - s) = e
  have ry := r_rel hp (x - c)
  have rt := r_rel hp (s + y)
  have rd := r_rel hp (t - s)
  have rc := r_rel hp (e - y)
  rw [hy] at ry
  rw [ht] at rt
  rw [hd] at rd
  generalize hk : (fmt p hp).r (e - y) = k at rc
  generalize ulp p = u at *
  have x0 := abs_nonneg x
  obtain ⟨M, hM⟩ : ∃ M, M = g * (A + |x|) := ⟨_, rfl⟩
  have gx : |x| ≤ g * |x| := by nlinarith
  have sM : |s| + |x| ≤ M := by
    have h1 : |s| ≤ g * A := by
      have := abs_sub_le s W 0
      simp only [sub_zero] at this
      linarith
    rw [hM, mul_add]
    linarith
  have s0 := abs_nonneg s
  have M0 : 0 ≤ M := by linarith
  have hu : u * M ≤ 1 / 64 * M := mul_le_mul_of_nonneg_right u6 M0
  have uM0 : 0 ≤ u * M := mul_nonneg u0.le M0
  have uuM : u * (u * M) ≤ 1 / 64 * (u * M) := mul_le_mul_of_nonneg_right u6 uM0
  have cM : |c| ≤ 4 * (u * M) := by
    have : g * A ≤ M := by rw [hM, mul_add]; linarith
    have h2 := mul_le_mul_of_nonneg_left this (show 0 ≤ 4 * u by linarith)
    linarith
  have c1 : |x - c| ≤ |x| + |c| := abs_sub x c
  have c2 : u * |x - c| ≤ u * (M + 4 * (u * M)) := mul_le_mul_of_nonneg_left (by linarith) u0.le
  have c3 : |y - x| ≤ 6 * (u * M) := by
    have h1 : |y - x| ≤ |y - (x - c)| + |c| := by
      have := abs_sub_le y (x - c) x
      rw [show x - c - x = -c by ring, abs_neg] at this
      exact this
    rw [mul_add] at c2
    linarith
  have c4 : |y| ≤ |x| + 6 * (u * M) := by
    have := abs_sub_le y x 0
    simp only [sub_zero] at this
    linarith
  have c5 : |s + y| ≤ 35 / 32 * M := (abs_add_le s y).trans (by linarith)
  have c6 : |t - (s + y)| ≤ 35 / 32 * (u * M) := by
    have := mul_le_mul_of_nonneg_left c5 u0.le
    linarith
  have c7 : |t - (s + x)| ≤ 7 * (u * M) ∨ True := Or.inr trivial
  have c3' : |y - x| ≤ (5 + 1 / 16) * (u * M) := by
    have h1 : |y - x| ≤ |y - (x - c)| + |c| := by
      have := abs_sub_le y (x - c) x
      rw [show x - c - x = -c by ring, abs_neg] at this
      exact this
    rw [mul_add] at c2
    linarith
  have c8 : |t - (s + x)| ≤ 7 * (u * M) := by
    have := abs_sub_le t (s + y) (s + x)
    rw [show s + y - (s + x) = y - x by ring] at this
    linarith
  constructor
  · have h1 : |t - (W + x)| ≤ |t - (s + x)| + |s - W| := by
      have := abs_sub_le t (s + x) (W + x)
      rw [show s + x - (W + x) = s - W by ring] at this
      exact this
    have h2 : (g - 1) * A ≤ (g - 1) * (A + |x|) := mul_le_mul_of_nonneg_left (by linarith) (by linarith)
    have h3 : (g * (1 + 7 * u) - 1) * (A + |x|) = 7 * (u * M) + (g - 1) * (A + |x|) := by rw [hM]; ring
    rw [h3]
    linarith
  · have d1 : |t - s| ≤ 9 / 8 * M := by
      have h1 : t - s = (t - (s + y)) + y := by ring
      rw [h1]
      refine (abs_add_le _ _).trans ?_
      linarith
    have d2 : |e - (t - s)| ≤ 9 / 8 * (u * M) := by
      have := mul_le_mul_of_nonneg_left d1 u0.le
      linarith
    have d3 : |e - y| ≤ 3 * (u * M) := by
      have h1 : e - y = (e - (t - s)) + (t - (s + y)) := by ring
      rw [h1]
      refine (abs_add_le _ _).trans ?_
      linarith
    have d4 : |k| ≤ |e - y| + u * |e - y| := by
      have := abs_sub_le k (e - y) 0
      simp only [sub_zero] at this
      linarith
    have d5 : u * |e - y| ≤ 1 / 64 * (3 * (u * M)) := mul_le_mul u6 d3 (abs_nonneg _) (by norm_num)
    have d6 : 4 * u * (g * (1 + 7 * u) * (A + |x|)) = 4 * (u * M) + 28 * (u * (u * M)) := by rw [hM]; ring
    rw [d6]
    have : 0 ≤ u * (u * M) := mul_nonneg u0.le uM0
    linarith

theorem kahan_signed_fold {p : ℕ} (hp : 1 ≤ p) (h6 : 6 ≤ p) (l : List ℝ) {g A W s c : ℝ} (g1 : 1 ≤ g) (hA : 0 ≤ A) (hW : |W| ≤ A)
    (hs : |s - W| ≤ (g - 1) * A) (hc : |c| ≤ 4 * ulp p * (g * A)) :
    |(l.foldl (kahanStep (fmt p hp)) (s, c)).1 - (W + l.sum)| ≤ (g * (1 + 7 * ulp p) ^ l.length - 1) * (A + (l.map abs).sum) := by
  obtain ⟨u0, -⟩ := ulp_range hp
  induction l generalizing g A W s c with
  | nil => simpa using hs
  | cons x l ih =>
    obtain ⟨h1, h2⟩ := kahan_signed hp h6 (x := x) g1 hA hW hs hc
    simp only [List.foldl_cons, List.sum_cons, List.map_cons, List.length_cons]
    generalize kahanStep (fmt p hp) (s, c) x = z at h1 h2 ⊢
    obtain ⟨s', c'⟩ := z
    have := ih (g := g * (1 + 7 * ulp p)) (A := A + |x|) (W := W + x) (s := s') (c := c') (by nlinarith) (by positivity)
      ((abs_add_le _ _).trans (by linarith)) h1 h2
    rw [← add_assoc, ← add_assoc, pow_succ']
    rw [mul_assoc] at this
    exact this

/-- pandas' compensated sum of any `n` terms: the error is at most `(1 + 7u)^n - 1` of the sum of the sizes -/
theorem C258_sum {p : ℕ} (hp : 1 ≤ p) (h6 : 6 ≤ p) (l : List ℝ) :
    |kahan (fmt p hp) l - l.sum| ≤ ((1 + 7 * ulp p) ^ l.length - 1) * (l.map abs).sum := by
  have := kahan_signed_fold hp h6 l (g := 1) (A := 0) (W := 0) (s := 0) (c := 0) le_rfl le_rfl (by simp) (by simp) (by simp)
  simpa [kahan] using this

theorem kahan_neg (R : Rounding) (l : List ℝ) : kahan R (l.map fun x => - x) = - kahan R l := by
  have : ∀ (l : List ℝ) (s c : ℝ), (l.map fun x => - x).foldl (kahanStep R) (-s, -c) = (-(l.foldl (kahanStep R) (s, c)).1, -(l.foldl (kahanStep R) (s, c)).2) := by
    intro l
    induction l with
    | nil => intro s c; rfl
    | cons x l ih =>
      intro s c
      simp only [List.map_cons, List.foldl_cons]
      have e : kahanStep R (-s, -c) (-x) = (-(kahanStep R (s, c) x).1, -(kahanStep R (s, c) x).2) := by
        simp only [kahanStep]
        have o : ∀ a b : ℝ, b = -a → R.r b = - R.r a := fun a b h => by rw [h, R.odd]
        have e1 : R.r (-x - -c) = - R.r (x - c) := o _ _ (by ring)
        rw [e1]
        generalize R.r (x - c) = y
        have e2 : R.r (-s + -y) = - R.r (s + y) := o _ _ (by ring)
        rw [e2]
        generalize R.r (s + y) = t
        have e3 : R.r (-t - -s) = - R.r (t - s) := o _ _ (by ring)
        rw [e3]
        generalize R.r (t - s) = e
        rw [o (e - y) (-e - -y) (by ring)]
      rw [e, ih]
  have h := this l 0 0
  rw [neg_zero] at h
  unfold kahan
  rw [h]

/-- nonnegative terms have a nonnegative compensated sum -/
theorem kahan_nonneg {p : ℕ} (hp : 1 ≤ p) (h6 : 6 ≤ p) (l : List ℝ) (h : ∀ x ∈ l, 0 ≤ x) (hr : ∀ x ∈ l, (fmt p hp).Rep x) : 0 ≤ kahan (fmt p hp) l := by
  obtain ⟨u0, -⟩ := ulp_range hp
  have u6 := ulp_small h6
  have key : ∀ (l : List ℝ) (s c : ℝ), (∀ x ∈ l, 0 ≤ x) → (∀ x ∈ l, (fmt p hp).Rep x) → (0 < s ∧ |c| ≤ 4 * ulp p * s ∨ s = 0 ∧ c = 0) →
      0 ≤ (l.foldl (kahanStep (fmt p hp)) (s, c)).1 := by
    intro l
    induction l with
    | nil =>
      intro s c _ _ hs
      rcases hs with hs | hs
      · exact hs.1.le
      · exact hs.1.ge
    | cons x l ih =>
      intro s c h hr hs
      simp only [List.foldl_cons]
      have st : 0 < (kahanStep (fmt p hp) (s, c) x).1 ∧ |(kahanStep (fmt p hp) (s, c) x).2| ≤ 4 * ulp p * (kahanStep (fmt p hp) (s, c) x).1 ∨
          (kahanStep (fmt p hp) (s, c) x).1 = 0 ∧ (kahanStep (fmt p hp) (s, c) x).2 = 0 := by
        rcases hs with ⟨s0, hc⟩ | ⟨rfl, rfl⟩
        · left
          obtain ⟨k1, k2⟩ := kahan_step hp h6 s0 (h x (by simp)) hc
          exact ⟨near_pos (by linarith) k1, k2⟩
        · rw [kahan_first hp (hr x (by simp))]
          rcases (h x (by simp)).lt_or_eq with hx | hx
          · left
            exact ⟨hx, by simp; positivity⟩
          · right
            exact ⟨hx.symm, rfl⟩
      exact ih _ _ (fun y hy => h y (by simp [hy])) (fun y hy => hr y (by simp [hy])) st
  exact key l 0 0 h hr (Or.inr ⟨rfl, rfl⟩)

/-! ### the centre of mass -/

section
variable {p : ℕ} (hp : 1 ≤ p) (K : Const) (d : RData)

theorem momentum_bounds {f : String → ℝ} {s : String} (hn : 0 < d.n s) :
    |(fmt p hp).r (f s * rhoR (fmt p hp) K d s) - f s * rR K d s| ≤ ((1 + ulp p) ^ 2 - 1) * (rR K d s * |f s|) ∧
    |(fmt p hp).r (f s * rhoR (fmt p hp) K d s)| ≤ (1 + ulp p) ^ 2 * (rR K d s * |f s|) := by
  obtain ⟨u0, u1⟩ := ulp_range hp
  have h1 := r_rel hp (d.n s * K.mInMp s)
  have hr : 0 < rR K d s := mul_pos hn (K.mInMp_pos s)
  change |rhoR (fmt p hp) K d s - rR K d s| ≤ ulp p * |rR K d s| at h1
  rw [abs_of_pos hr] at h1
  have h2 := r_rel hp (f s * rhoR (fmt p hp) K d s)
  generalize rhoR (fmt p hp) K d s = q at h1 h2 ⊢
  generalize rR K d s = m at h1 h2 hr ⊢
  generalize (fmt p hp).r (f s * q) = x at h2 ⊢
  generalize f s = v at h2 ⊢
  generalize ulp p = u at *
  rw [abs_mul] at h2
  have q1 : |q| ≤ (1 + u) * m := by
    have := abs_sub_le q m 0
    simp only [sub_zero, abs_of_pos hr] at this
    linarith
  have v0 := abs_nonneg v
  have a1 : |v| * |q| ≤ (1 + u) * (m * |v|) := by
    have := mul_le_mul_of_nonneg_left q1 v0
    linarith
  have a2 : |v * q - v * m| ≤ u * (m * |v|) := by
    rw [← mul_sub, abs_mul]
    have := mul_le_mul_of_nonneg_left h1 v0
    linarith
  have a3 : |x - v * m| ≤ ((1 + u) ^ 2 - 1) * (m * |v|) := by
    have t := abs_sub_le x (v * q) (v * m)
    have a4 := mul_le_mul_of_nonneg_left a1 u0.le
    have e : ((1 + u) ^ 2 - 1) * (m * |v|) = u * ((1 + u) * (m * |v|)) + u * (m * |v|) := by ring
    rw [e]
    linarith
  refine ⟨a3, ?_⟩
  have t := abs_sub_le x (v * m) 0
  simp only [sub_zero, abs_mul, abs_of_pos hr] at t
  linarith

/-- the computed centre-of-mass velocity, a component: accurate to a small part of the mean size of that component, weighted by mass -/
theorem C258_accuracy (h6 : 6 ≤ p) {ps : List String} (h : Present d ps) {S : Order} (hS : S.Of ps.length) (f : String → ℝ) :
    |comOfR (fmt p hp) S K d ps f - comR K d ps f| ≤
      ((1 + ulp p) ^ 3 * ((1 + 7 * ulp p) / (1 - ulp p)) ^ ps.length - 1) * comR K d ps (fun s => |f s|) := by
  obtain ⟨u0, u1⟩ := ulp_range hp
  obtain ⟨D, hD, nD⟩ := C257_density hp K d h hS
  rw [rhoTot_fin (d.measured ps)] at hD
  injection hD with hD
  have hD' : (ps.map (rR K d)).sum = D := hD
  have nr : (1 - ulp p) ^ (ps.length : ℝ) = (1 - ulp p) ^ ps.length := Real.rpow_natCast _ _
  obtain ⟨D0, n1, n2⟩ := nD
  rw [nr] at n1 n2
  -- the momentum
  have hk := C258_sum hp h6 (ps.map fun s => (fmt p hp).r (f s * rhoR (fmt p hp) K d s))
  rw [List.length_map, List.map_map] at hk
  have sums : |(ps.map fun s => (fmt p hp).r (f s * rhoR (fmt p hp) K d s)).sum - (ps.map fun s => f s * rR K d s).sum| ≤
        ((1 + ulp p) ^ 2 - 1) * (ps.map fun s => |f s| * rR K d s).sum ∧
      (ps.map (abs ∘ fun s => (fmt p hp).r (f s * rhoR (fmt p hp) K d s))).sum ≤ (1 + ulp p) ^ 2 * (ps.map fun s => |f s| * rR K d s).sum ∧
      |(ps.map fun s => f s * rR K d s).sum| ≤ (ps.map fun s => |f s| * rR K d s).sum := by
    have hn := h.n
    clear hk hD' n1 n2 hD nr D0 hS h
    induction ps with
    | nil => simp
    | cons a l ih =>
      obtain ⟨i1, i2, i3⟩ := ih (fun s hs => hn s (by simp [hs]))
      obtain ⟨m1, m2⟩ := momentum_bounds hp K d (f := f) (hn a (by simp))
      have ra : 0 < rR K d a := mul_pos (hn a (by simp)) (K.mInMp_pos a)
      simp only [List.map_cons, List.sum_cons, Function.comp_apply, mul_add]
      simp only [mul_comm (|f a|)]
      refine ⟨?_, by linarith, ?_⟩
      · rw [add_sub_add_comm]
        exact (abs_add_le _ _).trans (by linarith)
      · refine (abs_add_le _ _).trans ?_
        rw [abs_mul, abs_of_pos ra]
        linarith
  obtain ⟨s1, s2, s3⟩ := sums
  obtain ⟨G, hG⟩ : ∃ G, G = (1 + 7 * ulp p) ^ ps.length := ⟨_, rfl⟩
  have G1 : 1 ≤ G := by rw [hG]; exact one_le_pow₀ (by linarith)
  obtain ⟨V, hV⟩ : ∃ V, V = (1 - ulp p) ^ ps.length := ⟨_, rfl⟩
  have V0 : 0 < V := by rw [hV]; exact pow_pos (by linarith) _
  have V1 : V ≤ 1 := by rw [hV]; exact pow_le_one₀ (by linarith) (by linarith)
  unfold comOfR comR
  rw [hD', div_pow, ← hG, ← hV]
  rw [← hG] at hk
  rw [← hV] at n1 n2
  change V * D ≤ rhoTotR (fmt p hp) S K d ps at n1
  generalize kahan (fmt p hp) (ps.map fun s => (fmt p hp).r (f s * rhoR (fmt p hp) K d s)) = k at *
  generalize (ps.map fun s => (fmt p hp).r (f s * rhoR (fmt p hp) K d s)).sum = z at *
  generalize (ps.map (abs ∘ fun s => (fmt p hp).r (f s * rhoR (fmt p hp) K d s))).sum = Z at *
  generalize (ps.map fun s => f s * rR K d s).sum = w at *
  generalize (ps.map fun s => |f s| * rR K d s).sum = W at *
  generalize rhoTotR (fmt p hp) S K d ps = D' at *
  have rq := r_rel hp (k / D')
  generalize (fmt p hp).r (k / D') = q at *
  generalize ulp p = u at *
  have W0 : 0 ≤ W := (abs_nonneg w).trans s3
  have D'0 : 0 < D' := lt_of_lt_of_le (mul_pos V0 D0) n1
  -- momentum
  have k1 : |k - w| ≤ (G * (1 + u) ^ 2 - 1) * W := by
    have t := abs_sub_le k z w
    have a1 : (G - 1) * Z ≤ (G - 1) * ((1 + u) ^ 2 * W) := mul_le_mul_of_nonneg_left s2 (by linarith)
    have e : (G * (1 + u) ^ 2 - 1) * W = (G - 1) * ((1 + u) ^ 2 * W) + ((1 + u) ^ 2 - 1) * W := by ring
    rw [e]
    linarith
  -- quotient
  have iD : 1 / D' ≤ 1 / (V * D) := one_div_le_one_div_of_le (mul_pos V0 D0) n1
  have H0 : 0 ≤ G * (1 + u) ^ 2 - 1 := by
    have : (1 : ℝ) ≤ (1 + u) ^ 2 := one_le_pow₀ (by linarith)
    nlinarith
  have k2 : |k / D' - w / D'| ≤ (G * (1 + u) ^ 2 - 1) / V * (W / D) := by
    rw [← sub_div, abs_div, abs_of_pos D'0]
    calc |k - w| / D' = |k - w| * (1 / D') := by ring
      _ ≤ ((G * (1 + u) ^ 2 - 1) * W) * (1 / (V * D)) := mul_le_mul k1 iD (by positivity) (mul_nonneg H0 W0)
      _ = _ := by field_simp
  have k3 : |w / D' - w / D| ≤ (1 / V - 1) * (W / D) := by
    have e : w / D' - w / D = w / D * (D / D' - 1) := by field_simp
    rw [e, abs_mul, abs_div, abs_of_pos D0, mul_comm]
    apply mul_le_mul _ (div_le_div_of_nonneg_right s3 D0.le) (by positivity)
    · have : 1 ≤ 1 / V := by rw [le_div_iff₀ V0]; linarith
      linarith
    · have b1 : D / D' ≤ 1 / V := by
        rw [div_le_div_iff₀ D'0 V0]
        linarith
      have b2 : V ≤ D / D' := by
        rw [le_div_iff₀ D'0]
        rw [le_div_iff₀ V0] at n2
        linarith
      have b3 : 1 - V ≤ 1 / V - 1 := by
        have : V + 1 / V ≥ 2 := by
          have e : V + 1 / V - 2 = (V - 1) ^ 2 / V := by field_simp; ring
          have : 0 ≤ (V - 1) ^ 2 / V := by positivity
          linarith
        linarith
      rw [abs_le]
      constructor <;> linarith
  have k4 : |k / D' - w / D| ≤ (G * (1 + u) ^ 2 / V - 1) * (W / D) := by
    have t := abs_sub_le (k / D') (w / D') (w / D)
    have e : (G * (1 + u) ^ 2 / V - 1) * (W / D) = (G * (1 + u) ^ 2 - 1) / V * (W / D) + (1 / V - 1) * (W / D) := by ring
    rw [e]
    linarith
  have k5 : |k / D'| ≤ G * (1 + u) ^ 2 / V * (W / D) := by
    have t := abs_sub_le (k / D') (w / D) 0
    simp only [sub_zero] at t
    have : |w / D| ≤ W / D := by
      rw [abs_div, abs_of_pos D0]
      exact div_le_div_of_nonneg_right s3 D0.le
    linarith
  have t := abs_sub_le q (k / D') (w / D)
  have k6 := mul_le_mul_of_nonneg_left k5 u0.le
  have e : ((1 + u) ^ 3 * (G / V) - 1) * (W / D) = u * (G * (1 + u) ^ 2 / V * (W / D)) + (G * (1 + u) ^ 2 / V - 1) * (W / D) := by ring
  rw [e]
  linarith

/-- the size of that part in double precision, for up to a million species -/
theorem C258_double (N : ℕ) (hN : N ≤ 10 ^ 6) :
    (1 + ulp 53) ^ 3 * ((1 + 7 * ulp 53) / (1 - ulp 53)) ^ N - 1 ≤ (8 * N + 3) * (12 / 10 ^ 17) := by
  have hu : ulp 53 = 1 / 2 ^ 53 := by
    unfold ulp
    norm_num
  have u0 : 0 < ulp 53 := by rw [hu]; norm_num
  have us : ulp 53 ≤ 112 / 10 ^ 18 := by rw [hu]; norm_num
  generalize ulp 53 = u at *
  have N0 : (0 : ℝ) ≤ N := Nat.cast_nonneg N
  have hN' : (N : ℝ) ≤ 10 ^ 6 := by exact_mod_cast hN
  have e1 : 1 + u ≤ Real.exp u := by have := Real.add_one_le_exp u; linarith
  have e2 : (1 + 7 * u) / (1 - u) ≤ Real.exp (7 * u + 101 / 100 * u) := by
    rw [Real.exp_add, div_eq_mul_one_div]
    apply mul_le_mul _ _ (by apply div_nonneg <;> linarith) (Real.exp_nonneg _)
    · have := Real.add_one_le_exp (7 * u); linarith
    · have h1 := Real.add_one_le_exp (101 / 100 * u)
      refine le_trans ?_ h1
      rw [div_le_iff₀ (by linarith)]
      nlinarith
  have e3 : (1 + u) ^ 3 * ((1 + 7 * u) / (1 - u)) ^ N ≤ Real.exp (3 * u + N * (7 * u + 101 / 100 * u)) := by
    rw [Real.exp_add]
    apply mul_le_mul _ _ (by apply pow_nonneg; apply div_nonneg <;> linarith) (Real.exp_nonneg _)
    · calc (1 + u) ^ 3 ≤ Real.exp u ^ 3 := pow_le_pow_left₀ (by linarith) e1 3
        _ = Real.exp (3 * u) := by rw [← Real.exp_nat_mul]; norm_num
    · calc ((1 + 7 * u) / (1 - u)) ^ N ≤ Real.exp (7 * u + 101 / 100 * u) ^ N := pow_le_pow_left₀ (by apply div_nonneg <;> linarith) e2 N
        _ = _ := by rw [← Real.exp_nat_mul]
  obtain ⟨a, ha⟩ : ∃ a, a = 3 * u + N * (7 * u + 101 / 100 * u) := ⟨_, rfl⟩
  rw [← ha] at e3
  have a0 : 0 ≤ a := by rw [ha]; positivity
  have ab : a ≤ (8 * N + 3) * (101 / 100) * u := by rw [ha]; nlinarith [mul_nonneg N0 u0.le]
  have asm : a ≤ 1 / 1000 := by
    have : (8 * (N : ℝ) + 3) * (101 / 100) * u ≤ (8 * 10 ^ 6 + 3) * (101 / 100) * (112 / 10 ^ 18) :=
      mul_le_mul (by linarith) us u0.le (by norm_num)
    refine ab.trans (this.trans ?_)
    norm_num
  have e4 := abs_le.mp (Real.abs_exp_sub_one_sub_id_le (x := a) (by rw [abs_of_nonneg a0]; linarith))
  have e5 : a ^ 2 ≤ a * (1 / 1000) := by rw [pow_two]; exact mul_le_mul_of_nonneg_left asm a0
  have e6 : (8 * (N : ℝ) + 3) * (101 / 100) * u * (1001 / 1000) ≤ (8 * N + 3) * (12 / 10 ^ 17) := by
    have : (8 * (N : ℝ) + 3) * ((101 / 100) * u * (1001 / 1000)) ≤ (8 * N + 3) * (12 / 10 ^ 17) :=
      mul_le_mul_of_nonneg_left (by linarith) (by linarith)
    linarith
  linarith [e4.2]

/-- reversing all velocities reverses the computed centre of mass exactly -/
theorem C258_reverse (R : Rounding) (S : Order) (ps : List String) (f : String → ℝ) :
    comOfR R S K d ps (fun s => - f s) = - comOfR R S K d ps f := by
  unfold comOfR
  have e : (ps.map fun s => R.r (- f s * rhoR R K d s)) = (ps.map fun s => R.r (f s * rhoR R K d s)).map fun x => - x := by
    rw [List.map_map]
    apply List.map_congr_left
    intro s _
    simp only [Function.comp_apply]
    rw [← R.odd]
    congr 1
    ring
  rw [e, kahan_neg, neg_div, R.odd]

/-- at rest: exactly zero -/
theorem C258_rest (R : Rounding) (S : Order) (ps : List String) : comOfR R S K d ps (fun _ => 0) = 0 := by
  have := C258_reverse K d R S ps (fun _ => 0)
  simp only [neg_zero] at this
  linarith

/-- if no species moves backward, the centre of mass does not -/
theorem C258_sign (h6 : 6 ≤ p) {ps : List String} (hn : ∀ s ∈ ps, 0 ≤ d.n s) {S : Order} (hS : S.Of ps.length) (f : String → ℝ) (hf : ∀ s ∈ ps, 0 ≤ f s) :
    0 ≤ comOfR (fmt p hp) S K d ps f := by
  have r0 : ∀ s ∈ ps, 0 ≤ rhoR (fmt p hp) K d s := fun s hs => r_nonneg _ (mul_nonneg (hn s hs) (K.mInMp_pos s).le)
  apply r_nonneg
  apply div_nonneg
  · apply kahan_nonneg hp h6
    · intro x hx
      obtain ⟨s, hs, rfl⟩ := List.mem_map.mp hx
      exact r_nonneg _ (mul_nonneg (hf s hs) (r0 s hs))
    · intro x hx
      obtain ⟨s, -, rfl⟩ := List.mem_map.mp hx
      exact (fmt p hp).idem _
  · apply sum_nonneg
    intro i hi
    have hi' := (mem_of hS i).mp hi
    have e : ps.getD i "" = ps[i] := by simp [List.getD, List.getElem?_eq_getElem hi']
    rw [e]
    exact r0 _ (List.getElem_mem hi')

/-- the computed dynamic pressure is nonnegative -/
theorem C258_pressure (h6 : 6 ≤ p) {ps : List String} (hn : ∀ s ∈ ps, 0 ≤ d.n s) (S : Order) {T : Order} (hT : T.Of ps.length) :
    0 ≤ pdynamicR (fmt p hp) S T K d ps := by
  apply r_nonneg
  apply mul_nonneg
  · apply sum_nonneg
    intro i hi
    have hi' := (mem_of hT i).mp hi
    have e : ps.getD i "" = ps[i] := by simp [List.getD, List.getElem?_eq_getElem hi']
    rw [e]
    apply r_nonneg
    apply mul_nonneg
    · apply kahan_nonneg hp h6
      · intro x hx
        obtain ⟨f, -, rfl⟩ := List.mem_map.mp hx
        exact sq_nonneg' _ _
      · intro x hx
        obtain ⟨f, -, rfl⟩ := List.mem_map.mp hx
        exact (fmt p hp).idem _
    · exact r_nonneg _ (mul_nonneg (hn _ (List.getElem_mem hi')) (K.mInMp_pos _).le)
  · apply r_nonneg
    apply div_nonneg _ K.uPth_pos.le
    apply r_nonneg
    apply mul_nonneg
    · exact r_nonneg _ (mul_nonneg (by norm_num) K.uRho_pos.le)
    · exact sq_nonneg' _ _

end

theorem dr_pos {x : ℝ} (h : 0 < x) : 0 < double.r x := by
  have u := ulp_range (p := 53) (by norm_num)
  exact near_pos (by linarith) (near_one (p := 53) (by norm_num) h)

/-- what rounding breaks: the centre of mass of two proton beams of density 0.1 that both move with 3 moves faster than either,
and the dynamic pressure of these beams at rest with each other is positive -/
theorem C258_same_violated (K : Const) (h1 : K.mInMp "p1" = 1) (h2 : K.mInMp "p2" = 1) :
    ∃ d : RData, (∀ s, d.n s = double.r (1 / 10) ∧ d.vx s = 3 ∧ d.vy s = 0 ∧ d.vz s = 0) ∧
      3 < comOfR double (.add (.term 0) (.term 1)) K d ["p1", "p2"] d.vx ∧
      0 < pdynamicR double (.add (.term 0) (.term 1)) (.add (.term 0) (.term 1)) K d ["p1", "p2"] := by
  have z := r_zero double
  obtain ⟨x, hx⟩ : ∃ x : ℝ, x = 3602879701896397 * 2 ^ (-55 : ℤ) := ⟨_, rfl⟩
  have tenth : double.r (1 / 10) = x := by
    have t := binary_eval (p := 53) (1 / 10) 7205759403792794 (-56) (by norm_num) (by norm_num) (by rw [abs_lt]; norm_num)
    have e : binary 53 (1 / 10) = x := by rw [t, hx]; norm_num
    exact e
  have keepx : double.r x = x := by rw [← tenth]; exact double.idem _
  obtain ⟨y, hy⟩ : ∃ y : ℝ, y = 5404319552844596 * 2 ^ (-54 : ℤ) := ⟨_, rfl⟩
  have three : double.r (3 * x) = y := by
    have t := binary_eval' (p := 53) (3 * x) 5404319552844596 (-54) (by rw [hx]; norm_num) (by rw [hx]; norm_num) (by
      rw [hx]
      have := rne_odd_tie 5404319552844595 (by norm_num)
      norm_num at this ⊢
      exact this)
    have e : binary 53 (3 * x) = y := by rw [t, hy]; norm_num
    exact e
  have yy : double.r (y + y) = 5404319552844596 * 2 ^ (-53 : ℤ) := by
    have := keep 5404319552844596 (-53) (by norm_num)
    rw [hy]
    norm_num at this ⊢
    exact this
  have xx : double.r (x + x) = 3602879701896397 * 2 ^ (-54 : ℤ) := by
    have := keep 3602879701896397 (-54) (by norm_num)
    rw [hx]
    norm_num at this ⊢
    exact this
  have keepy : double.r y = y := by rw [← three]; exact double.idem _
  obtain ⟨d, hd⟩ : ∃ d : RData, d = ⟨fun _ => x, fun _ => 3, fun _ => 0, fun _ => 0, fun _ _ => 50, 3, 4, 0⟩ := ⟨_, rfl⟩
  have r1 : rhoR double K d "p1" = x := by unfold rhoR; rw [hd, h1]; simp only [mul_one]; exact keepx
  have r2 : rhoR double K d "p2" = x := by unfold rhoR; rw [hd, h2]; simp only [mul_one]; exact keepx
  have com : comOfR double (.add (.term 0) (.term 1)) K d ["p1", "p2"] d.vx = 3 + 2 ^ (-51 : ℤ) := by
    unfold comOfR rhoTotR across kahan
    simp only [List.map_cons, List.map_nil, List.foldl_cons, List.foldl_nil, Order.sum, List.getD_cons_zero, List.getD_cons_succ, r1, r2]
    have v : d.vx "p1" = 3 ∧ d.vx "p2" = 3 := by rw [hd]; exact ⟨rfl, rfl⟩
    rw [v.1, v.2, three]
    have k1 : kahanStep double (0, 0) y = (y, 0) := kahan_first (p := 53) (by norm_num) keepy
    rw [k1]
    simp only [kahanStep, sub_zero, keepy]
    rw [yy, xx]
    have t := binary_eval (p := 53) (5404319552844596 * 2 ^ (-53 : ℤ) / (3602879701896397 * 2 ^ (-54 : ℤ))) 6755399441055745 (-51) (by norm_num) (by norm_num)
      (by rw [abs_lt]; norm_num)
    have e : binary 53 (5404319552844596 * 2 ^ (-53 : ℤ) / (3602879701896397 * 2 ^ (-54 : ℤ))) = 3 + 2 ^ (-51 : ℤ) := by rw [t]; norm_num
    exact e
  refine ⟨d, ?_, ?_, ?_⟩
  · intro s
    rw [hd, tenth]
    exact ⟨rfl, rfl, rfl, rfl⟩
  · rw [com]
    norm_num
  · have x0 : 0 < x := by rw [hx]; norm_num
    have drift : ∀ s, 0 < driftSqR double (.add (.term 0) (.term 1)) K d ["p1", "p2"] s := by
      intro s
      unfold driftSqR
      have vy : d.vy = fun _ => 0 := by rw [hd]
      have vz : d.vz = fun _ => 0 := by rw [hd]
      have vx : d.vx s = 3 := by rw [hd]
      simp only [List.map_cons, List.map_nil]
      rw [com, vx, vy, vz, C258_rest K d]
      have f0 : flow double 0 0 = 0 := (C254_flow double 0 0).2.1
      rw [f0, mul_zero, z]
      have fne : flow double 3 (3 + 2 ^ (-51 : ℤ)) ≠ 0 := by
        intro h
        have := (C254_flow_zero (p := 53) (by norm_num) 3 (3 + 2 ^ (-51 : ℤ))).mp h
        norm_num at this
      have q0 : 0 < double.r (flow double 3 (3 + 2 ^ (-51 : ℤ)) * flow double 3 (3 + 2 ^ (-51 : ℤ))) := dr_pos (mul_self_pos.mpr fne)
      have qr : double.Rep (double.r (flow double 3 (3 + 2 ^ (-51 : ℤ)) * flow double 3 (3 + 2 ^ (-51 : ℤ)))) := double.idem _
      generalize double.r (flow double 3 (3 + 2 ^ (-51 : ℤ)) * flow double 3 (3 + 2 ^ (-51 : ℤ))) = q at q0 qr
      unfold kahan
      simp only [List.foldl_cons, List.foldl_nil]
      have k1 : kahanStep double (0, 0) q = (q, 0) := kahan_first (p := 53) (by norm_num) qr
      have k2 : kahanStep double (q, 0) 0 = (q, 0) := by
        unfold Rounding.Rep at qr
        simp only [kahanStep, sub_zero, z, add_zero, qr, sub_self]
      rw [k1, k2, k2]
      exact q0
    unfold pdynamicR across
    apply dr_pos
    apply mul_pos
    · simp only [Order.sum, List.getD_cons_zero, List.getD_cons_succ, r1, r2]
      apply dr_pos
      exact add_pos (dr_pos (mul_pos (drift _) x0)) (dr_pos (mul_pos (drift _) x0))
    · apply dr_pos
      apply div_pos _ K.uPth_pos
      exact dr_pos (mul_pos (dr_pos (mul_pos (by norm_num) K.uRho_pos)) (dr_pos (mul_pos K.uV_pos K.uV_pos)))

/-- for example: the centre of mass of protons and alphas of equal densities, to 6e-15 of the speed -/
example (K : Const) : |comOfR double (.add (.term 0) (.term 1)) K ⟨fun _ => 3, fun _ => 400, fun _ => 0, fun _ => 0, fun _ _ => 50, 3, 4, 0⟩ ["a", "p1"]
      (fun s => if s = "a" then 420 else 400) -
    comR K ⟨fun _ => 3, fun _ => 400, fun _ => 0, fun _ => 0, fun _ _ => 50, 3, 4, 0⟩ ["a", "p1"] (fun s => if s = "a" then 420 else 400)| ≤
    (8 * (2 : ℕ) + 3) * (12 / 10 ^ 17) *
      comR K ⟨fun _ => 3, fun _ => 400, fun _ => 0, fun _ => 0, fun _ _ => 50, 3, 4, 0⟩ ["a", "p1"] (fun s => |if s = "a" then 420 else 400|) := by
  have h := C258_accuracy (p := 53) (by norm_num) K ⟨fun _ => 3, fun _ => 400, fun _ => 0, fun _ => 0, fun _ _ => 50, 3, 4, 0⟩ (by norm_num)
    (ps := ["a", "p1"]) ⟨by simp, fun _ _ => by norm_num, fun _ _ _ _ => by norm_num⟩ (S := .add (.term 0) (.term 1)) (by unfold Order.Of; decide)
    (fun s => if s = "a" then 420 else 400)
  refine h.trans (mul_le_mul_of_nonneg_right (C258_double 2 (by norm_num)) ?_)
  unfold comR
  apply div_nonneg
  · apply list_sum_nonneg
    intro s _
    exact mul_nonneg (abs_nonneg _) (rR_pos K (by norm_num)).le
  · apply list_sum_nonneg
    intro s _
    exact (rR_pos K (by norm_num)).le

end Rnd
end SW
