import Verif.Vector

/-!
# Properties C29-C33, C93 (vectors and tensors)
-/

namespace SW
open V3

/-! ## C29 -/

/-- C29: magnitude and cylindrical radius of a measured vector. -/
theorem C29_mag_rho (x y z : ℝ) :
    (∃ r : ℝ, (ofReal x y z).mag = .fin r ∧ 0 ≤ r ∧ r ^ 2 = x ^ 2 + y ^ 2 + z ^ 2) ∧
    (∃ r : ℝ, (ofReal x y z).rho = .fin r ∧ 0 ≤ r ∧ r ^ 2 = x ^ 2 + y ^ 2) :=
  ⟨⟨_, mag_ofReal x y z, Real.sqrt_nonneg _, Real.sq_sqrt (by positivity)⟩,
   ⟨_, rho_ofReal x y z, Real.sqrt_nonneg _, Real.sq_sqrt (by positivity)⟩⟩

/-- C29: the magnitude is NaN exactly when a component is NaN (for all inputs, infinities included). -/
theorem C29_mag_nan (v : V3) : v.mag = .nan ↔ v.x = .nan ∨ v.y = .nan ∨ v.z = .nan := by
  have sqnn : ∀ f : Fl, f.sq = .nan ∧ f = .nan ∨ f.sq = .pinf ∧ f ≠ .nan ∨
      (∃ a : ℝ, 0 ≤ a ∧ f.sq = .fin a) ∧ f ≠ .nan := by
    intro f
    cases f with
    | nan => left; exact ⟨rfl, rfl⟩
    | pinf => right; left; exact ⟨rfl, by simp⟩
    | ninf => right; left; exact ⟨rfl, by simp⟩
    | fin a => right; right; exact ⟨⟨a ^ 2, sq_nonneg a, Fl.sq_fin a⟩, by simp⟩
  have fnn : ∀ a : ℝ, 0 ≤ a → Fl.sqrt (.fin a) ≠ .nan := by
    intro a ha; rw [Fl.sqrt_fin _ ha]; simp
  unfold mag
  simp only [Fl.sumAll_cons, Fl.sumAll_nil, Fl.zero_def]
  rcases sqnn v.x with ⟨h1, h1'⟩ | ⟨h1, h1'⟩ | ⟨⟨a, ha, h1⟩, h1'⟩ <;>
  rcases sqnn v.y with ⟨h2, h2'⟩ | ⟨h2, h2'⟩ | ⟨⟨b, hb, h2⟩, h2'⟩ <;>
  rcases sqnn v.z with ⟨h3, h3'⟩ | ⟨h3, h3'⟩ | ⟨⟨c, hc, h3⟩, h3'⟩ <;>
  rw [h1, h2, h3] <;>
  first
  | (simp [h1', h2', h3', Fl.sqrt_nan]; done)
  | (rw [Fl.fin_add, Fl.fin_add, Fl.fin_add]; exact ⟨fun h => absurd h (fnn _ (by positivity)), by simp [h1', h2', h3']⟩)
  | exact ⟨fun h => (Fl.noConfusion h : False).elim, by simp [h1', h2', h3']⟩

/-- C29: `x = rho cos(lon)`, `y = rho sin(lon)`, and the longitude lies in (-180, 180]. -/
theorem C29_longitude (x y z : ℝ) :
    ∃ lon r : ℝ, (ofReal x y z).longitude = .fin lon ∧ (ofReal x y z).rho = .fin r ∧
      -180 < lon ∧ lon ≤ 180 ∧ x = r * Real.cos (lon * Real.pi / 180) ∧
      y = r * Real.sin (lon * Real.pi / 180) := by
  refine ⟨Complex.arg ⟨x, y⟩ * 180 / Real.pi, Real.sqrt (x ^ 2 + y ^ 2), rfl, rho_ofReal x y z, ?_, ?_, ?_, ?_⟩
  · have := Complex.neg_pi_lt_arg ⟨x, y⟩
    rw [lt_div_iff₀ Real.pi_pos]; nlinarith
  · have := Complex.arg_le_pi ⟨x, y⟩
    rw [div_le_iff₀ Real.pi_pos]; nlinarith
  · have h : Complex.arg ⟨x, y⟩ * 180 / Real.pi * Real.pi / 180 = Complex.arg ⟨x, y⟩ := by
      field_simp
    have hn : ‖(⟨x, y⟩ : ℂ)‖ = Real.sqrt (x ^ 2 + y ^ 2) := by
      rw [Complex.norm_def, Complex.normSq_mk]; congr 1; ring
    rw [h, ← hn]; exact (Complex.norm_mul_cos_arg ⟨x, y⟩).symm
  · have h : Complex.arg ⟨x, y⟩ * 180 / Real.pi * Real.pi / 180 = Complex.arg ⟨x, y⟩ := by
      field_simp
    have hn : ‖(⟨x, y⟩ : ℂ)‖ = Real.sqrt (x ^ 2 + y ^ 2) := by
      rw [Complex.norm_def, Complex.normSq_mk]; congr 1; ring
    rw [h, ← hn]; exact (Complex.norm_mul_sin_arg ⟨x, y⟩).symm

/-! ## C30 -/

/-- Spec: `t` degrees is the latitude (angle above the x-y plane) of a vector of length `r`, height `z` and
cylindrical radius `rho`. -/
def IsLatitude (r rho z t : ℝ) : Prop :=
  -90 ≤ t ∧ t ≤ 90 ∧ z = r * Real.sin (t * Real.pi / 180) ∧ rho = r * Real.cos (t * Real.pi / 180)

/-- Spec: `t` degrees is the colatitude (angle from the +z axis). -/
def IsColatitude (r rho z t : ℝ) : Prop :=
  0 ≤ t ∧ t ≤ 180 ∧ z = r * Real.cos (t * Real.pi / 180) ∧ rho = r * Real.sin (t * Real.pi / 180)

/-- C30 (violation): for every measured vector the attribute `colatitude` is the latitude and the attribute
`latitude` is the colatitude. -/
theorem C30_exchanged (x y z : ℝ) :
    ∃ c l : ℝ, (ofReal x y z).colatitude = .fin c ∧ (ofReal x y z).latitude = .fin l ∧
      IsLatitude (Real.sqrt (x ^ 2 + y ^ 2 + z ^ 2)) (Real.sqrt (x ^ 2 + y ^ 2)) z c ∧
      IsColatitude (Real.sqrt (x ^ 2 + y ^ 2 + z ^ 2)) (Real.sqrt (x ^ 2 + y ^ 2)) z l := by
  set ρ := Real.sqrt (x ^ 2 + y ^ 2) with hρ
  have hρ0 : 0 ≤ ρ := Real.sqrt_nonneg _
  have hρ2 : ρ ^ 2 = x ^ 2 + y ^ 2 := Real.sq_sqrt (by positivity)
  have n1 : ‖(⟨ρ, z⟩ : ℂ)‖ = Real.sqrt (x ^ 2 + y ^ 2 + z ^ 2) := by
    rw [Complex.norm_def, Complex.normSq_mk]; congr 1; nlinarith
  have n2 : ‖(⟨z, ρ⟩ : ℂ)‖ = Real.sqrt (x ^ 2 + y ^ 2 + z ^ 2) := by
    rw [Complex.norm_def, Complex.normSq_mk]; congr 1; nlinarith
  have back : ∀ t : ℝ, t * 180 / Real.pi * Real.pi / 180 = t := by intro t; field_simp
  refine ⟨Complex.arg ⟨ρ, z⟩ * 180 / Real.pi, Complex.arg ⟨z, ρ⟩ * 180 / Real.pi, ?_, ?_, ?_, ?_⟩
  · unfold colatitude; rw [rho_ofReal]; rfl
  · unfold latitude; rw [rho_ofReal]; rfl
  · have h := (Complex.abs_arg_le_pi_div_two_iff (z := ⟨ρ, z⟩)).mpr hρ0
    rw [abs_le] at h
    refine ⟨?_, ?_, ?_, ?_⟩
    · rw [le_div_iff₀ Real.pi_pos]; nlinarith
    · rw [div_le_iff₀ Real.pi_pos]; nlinarith
    · rw [back, ← n1]; exact (Complex.norm_mul_sin_arg ⟨ρ, z⟩).symm
    · rw [back, ← n1]; exact (Complex.norm_mul_cos_arg ⟨ρ, z⟩).symm
  · have h := Complex.arg_nonneg_iff.mpr (show (0:ℝ) ≤ (⟨z, ρ⟩ : ℂ).im from hρ0)
    have h2 := Complex.arg_le_pi ⟨z, ρ⟩
    refine ⟨?_, ?_, ?_, ?_⟩
    · exact div_nonneg (by linarith) Real.pi_pos.le
    · rw [div_le_iff₀ Real.pi_pos]; nlinarith
    · rw [back, ← n2]; exact (Complex.norm_mul_cos_arg ⟨z, ρ⟩).symm
    · rw [back, ← n2]; exact (Complex.norm_mul_sin_arg ⟨z, ρ⟩).symm

/-- C30 (violation, concrete): at the north pole `colatitude` is 90 (should be 0). -/
theorem C30_pole (z : ℝ) (hz : 0 < z) : (ofReal 0 0 z).colatitude = .fin 90 := by
  unfold colatitude; rw [rho_ofReal]
  show Fl.fin _ = _
  have : Real.sqrt ((0:ℝ) ^ 2 + 0 ^ 2) = 0 := by norm_num
  rw [this]
  congr 1
  have h : (⟨0, z⟩ : ℂ) = (z : ℂ) * Complex.I := by
    apply Complex.ext <;> simp
  rw [h, Complex.arg_real_mul _ hz, Complex.arg_I]
  field_simp; norm_num

/-! ## C31 -/

/-- C31: a unit vector has length one. -/
theorem C31_unit_vector (x y z : ℝ) (h : (x, y, z) ≠ (0, 0, 0)) :
    (ofReal x y z).uv.mag = .fin 1 := by
  have hp := nsq_pos h
  rw [uv_ofReal x y z h, mag_ofReal]
  congr 1
  rw [div_pow, div_pow, div_pow, Real.sq_sqrt hp.le, ← add_div, ← add_div]
  change Real.sqrt (nsq x y z / nsq x y z) = 1
  rw [div_self hp.ne', Real.sqrt_one]

/-- C31: the unit vector of the zero vector is NaN in every component. -/
theorem C31_unit_vector_zero : (ofReal 0 0 0).uv = ⟨.nan, .nan, .nan⟩ := by
  have : (ofReal 0 0 0).mag = .fin 0 := by rw [mag_ofReal]; norm_num
  unfold uv; rw [this]
  have hz : Fl.fin 0 / Fl.fin 0 = .nan := by
    show (if (0:ℝ) = 0 then (if (0:ℝ) < 0 then _ else if (0:ℝ) < 0 then _ else _) else _) = _
    simp
  simp [ofReal, hz]

/-- C31: projection of a measured vector on a measured non-zero field: `par |b| = v·b`, `per ≥ 0`, and the two
parts are the legs of a right triangle with hypotenuse `|v|`. -/
theorem C31_project (x y z a b c : ℝ) (h : (a, b, c) ≠ (0, 0, 0)) :
    ∃ par per : ℝ, projPar (ofReal x y z) (ofReal a b c) = .fin par ∧
      projPer (ofReal x y z) (ofReal a b c) = .fin per ∧ 0 ≤ per ∧
      par * Real.sqrt (a ^ 2 + b ^ 2 + c ^ 2) = x * a + y * b + z * c ∧
      par ^ 2 + per ^ 2 = x ^ 2 + y ^ 2 + z ^ 2 := by
  have hp := nsq_pos h
  have hs0 : Real.sqrt (nsq a b c) ≠ 0 := (Real.sqrt_pos.mpr hp).ne'
  refine ⟨_, _, projPar_ofReal x y z a b c h, projPer_ofReal x y z a b c h, Real.sqrt_nonneg _, ?_, ?_⟩
  · change _ / Real.sqrt (nsq a b c) * Real.sqrt (nsq a b c) = _
    field_simp
  · have cs : (x * a + y * b + z * c) ^ 2 ≤ nsq x y z * nsq a b c := by
      unfold nsq
      nlinarith [sq_nonneg (x * b - y * a), sq_nonneg (x * c - z * a), sq_nonneg (y * c - z * b)]
    have : 0 ≤ nsq x y z - (x * a + y * b + z * c) ^ 2 / nsq a b c := by
      rw [sub_nonneg, div_le_iff₀ hp]; exact cs
    rw [Real.sq_sqrt this, div_pow, Real.sq_sqrt hp.le]
    unfold nsq; ring

/-- C31: the projection does not depend on the length of the field vector. -/
theorem C31_scale_invariant (x y z a b c k : ℝ) (h : (a, b, c) ≠ (0, 0, 0)) (hk : 0 < k) :
    projPar (ofReal x y z) (ofReal (k * a) (k * b) (k * c)) = projPar (ofReal x y z) (ofReal a b c) ∧
    projPer (ofReal x y z) (ofReal (k * a) (k * b) (k * c)) = projPer (ofReal x y z) (ofReal a b c) := by
  have h' : (k * a, k * b, k * c) ≠ (0, 0, 0) := by
    intro e
    simp only [Prod.mk.injEq, mul_eq_zero, hk.ne', false_or] at e
    exact h (by rw [e.1, e.2.1, e.2.2])
  have hp := nsq_pos h
  have hn : nsq (k * a) (k * b) (k * c) = k ^ 2 * nsq a b c := by unfold nsq; ring
  have hsq : Real.sqrt (k ^ 2 * nsq a b c) = k * Real.sqrt (nsq a b c) := by
    rw [Real.sqrt_mul (sq_nonneg k), Real.sqrt_sq hk.le]
  have hs0 : Real.sqrt (nsq a b c) ≠ 0 := (Real.sqrt_pos.mpr hp).ne'
  rw [projPar_ofReal _ _ _ _ _ _ h', projPar_ofReal _ _ _ _ _ _ h, projPer_ofReal _ _ _ _ _ _ h',
    projPer_ofReal _ _ _ _ _ _ h, hn, hsq]
  have hk0 := hk.ne'
  constructor
  · congr 1; field_simp
  · congr 3; have := hp.ne'; field_simp

example : ((1 : ℝ), (2 : ℝ), (2 : ℝ)) ≠ (0, 0, 0) := by norm_num

/-! ## C32 -/

theorem cosTheta_ofReal (x y z a b c : ℝ) (hv : (x, y, z) ≠ (0, 0, 0)) (h : (a, b, c) ≠ (0, 0, 0)) :
    cosTheta (ofReal x y z) (ofReal a b c) =
      .fin ((x * a + y * b + z * c) / (Real.sqrt (nsq x y z) * Real.sqrt (nsq a b c))) := by
  have h1 : Real.sqrt (nsq x y z) ≠ 0 := (Real.sqrt_pos.mpr (nsq_pos hv)).ne'
  have h2 : Real.sqrt (nsq a b c) ≠ 0 := (Real.sqrt_pos.mpr (nsq_pos h)).ne'
  unfold cosTheta
  rw [uv_ofReal a b c h, uv_ofReal x y z hv]
  simp only [ofReal, Fl.fin_mul, Fl.sumSkip_cons_fin, Fl.sumSkip_nil, Fl.zero_def, Fl.fin_add]
  congr 1; field_simp; ring

/-- C32: `cos_theta` of measured non-zero vectors is `v·b / (|v||b|)`, lies in [-1, 1] and is symmetric. -/
theorem C32_cos_theta (x y z a b c : ℝ) (hv : (x, y, z) ≠ (0, 0, 0)) (hb : (a, b, c) ≠ (0, 0, 0)) :
    ∃ t : ℝ, cosTheta (ofReal x y z) (ofReal a b c) = .fin t ∧ -1 ≤ t ∧ t ≤ 1 ∧
      t * (Real.sqrt (x ^ 2 + y ^ 2 + z ^ 2) * Real.sqrt (a ^ 2 + b ^ 2 + c ^ 2)) = x * a + y * b + z * c ∧
      cosTheta (ofReal a b c) (ofReal x y z) = .fin t := by
  have h1 : 0 < Real.sqrt (nsq x y z) := Real.sqrt_pos.mpr (nsq_pos hv)
  have h2 : 0 < Real.sqrt (nsq a b c) := Real.sqrt_pos.mpr (nsq_pos hb)
  have s1 := Real.sq_sqrt (nsq_pos hv).le
  have s2 := Real.sq_sqrt (nsq_pos hb).le
  have cs : |x * a + y * b + z * c| ≤ Real.sqrt (nsq x y z) * Real.sqrt (nsq a b c) := by
    apply abs_le_of_sq_le_sq _ (by positivity)
    rw [mul_pow, s1, s2]; unfold nsq
    nlinarith [sq_nonneg (x * b - y * a), sq_nonneg (x * c - z * a), sq_nonneg (y * c - z * b)]
  rw [abs_le] at cs
  refine ⟨_, cosTheta_ofReal x y z a b c hv hb, ?_, ?_, ?_, ?_⟩
  · rw [le_div_iff₀ (by positivity)]; linarith [cs.1]
  · rw [div_le_iff₀ (by positivity)]; linarith [cs.2]
  · change _ / (Real.sqrt (nsq x y z) * Real.sqrt (nsq a b c)) *
      (Real.sqrt (nsq x y z) * Real.sqrt (nsq a b c)) = _
    field_simp
  · rw [cosTheta_ofReal a b c x y z hb hv]; congr 1
    rw [mul_comm (Real.sqrt (nsq a b c))]; congr 1; ring

/-- C32: the value is 1 (resp. -1) exactly for positive (resp. negative) multiples. -/
theorem C32_extreme (x y z a b c : ℝ) (hv : (x, y, z) ≠ (0, 0, 0)) (hb : (a, b, c) ≠ (0, 0, 0)) :
    (cosTheta (ofReal x y z) (ofReal a b c) = .fin 1 ↔
      ∃ k : ℝ, 0 < k ∧ x = k * a ∧ y = k * b ∧ z = k * c) ∧
    (cosTheta (ofReal x y z) (ofReal a b c) = .fin (-1) ↔
      ∃ k : ℝ, k < 0 ∧ x = k * a ∧ y = k * b ∧ z = k * c) := by
  have hp1 := nsq_pos hv
  have hp2 := nsq_pos hb
  have h1 : 0 < Real.sqrt (nsq x y z) := Real.sqrt_pos.mpr hp1
  have h2 : 0 < Real.sqrt (nsq a b c) := Real.sqrt_pos.mpr hp2
  have s1 := Real.sq_sqrt hp1.le
  have s2 := Real.sq_sqrt hp2.le
  set r := Real.sqrt (nsq x y z)
  set q := Real.sqrt (nsq a b c)
  have hne : r * q ≠ 0 := by positivity
  rw [cosTheta_ofReal x y z a b c hv hb]
  simp only [Fl.fin_inj]
  have lag : (x * b - y * a) ^ 2 + (x * c - z * a) ^ 2 + (y * c - z * b) ^ 2 =
      nsq x y z * nsq a b c - (x * a + y * b + z * c) ^ 2 := by unfold nsq; ring
  have hsq : (x * a + y * b + z * c) ^ 2 = nsq x y z * nsq a b c →
      x * b = y * a ∧ x * c = z * a ∧ y * c = z * b := by
    intro e
    rw [e, sub_self] at lag
    have e1 : (x * b - y * a) ^ 2 = 0 := by nlinarith [sq_nonneg (x * b - y * a), sq_nonneg (x * c - z * a), sq_nonneg (y * c - z * b)]
    have e2 : (x * c - z * a) ^ 2 = 0 := by nlinarith [sq_nonneg (x * b - y * a), sq_nonneg (x * c - z * a), sq_nonneg (y * c - z * b)]
    have e3 : (y * c - z * b) ^ 2 = 0 := by nlinarith [sq_nonneg (x * b - y * a), sq_nonneg (x * c - z * a), sq_nonneg (y * c - z * b)]
    refine ⟨?_, ?_, ?_⟩
    · exact sub_eq_zero.mp (pow_eq_zero_iff (two_ne_zero) |>.mp e1)
    · exact sub_eq_zero.mp (pow_eq_zero_iff (two_ne_zero) |>.mp e2)
    · exact sub_eq_zero.mp (pow_eq_zero_iff (two_ne_zero) |>.mp e3)
  -- multiples
  have mult : x * b = y * a ∧ x * c = z * a ∧ y * c = z * b →
      x = (x * a + y * b + z * c) / nsq a b c * a ∧ y = (x * a + y * b + z * c) / nsq a b c * b ∧
      z = (x * a + y * b + z * c) / nsq a b c * c := by
    rintro ⟨e1, e2, e3⟩
    have := hp2.ne'
    refine ⟨?_, ?_, ?_⟩
    · field_simp; unfold nsq; linear_combination b * e1 + c * e2
    · field_simp; unfold nsq; linear_combination (-a) * e1 + c * e3
    · field_simp; unfold nsq; linear_combination (-a) * e2 - b * e3
  constructor
  · rw [div_eq_one_iff_eq hne]
    constructor
    · intro e
      have hd := hsq (by rw [e, mul_pow, s1, s2])
      refine ⟨_, ?_, (mult hd).1, (mult hd).2.1, (mult hd).2.2⟩
      rw [e]; positivity
    · rintro ⟨k, hk, rfl, rfl, rfl⟩
      have hr : r = k * q := by
        have : nsq (k * a) (k * b) (k * c) = k ^ 2 * nsq a b c := by unfold nsq; ring
        show Real.sqrt _ = _
        rw [this, Real.sqrt_mul (sq_nonneg k), Real.sqrt_sq hk.le]
      rw [hr]
      have : k * q * q = k * q ^ 2 := by ring
      rw [this, s2]; unfold nsq; ring
  · rw [div_eq_iff hne]
    constructor
    · intro e
      have hd := hsq (by rw [e]; nlinarith)
      refine ⟨_, ?_, (mult hd).1, (mult hd).2.1, (mult hd).2.2⟩
      rw [e]; apply div_neg_of_neg_of_pos _ hp2
      nlinarith [mul_pos h1 h2]
    · rintro ⟨k, hk, rfl, rfl, rfl⟩
      have hr : r = -k * q := by
        have : nsq (k * a) (k * b) (k * c) = (-k) ^ 2 * nsq a b c := by unfold nsq; ring
        show Real.sqrt _ = _
        rw [this, Real.sqrt_mul (sq_nonneg _), Real.sqrt_sq (by linarith)]
      rw [hr]
      have : -1 * (-k * q * q) = k * q ^ 2 := by ring
      rw [this, s2]; unfold nsq; ring

/-! ## C33, C93 -/

/-- C33 (violation): calling a vector or a tensor with any component name raises AttributeError. -/
theorem C33_call_fails (component : String) :
    vectorCall component = .error .attributeError ∧ tensorCall component = .error .attributeError := by
  have h1 : vectorAttrs.contains "__getattr__" = false := by decide +kernel
  have h2 : tensorAttrs.contains "__getattr__" = false := by decide +kernel
  unfold vectorCall tensorCall getAttribute
  rw [h1, h2]; exact ⟨rfl, rfl⟩

/-- C93 (violation): `Tensor.set_data` never changes the stored data, even when it accepts the new ones;
`Vector.set_data` does. -/
theorem C93_tensor_set_data_ignored {F : Type} (ok : F → Bool) (stored new : F) (h : ok new = true) :
    tensorSetData ok stored new = (.ok (), stored) ∧ vectorSetData ok stored new = (.ok (), new) := by
  simp [tensorSetData, vectorSetData, h]

/-- C93: data that fail validation are a ValueError and leave either object unchanged. -/
theorem C93_invalid_rejected {F : Type} (ok : F → Bool) (stored new : F) (h : ok new = false) :
    tensorSetData ok stored new = (.error .valueError, stored) ∧
    vectorSetData ok stored new = (.error .valueError, stored) ∧
    tensorInit ok new = .error .valueError := by
  simp [tensorSetData, vectorSetData, tensorInit, h]

example : tensorSetData (fun _ : ℕ => true) 1 2 = (.ok (), 1) := by decide

end SW
