import Verif.Props.Turbulence
import Verif.Props.Scaling

/-!
# Property C221: turbulence under a change of axes, field sign, units, density scale and clock

The specification is the changed input: turned axes (`TurbIn.turn`), reversed field (`TurbIn.reverse`), other speed unit
(`TurbIn.speeds`), rescaled density (`TurbIn.heavier`), shifted clock (`TurbIn.later`).  The theorems say how every reported quantity
responds.
-/

namespace SW
noncomputable section
open Classical

/-! ### Specification -/

/-- every row is measured as a whole or missing as a whole -/
def V3s.Whole (s : V3s) : Prop := ∀ j, (∃ x y z : ℝ, s.x j = .fin x ∧ s.y j = .fin y ∧ s.z j = .fin z) ∨
  (s.x j = .nan ∧ s.y j = .nan ∧ s.z j = .nan)

/-- the series along other axes -/
def V3s.turn (R : Rot) (s : V3s) : V3s :=
  ⟨fun j => (V3.turn R ⟨s.x j, s.y j, s.z j⟩).x, fun j => (V3.turn R ⟨s.x j, s.y j, s.z j⟩).y, fun j => (V3.turn R ⟨s.x j, s.y j, s.z j⟩).z⟩

/-- velocity and field along other axes -/
def TurbIn.turn (R : Rot) (I : TurbIn) : TurbIn := { I with v := I.v.turn R, b := I.b.turn R }
/-- the field with the opposite sign -/
def TurbIn.reverse (I : TurbIn) : TurbIn := { I with b := ⟨fun j => -I.b.x j, fun j => -I.b.y j, fun j => -I.b.z j⟩ }
/-- all speeds in another unit: velocities times `k`, and the field comes out in that unit too -/
def TurbIn.speeds (k : ℝ) (I : TurbIn) : TurbIn :=
  { I with v := ⟨fun j => I.v.x j * .fin k, fun j => I.v.y j * .fin k, fun j => I.v.z j * .fin k⟩, coef := I.coef * k }
/-- a density that is everywhere `k²` times higher -/
def TurbIn.heavier (k : ℝ) (I : TurbIn) : TurbIn := { I with rho := fun j => I.rho j * .fin (k ^ 2) }
/-- all time stamps moved by `c` -/
def TurbIn.later (c : ℤ) (I : TurbIn) : TurbIn := { I with t := fun j => I.t j + c }

/-- the rows of a vector all measured or all missing -/
def V3.Whole (u : V3) : Prop := (∃ x y z : ℝ, u = .ofReal x y z) ∨ u = ⟨.nan, .nan, .nan⟩

def V3.neg (u : V3) : V3 := ⟨-u.x, -u.y, -u.z⟩
def V3.rescale (k : ℝ) (u : V3) : V3 := ⟨u.x * .fin k, u.y * .fin k, u.z * .fin k⟩

/-! ### the stored fluctuations -/

theorem turbSet_inv {I : TurbIn} {s : Option String} {W : Window} {mp : ℕ} {T : Turb} (h : turbSet I s W mp = .ok T) :
    (∀ i, T.v i = I.v.delta W mp I.t i) ∧ (∀ i, T.b i = I.bca.delta W mp I.t i) ∧
    ∀ I' : TurbIn, ∃ T', turbSet I' s W mp = .ok T' ∧ (∀ i, T'.v i = I'.v.delta W mp I'.t i) ∧
      (∀ i, T'.b i = I'.bca.delta W mp I'.t i) ∧ T'.species = T.species := by
  unfold turbSet at h
  cases hs : turbSpecies s with
  | error e => rw [hs] at h; cases h
  | ok sp =>
    rw [hs] at h
    cases hw : windowCheck W mp with
    | error e => rw [hw] at h; cases h
    | ok u =>
      rw [hw] at h
      have h' := Except.ok.inj h
      subst h'
      refine ⟨fun _ => rfl, fun _ => rfl, fun I' => ⟨{ dv := fun i => I'.v.delta W mp I'.t i, db := fun i => I'.bca.delta W mp I'.t i, polarity := none, species := sp },
        by unfold turbSet; rw [hs, hw]; rfl, fun _ => rfl, fun _ => rfl, rfl⟩⟩

theorem fl_neg_fin (a : ℝ) : -(Fl.fin a) = .fin (-a) := rfl

theorem delta_eq (W : Window) (mp : ℕ) (t : ℕ → ℤ) (x : ℕ → Fl) (i : ℕ) :
    delta W mp t x i = if (winSet W t x i).card < mp ∨ (winSet W t x i).card = 0 then .nan
      else x i - .fin ((∑ j ∈ winSet W t x i, valR (x j)) / (winSet W t x i).card) := by
  unfold delta
  rw [rollMean_eq]
  by_cases h1 : (winSet W t x i).card < mp
  · rw [if_pos h1, if_pos (Or.inl h1)]; cases x i <;> rfl
  · rw [if_neg h1]
    by_cases h2 : (winSet W t x i).card = 0
    · rw [if_pos (Or.inr h2)]
      have he : winSet W t x i = ∅ := Finset.card_eq_zero.mp h2
      have z : (Fl.fin 0) / (Fl.fin 0) = .nan := by
        show (if (0 : ℝ) = 0 then _ else _) = _; simp
      rw [he]; simp [z]
    · rw [if_neg (by rintro (h | h) <;> contradiction)]
      rw [Fl.fin_div _ _ (by exact_mod_cast h2)]

theorem delta_neg (W : Window) (mp : ℕ) (t : ℕ → ℤ) (x : ℕ → Fl) (i : ℕ) :
    delta W mp t (fun j => -x j) i = -delta W mp t x i := by
  have hS : winSet W t (fun j => -x j) i = winSet W t x i := by
    unfold winSet; congr 1; funext j
    have : (-x j).isFinite ↔ (x j).isFinite := by cases x j <;> rfl
    rw [this]
  rw [delta_eq, delta_eq, hS]
  split
  · rfl
  · have hsum : ∑ j ∈ winSet W t x i, valR (-x j) = -∑ j ∈ winSet W t x i, valR (x j) := by
      rw [← Finset.sum_neg_distrib]
      apply Finset.sum_congr rfl
      intro j _
      cases x j <;> first | rfl | (show (0 : ℝ) = -0; ring)
    rw [hsum]
    generalize (∑ j ∈ winSet W t x i, valR (x j)) = S
    generalize ((winSet W t x i).card : ℝ) = n
    cases x i with
    | fin a =>
      show Fl.fin (-a) - _ = -(Fl.fin a - _)
      rw [Fl.fin_sub, Fl.fin_sub, fl_neg_fin]; congr 1; ring
    | _ => rfl

theorem delta_times {k : ℝ} (hk : 0 < k) (W : Window) (mp : ℕ) (t : ℕ → ℤ) (x : ℕ → Fl) (i : ℕ) :
    delta W mp t (fun j => x j * .fin k) i = times k (delta W mp t x i) := by
  have hS : winSet W t (fun j => x j * .fin k) i = winSet W t x i := by
    unfold winSet; congr 1; funext j
    have : (x j * .fin k).isFinite ↔ (x j).isFinite := by
      change (times k (x j)).isFinite ↔ _
      cases x j <;> simp [times_pinf hk, times_ninf hk, times_fin, times_nan]
    rw [this]
  rw [delta_eq, delta_eq, hS]
  split
  · rfl
  · have hsum : ∑ j ∈ winSet W t x i, valR (x j * .fin k) = (∑ j ∈ winSet W t x i, valR (x j)) * k := by
      rw [Finset.sum_mul]
      apply Finset.sum_congr rfl
      intro j _
      change valR (times k (x j)) = _
      cases x j <;> simp [times_pinf hk, times_ninf hk, times_fin, times_nan, valR]
    rw [hsum]
    generalize (∑ j ∈ winSet W t x i, valR (x j)) = S
    generalize ((winSet W t x i).card : ℝ) = n
    change times k (x i) - _ = _
    cases x i with
    | fin a => rw [times_fin, Fl.fin_sub, Fl.fin_sub, times_fin]; congr 1; ring
    | nan => rfl
    | pinf => rw [times_pinf hk]; exact (times_pinf hk).symm
    | ninf => rw [times_ninf hk]; exact (times_ninf hk).symm

/-- a whole series: the three components miss the same rows -/
theorem whole_delta (s : V3s) (hs : s.Whole) (W : Window) (mp : ℕ) (t : ℕ → ℤ) (i : ℕ) :
    (s.delta W mp t i).Whole ∧
    ∀ a b c : ℝ, delta W mp t (fun j => s.x j * .fin a + s.y j * .fin b + s.z j * .fin c) i =
      (s.delta W mp t i).x * .fin a + (s.delta W mp t i).y * .fin b + (s.delta W mp t i).z * .fin c := by
  have hy : winSet W t s.y i = winSet W t s.x i := by
    unfold winSet; congr 1; funext j
    rcases hs j with ⟨x, y, z, h1, h2, h3⟩ | ⟨h1, h2, h3⟩ <;> rw [h1, h2] <;> simp
  have hz : winSet W t s.z i = winSet W t s.x i := by
    unfold winSet; congr 1; funext j
    rcases hs j with ⟨x, y, z, h1, h2, h3⟩ | ⟨h1, h2, h3⟩ <;> rw [h1, h3] <;> simp
  have hall : ∀ j ∈ winSet W t s.x i, ∃ x y z : ℝ, s.x j = .fin x ∧ s.y j = .fin y ∧ s.z j = .fin z := by
    intro j hj
    rcases hs j with h | ⟨h1, -, -⟩
    · exact h
    · have := (Finset.mem_filter.mp hj).2.2
      rw [h1] at this; cases this
  have hc : ∀ a b c : ℝ, winSet W t (fun j => s.x j * .fin a + s.y j * .fin b + s.z j * .fin c) i = winSet W t s.x i := by
    intro a b c
    unfold winSet; congr 1; funext j
    rcases hs j with ⟨x, y, z, h1, h2, h3⟩ | ⟨h1, h2, h3⟩ <;> simp only [h1, h2, h3]
    · simp [Fl.fin_mul, Fl.fin_add]
    · rfl
  by_cases hm : (winSet W t s.x i).card < mp ∨ (winSet W t s.x i).card = 0
  · have e : s.delta W mp t i = ⟨.nan, .nan, .nan⟩ := by
      unfold V3s.delta
      rw [delta_eq, delta_eq, delta_eq, hy, hz, if_pos hm, if_pos hm, if_pos hm]
    refine ⟨.inr e, fun a b c => ?_⟩
    rw [e, delta_eq, hc, if_pos hm]; rfl
  · rcases hs i with ⟨x, y, z, h1, h2, h3⟩ | ⟨h1, h2, h3⟩
    · have e : s.delta W mp t i = .ofReal (x - (∑ j ∈ winSet W t s.x i, valR (s.x j)) / (winSet W t s.x i).card)
          (y - (∑ j ∈ winSet W t s.x i, valR (s.y j)) / (winSet W t s.x i).card)
          (z - (∑ j ∈ winSet W t s.x i, valR (s.z j)) / (winSet W t s.x i).card) := by
        unfold V3s.delta
        rw [delta_eq, delta_eq, delta_eq, hy, hz, if_neg hm, if_neg hm, if_neg hm, h1, h2, h3]
        simp only [Fl.fin_sub]
        rfl
      refine ⟨.inl ⟨_, _, _, e⟩, fun a b c => ?_⟩
      rw [e, delta_eq, hc, if_neg hm, h1, h2, h3]
      have hsum : ∑ j ∈ winSet W t s.x i, valR (s.x j * .fin a + s.y j * .fin b + s.z j * .fin c) =
          (∑ j ∈ winSet W t s.x i, valR (s.x j)) * a + (∑ j ∈ winSet W t s.x i, valR (s.y j)) * b +
            (∑ j ∈ winSet W t s.x i, valR (s.z j)) * c := by
        rw [Finset.sum_mul, Finset.sum_mul, Finset.sum_mul, ← Finset.sum_add_distrib, ← Finset.sum_add_distrib]
        apply Finset.sum_congr rfl
        intro j hj
        obtain ⟨p, q, r, e1, e2, e3⟩ := hall j hj
        rw [e1, e2, e3]
        simp [Fl.fin_mul, Fl.fin_add, valR]
      rw [hsum]
      simp only [V3.ofReal, Fl.fin_mul, Fl.fin_add, Fl.fin_sub]
      congr 1; ring
    · have e : s.delta W mp t i = ⟨.nan, .nan, .nan⟩ := by
        unfold V3s.delta
        rw [delta_eq, delta_eq, delta_eq, hy, hz, if_neg hm, if_neg hm, if_neg hm, h1, h2, h3]; rfl
      refine ⟨.inr e, fun a b c => ?_⟩
      rw [e, delta_eq, hc, if_neg hm, h1, h2, h3]; rfl

theorem delta_turn (R : Rot) (s : V3s) (hs : s.Whole) (W : Window) (mp : ℕ) (t : ℕ → ℤ) (i : ℕ) :
    (s.turn R).delta W mp t i = V3.turn R (s.delta W mp t i) := by
  have := (whole_delta s hs W mp t i).2
  unfold V3.turn
  rw [← this, ← this, ← this]
  rfl

/-! ### whole rows -/

theorem turn_ofReal (R : Rot) (x y z : ℝ) : V3.turn R (.ofReal x y z) =
    .ofReal (x * R.a + y * R.b + z * R.c) (x * R.d + y * R.e + z * R.f) (x * R.g + y * R.h + z * R.i) := by
  simp [V3.turn, V3.ofReal, Fl.fin_mul, Fl.fin_add]

theorem turn_dot (R : Rot) (x y z p q r : ℝ) :
    (x * R.a + y * R.b + z * R.c) * (p * R.a + q * R.b + r * R.c) + (x * R.d + y * R.e + z * R.f) * (p * R.d + q * R.e + r * R.f) +
      (x * R.g + y * R.h + z * R.i) * (p * R.g + q * R.h + r * R.i) = x * p + y * q + z * r := by
  linear_combination (x * p) * R.xx + (y * q) * R.yy + (z * r) * R.zz + (x * q + y * p) * R.xy + (x * r + z * p) * R.xz +
    (y * r + z * q) * R.yz

theorem energy_turn (R : Rot) (u : V3) (h : u.Whole) : Turb.energy (V3.turn R u) = Turb.energy u := by
  rcases h with ⟨x, y, z, rfl⟩ | rfl
  · rw [turn_ofReal, Turb.energy_fin, Turb.energy_fin]
    have := turn_dot R x y z x y z
    congr 2; linarith [this]
  · rfl

theorem whole_add (u w : V3) (hu : u.Whole) (hw : w.Whole) (R : Rot) :
    V3.Whole ⟨u.x + w.x, u.y + w.y, u.z + w.z⟩ ∧ V3.Whole ⟨u.x - w.x, u.y - w.y, u.z - w.z⟩ ∧
    (⟨(V3.turn R u).x + (V3.turn R w).x, (V3.turn R u).y + (V3.turn R w).y, (V3.turn R u).z + (V3.turn R w).z⟩ : V3) =
      V3.turn R ⟨u.x + w.x, u.y + w.y, u.z + w.z⟩ ∧
    (⟨(V3.turn R u).x - (V3.turn R w).x, (V3.turn R u).y - (V3.turn R w).y, (V3.turn R u).z - (V3.turn R w).z⟩ : V3) =
      V3.turn R ⟨u.x - w.x, u.y - w.y, u.z - w.z⟩ := by
  rcases hu with ⟨x, y, z, rfl⟩ | rfl
  · rcases hw with ⟨p, q, r, rfl⟩ | rfl
    · refine ⟨.inl ⟨x + p, y + q, z + r, by simp [V3.ofReal]⟩, .inl ⟨x - p, y - q, z - r, by simp [V3.ofReal]⟩, ?_, ?_⟩
      · have e : (⟨(V3.ofReal x y z).x + (V3.ofReal p q r).x, (V3.ofReal x y z).y + (V3.ofReal p q r).y,
            (V3.ofReal x y z).z + (V3.ofReal p q r).z⟩ : V3) = .ofReal (x + p) (y + q) (z + r) := by simp [V3.ofReal]
        rw [e, turn_ofReal, turn_ofReal, turn_ofReal]
        simp only [V3.ofReal, Fl.fin_add]
        congr 2 <;> ring
      · have e : (⟨(V3.ofReal x y z).x - (V3.ofReal p q r).x, (V3.ofReal x y z).y - (V3.ofReal p q r).y,
            (V3.ofReal x y z).z - (V3.ofReal p q r).z⟩ : V3) = .ofReal (x - p) (y - q) (z - r) := by simp [V3.ofReal]
        rw [e, turn_ofReal, turn_ofReal, turn_ofReal]
        simp only [V3.ofReal, Fl.fin_sub]
        congr 2 <;> ring
    · exact ⟨.inr rfl, .inr rfl, rfl, rfl⟩
  · rcases hw with ⟨p, q, r, rfl⟩ | rfl
    · exact ⟨.inr rfl, .inr rfl, rfl, rfl⟩
    · exact ⟨.inr rfl, .inr rfl, rfl, rfl⟩

/-- a missing or positive density leaves a whole field whole -/
theorem whole_bca (I : TurbIn) (hb : I.b.Whole) (hr : ∀ j, I.rho j = .nan ∨ ∃ r : ℝ, 0 < r ∧ I.rho j = .fin r) : I.bca.Whole := by
  intro j
  rcases hr j with h | ⟨r, hr0, h⟩
  · right
    refine ⟨?_, ?_, ?_⟩ <;>
      (show alfvenUnits _ _ _ = _; unfold alfvenUnits; rw [h]; exact (by
        have e : ∀ y : Fl, y / Fl.sqrt .nan = .nan := by intro y; cases y <;> rfl
        rw [e]; rfl))
  · have hs : Real.sqrt r ≠ 0 := (Real.sqrt_pos.mpr hr0).ne'
    rcases hb j with ⟨x, y, z, h1, h2, h3⟩ | ⟨h1, h2, h3⟩
    · left
      refine ⟨x / Real.sqrt r * I.coef, y / Real.sqrt r * I.coef, z / Real.sqrt r * I.coef, ?_, ?_, ?_⟩ <;>
        (show alfvenUnits _ _ _ = _; unfold alfvenUnits
         rw [h, Fl.sqrt_fin _ hr0.le]
         first
           | rw [h1, Fl.fin_div _ _ hs, Fl.fin_mul]
           | rw [h2, Fl.fin_div _ _ hs, Fl.fin_mul]
           | rw [h3, Fl.fin_div _ _ hs, Fl.fin_mul])
    · right
      refine ⟨?_, ?_, ?_⟩ <;>
        (show alfvenUnits _ _ _ = _; unfold alfvenUnits
         rw [h, Fl.sqrt_fin _ hr0.le]
         first
           | (rw [h1]; rfl)
           | (rw [h2]; rfl)
           | (rw [h3]; rfl))

theorem bca_turn (R : Rot) (I : TurbIn) (hb : I.b.Whole) (hr : ∀ j, I.rho j = .nan ∨ ∃ r : ℝ, 0 < r ∧ I.rho j = .fin r) :
    (I.turn R).bca = I.bca.turn R := by
  have key : ∀ j (a b c : ℝ), alfvenUnits I.coef (I.rho j) (I.b.x j * .fin a + I.b.y j * .fin b + I.b.z j * .fin c) =
      I.bca.x j * .fin a + I.bca.y j * .fin b + I.bca.z j * .fin c := by
    intro j a b c
    show _ = alfvenUnits _ _ _ * _ + alfvenUnits _ _ _ * _ + alfvenUnits _ _ _ * _
    unfold alfvenUnits
    rcases hr j with h | ⟨r, hr0, h⟩
    · rw [h]
      have e : ∀ y : Fl, y / Fl.sqrt .nan = .nan := by intro y; cases y <;> rfl
      rw [e, e, e, e]; rfl
    · have hs : Real.sqrt r ≠ 0 := (Real.sqrt_pos.mpr hr0).ne'
      rw [h, Fl.sqrt_fin _ hr0.le]
      rcases hb j with ⟨x, y, z, h1, h2, h3⟩ | ⟨h1, h2, h3⟩
      · rw [h1, h2, h3]
        simp only [Fl.fin_mul, Fl.fin_add, Fl.fin_div _ _ hs]
        congr 1; field_simp
      · rw [h1, h2, h3]; rfl
  have e : ∀ s s' : V3s, (∀ j, s.x j = s'.x j) → (∀ j, s.y j = s'.y j) → (∀ j, s.z j = s'.z j) → s = s' := by
    rintro ⟨x, y, z⟩ ⟨x', y', z'⟩ h1 h2 h3
    simp only [V3s.mk.injEq]
    exact ⟨funext h1, funext h2, funext h3⟩
  exact e _ _ (fun j => key j _ _ _) (fun j => key j _ _ _) (fun j => key j _ _ _)

/-! ### C221 -/

/-- **C221** Axes: for rows measured or missing as a whole, turning (or mirroring) the axes turns fluctuations and Elsasser variables, and
every energy, helicity and ratio stays the same. -/
theorem C221_axes (R : Rot) (I : TurbIn) (s : Option String) (W : Window) (mp : ℕ) (T : Turb) (hT : turbSet I s W mp = .ok T)
    (hv : I.v.Whole) (hb : I.b.Whole) (hr : ∀ j, I.rho j = .nan ∨ ∃ r : ℝ, 0 < r ∧ I.rho j = .fin r) :
    ∃ T', turbSet (I.turn R) s W mp = .ok T' ∧ ∀ i,
      T'.v i = V3.turn R (T.v i) ∧ T'.b i = V3.turn R (T.b i) ∧ T'.zp i = V3.turn R (T.zp i) ∧ T'.zm i = V3.turn R (T.zm i) ∧
      T'.ep i = T.ep i ∧ T'.em i = T.em i ∧ T'.ev i = T.ev i ∧ T'.eb i = T.eb i ∧ T'.etot i = T.etot i ∧ T'.eres i = T.eres i ∧
      T'.crossHelicity i = T.crossHelicity i ∧ T'.sigmaC i = T.sigmaC i ∧ T'.sigmaR i = T.sigmaR i ∧ T'.rA i = T.rA i ∧ T'.rE i = T.rE i := by
  obtain ⟨h1, h2, h3⟩ := turbSet_inv hT
  obtain ⟨T', hT', e1, e2, -⟩ := h3 (I.turn R)
  refine ⟨T', hT', fun i => ?_⟩
  have hwv : (T.v i).Whole := by rw [h1]; exact (whole_delta I.v hv W mp I.t i).1
  have hwb : (T.b i).Whole := by rw [h2]; exact (whole_delta I.bca (whole_bca I hb hr) W mp I.t i).1
  have ev : T'.v i = V3.turn R (T.v i) := by rw [e1, h1]; exact delta_turn R I.v hv W mp I.t i
  have eb : T'.b i = V3.turn R (T.b i) := by
    rw [e2, h2, bca_turn R I hb hr]; exact delta_turn R I.bca (whole_bca I hb hr) W mp I.t i
  obtain ⟨w1, w2, t1, t2⟩ := whole_add (T.v i) (T.b i) hwv hwb R
  have ezp : T'.zp i = V3.turn R (T.zp i) := by unfold Turb.zp; rw [ev, eb]; exact t1
  have ezm : T'.zm i = V3.turn R (T.zm i) := by unfold Turb.zm; rw [ev, eb]; exact t2
  have ep : T'.ep i = T.ep i := by unfold Turb.ep; rw [ezp]; exact energy_turn R _ w1
  have em : T'.em i = T.em i := by unfold Turb.em; rw [ezm]; exact energy_turn R _ w2
  have eev : T'.ev i = T.ev i := by unfold Turb.ev; rw [ev]; exact energy_turn R _ hwv
  have eeb : T'.eb i = T.eb i := by unfold Turb.eb; rw [eb]; exact energy_turn R _ hwb
  have et : T'.etot i = T.etot i := by unfold Turb.etot; rw [eev, eeb]
  have er : T'.eres i = T.eres i := by unfold Turb.eres; rw [eev, eeb]
  refine ⟨ev, eb, ezp, ezm, ep, em, eev, eeb, et, er, ?_, ?_, ?_, ?_, ?_⟩
  · unfold Turb.crossHelicity
    rw [ev, eb]
    rcases hwv with ⟨x, y, z, hx⟩ | hx
    · rcases hwb with ⟨p, q, r, hp⟩ | hp
      · rw [hx, hp, turn_ofReal, turn_ofReal]
        have := turn_dot R x y z p q r
        simp only [V3.ofReal, Fl.fin_mul, Fl.sumSkip_cons_fin, Fl.sumSkip_nil, Fl.zero_def, Fl.fin_add]
        congr 2
        linarith [this]
      · rw [hx, hp, turn_ofReal]; rfl
    · rw [hx]
      rcases hwb with ⟨p, q, r, hp⟩ | hp
      · rw [hp, turn_ofReal]; rfl
      · rw [hp]; rfl
  · unfold Turb.sigmaC; rw [ep, em]
  · unfold Turb.sigmaR; rw [er, et]
  · unfold Turb.rA; rw [eev, eeb]
  · unfold Turb.rE; rw [ep, em]

theorem bca_reverse (I : TurbIn) : I.reverse.bca = ⟨fun j => -I.bca.x j, fun j => -I.bca.y j, fun j => -I.bca.z j⟩ := by
  unfold TurbIn.bca TurbIn.reverse alfvenUnits
  simp only [neg_div', neg_mul']

theorem sub_neg' (x y : Fl) : x - -y = x + y := by
  show Fl.add x (Fl.neg (Fl.neg y)) = _
  have : Fl.neg (Fl.neg y) = y := neg_neg' y
  rw [this]; rfl

theorem add_neg' (x y : Fl) : x + -y = x - y := rfl

theorem energy_neg (u : V3) : Turb.energy u.neg = Turb.energy u := by
  unfold Turb.energy V3.neg; simp only [sq_neg']

theorem sum3_neg (a b c : Fl) : Fl.sumSkip [-a, -b, -c] = -Fl.sumSkip [a, b, c] := sumSkip_neg [a, b, c] id

/-- **C221** Field sign: reversing the field exchanges the two Elsasser variables and their energies, changes the sign of both cross
helicities, and leaves kinetic, magnetic, total and residual energy, the Alfven ratio and σ_r alone — for all data, measured or not. -/
theorem C221_reversal (I : TurbIn) (s : Option String) (W : Window) (mp : ℕ) (T : Turb) (hT : turbSet I s W mp = .ok T) :
    ∃ T', turbSet I.reverse s W mp = .ok T' ∧ ∀ i,
      T'.v i = T.v i ∧ T'.b i = (T.b i).neg ∧ T'.zp i = T.zm i ∧ T'.zm i = T.zp i ∧ T'.ep i = T.em i ∧ T'.em i = T.ep i ∧
      T'.ev i = T.ev i ∧ T'.eb i = T.eb i ∧ T'.etot i = T.etot i ∧ T'.eres i = T.eres i ∧ T'.sigmaR i = T.sigmaR i ∧ T'.rA i = T.rA i ∧
      T'.crossHelicity i = -T.crossHelicity i ∧ T'.sigmaC i = -T.sigmaC i ∧ T'.rE i = T.ep i / T.em i := by
  obtain ⟨h1, h2, h3⟩ := turbSet_inv hT
  obtain ⟨T', hT', e1, e2, -⟩ := h3 I.reverse
  refine ⟨T', hT', fun i => ?_⟩
  have ev : T'.v i = T.v i := by rw [e1, h1]; rfl
  have eb : T'.b i = (T.b i).neg := by
    rw [e2, h2, bca_reverse]
    unfold V3s.delta V3.neg
    simp only [delta_neg]; rfl
  have ezp : T'.zp i = T.zm i := by unfold Turb.zp Turb.zm; rw [ev, eb]; rfl
  have ezm : T'.zm i = T.zp i := by
    unfold Turb.zp Turb.zm; rw [ev, eb]; unfold V3.neg; simp only [sub_neg']
  have ep : T'.ep i = T.em i := by unfold Turb.ep Turb.em; rw [ezp]
  have em : T'.em i = T.ep i := by unfold Turb.ep Turb.em; rw [ezm]
  have eev : T'.ev i = T.ev i := by unfold Turb.ev; rw [ev]
  have eeb : T'.eb i = T.eb i := by unfold Turb.eb; rw [eb]; exact energy_neg _
  have et : T'.etot i = T.etot i := by unfold Turb.etot; rw [eev, eeb]
  have er : T'.eres i = T.eres i := by unfold Turb.eres; rw [eev, eeb]
  refine ⟨ev, eb, ezp, ezm, ep, em, eev, eeb, et, er, ?_, ?_, ?_, ?_, ?_⟩
  · unfold Turb.sigmaR; rw [er, et]
  · unfold Turb.rA; rw [eev, eeb]
  · unfold Turb.crossHelicity; rw [ev, eb]; unfold V3.neg; simp only [mul_neg']
    rw [sum3_neg, mul_neg']
  · unfold Turb.sigmaC; rw [ep, em, ← Fl.neg_add_rev, neg_div', Fl.add_comm']
  · unfold Turb.rE; rw [ep, em]

/-- the object the rectified version builds -/
def rectified (I : TurbIn) (sc : ScIn) (omega : ℝ) (W : Window) (mp : ℕ) (sp : String) : Turb where
  dv := fun i => (raffV I sc omega).delta W mp I.t i
  db := fun i => (raffB I).delta W mp I.t i
  polarity := some (raffPolarity I sc omega)
  species := sp

/-- **C221** Rectified: reversing the field also reverses the polarity that rectifies it, so everything the rectified version reports
is the same on both sides of a current sheet. -/
theorem C221_rectified (I : TurbIn) (sc : ScIn) (omega : ℝ) (s : Option String) (W : Window) (mp : ℕ) (T : Turb)
    (hT : turbSetRaff I (some sc) omega s W mp = .ok T) :
    ∃ T', turbSetRaff I.reverse (some sc) omega s W mp = .ok T' ∧
      (∀ i, T'.polarity.map (· i) = T.polarity.map (fun p => -p i)) ∧ ∀ i,
      T'.v i = T.v i ∧ T'.b i = T.b i ∧ T'.zp i = T.zp i ∧ T'.zm i = T.zm i ∧ T'.ep i = T.ep i ∧ T'.em i = T.em i ∧
      T'.ev i = T.ev i ∧ T'.eb i = T.eb i ∧ T'.crossHelicity i = T.crossHelicity i ∧ T'.sigmaC i = T.sigmaC i ∧
      T'.sigmaR i = T.sigmaR i ∧ T'.rA i = T.rA i ∧ T'.rE i = T.rE i := by
  unfold turbSetRaff at hT
  cases hs : turbSpecies s with
  | error e => rw [hs] at hT; cases hT
  | ok sp =>
    rw [hs] at hT
    cases hw : windowCheck W mp with
    | error e => simp only [hw] at hT; cases hT
    | ok u =>
      simp only [hw] at hT
      have hT := Except.ok.inj hT
      have hB : raffB I.reverse = ⟨fun j => -(raffB I).x j, fun j => -(raffB I).y j, fun j => -(raffB I).z j⟩ := by
        unfold raffB
        rw [bca_reverse]
        simp only [neg_mul']
      have hpol : ∀ i, raffPolarity I.reverse sc omega i = -raffPolarity I sc omega i := by
        intro i
        unfold raffPolarity
        rw [hB]
        have hV : raffV I.reverse sc omega = raffV I sc omega := rfl
        rw [hV]
        simp only [mul_neg']
        have : ∀ a b : Fl, Fl.sumSkip [-a, -b] = -Fl.sumSkip [a, b] := fun a b => sumSkip_neg [a, b] id
        rw [this]
        generalize Fl.sumSkip _ = S
        cases S with
        | nan => rfl
        | pinf => rfl
        | ninf => show Fl.fin 1 = -(Fl.fin (-1)); rw [fl_neg_fin]; congr 1; ring
        | fin a =>
          rw [fl_neg_fin]
          simp only [flSign]
          rcases lt_trichotomy a 0 with h | h | h
          · rw [if_pos (by linarith), if_neg (by linarith), if_pos h, fl_neg_fin]; congr 1; ring
          · subst h; simp [fl_neg_fin]
          · rw [if_neg (by linarith), if_pos (by linarith), if_pos h, fl_neg_fin]
      refine ⟨rectified I.reverse sc omega W mp sp, ?_, ?_, ?_⟩
      · unfold turbSetRaff; rw [hs]; simp only [hw]; rfl
      · intro i; rw [← hT]; simp only [rectified, Option.map_some, hpol]
      · intro i
        rw [← hT]
        change _ = (rectified I sc omega W mp sp).v i ∧ _ = (rectified I sc omega W mp sp).b i ∧ _
        have hv : (raffV I.reverse sc omega).delta W mp I.reverse.t i = (raffV I sc omega).delta W mp I.t i := rfl
        have hdb : (raffB I.reverse).delta W mp I.reverse.t i = ((raffB I).delta W mp I.t i).neg := by
          rw [hB]; unfold V3s.delta V3.neg; simp only [delta_neg]; rfl
        have hb : ∀ (X : ℕ → V3) (p : Fl), (⟨((X i).neg).x * -p, ((X i).neg).y * -p, ((X i).neg).z * -p⟩ : V3) =
            ⟨(X i).x * p, (X i).y * p, (X i).z * p⟩ := by
          intro X p; unfold V3.neg; simp only [neg_mul', mul_neg', neg_neg']
        have hbb : (rectified I.reverse sc omega W mp sp).b i = (rectified I sc omega W mp sp).b i := by
          simp only [Turb.b, rectified, hdb, hpol]
          exact hb (fun i => (raffB I).delta W mp I.t i) _
        refine ⟨hv, hbb, ?_, ?_, ?_, ?_, ?_, ?_, ?_, ?_, ?_, ?_, ?_⟩ <;>
          simp only [Turb.rA, Turb.rE, Turb.sigmaC, Turb.sigmaR, Turb.etot, Turb.eres, Turb.crossHelicity, Turb.ep, Turb.em, Turb.ev, Turb.eb,
            Turb.zp, Turb.zm, hbb] <;> rfl

theorem energy_by {k : ℝ} (hk : 0 < k) (u : V3) : Turb.energy (V3.rescale k u) = times (k ^ 2) (Turb.energy u) := by
  have h2 : 0 < k ^ 2 := by positivity
  have e : ∀ x : Fl, Fl.sq (x * .fin k) = times (k ^ 2) (Fl.sq x) := fun x => sq_times hk x
  unfold Turb.energy V3.rescale
  simp only [e]
  have : Fl.sumSkip [times (k ^ 2) (Fl.sq u.x), times (k ^ 2) (Fl.sq u.y), times (k ^ 2) (Fl.sq u.z)] =
      times (k ^ 2) (Fl.sumSkip [Fl.sq u.x, Fl.sq u.y, Fl.sq u.z]) := sumSkip_times h2 [Fl.sq u.x, Fl.sq u.y, Fl.sq u.z] id
  rw [this, times_mul_right h2]

theorem times_sub {k : ℝ} (hk : 0 < k) (x y : Fl) : times k (x - y) = times k x - times k y := by
  show times k (x + -y) = times k x + -(times k y)
  rw [times_add hk]
  congr 1
  exact neg_mul' y (.fin k)

/-- **C221** Units: with all speeds in another unit (`k` of the new to one of the old) fluctuations and Elsasser variables are multiplied
by `k`, energies and cross helicity by `k²`, and σ_c, σ_r, the Alfven and the Elsasser ratio do not change — for all data. -/
theorem C221_units {k : ℝ} (hk : 0 < k) (I : TurbIn) (s : Option String) (W : Window) (mp : ℕ) (T : Turb)
    (hT : turbSet I s W mp = .ok T) :
    ∃ T', turbSet (I.speeds k) s W mp = .ok T' ∧ ∀ i,
      T'.v i = V3.rescale k (T.v i) ∧ T'.b i = V3.rescale k (T.b i) ∧ T'.zp i = V3.rescale k (T.zp i) ∧ T'.zm i = V3.rescale k (T.zm i) ∧
      T'.ep i = times (k ^ 2) (T.ep i) ∧ T'.em i = times (k ^ 2) (T.em i) ∧ T'.ev i = times (k ^ 2) (T.ev i) ∧ T'.eb i = times (k ^ 2) (T.eb i) ∧
      T'.etot i = times (k ^ 2) (T.etot i) ∧ T'.eres i = times (k ^ 2) (T.eres i) ∧ T'.crossHelicity i = times (k ^ 2) (T.crossHelicity i) ∧
      T'.sigmaC i = T.sigmaC i ∧ T'.sigmaR i = T.sigmaR i ∧ T'.rA i = T.rA i ∧ T'.rE i = T.rE i := by
  have h2k : 0 < k ^ 2 := by positivity
  obtain ⟨h1, h2, h3⟩ := turbSet_inv hT
  obtain ⟨T', hT', e1, e2, -⟩ := h3 (I.speeds k)
  refine ⟨T', hT', fun i => ?_⟩
  have ev : T'.v i = V3.rescale k (T.v i) := by
    rw [e1, h1]
    unfold V3s.delta V3.rescale TurbIn.speeds
    simp only [delta_times hk]; rfl
  have hbca : (I.speeds k).bca = ⟨fun j => I.bca.x j * .fin k, fun j => I.bca.y j * .fin k, fun j => I.bca.z j * .fin k⟩ := by
    have : ∀ r b : Fl, alfvenUnits (I.coef * k) r b = alfvenUnits I.coef r b * .fin k := by
      intro r b
      unfold alfvenUnits
      generalize b / Fl.sqrt r = q
      have e : Fl.fin (I.coef * k) = times k (.fin I.coef) := rfl
      rw [e, times_mul_right hk]; rfl
    unfold TurbIn.bca
    simp only [TurbIn.speeds, this]
  have eb : T'.b i = V3.rescale k (T.b i) := by
    rw [e2, h2, hbca]
    unfold V3s.delta V3.rescale
    simp only [delta_times hk]; rfl
  have ezp : T'.zp i = V3.rescale k (T.zp i) := by
    unfold Turb.zp; rw [ev, eb]; unfold V3.rescale
    simp only [V3.mk.injEq]
    exact ⟨(times_add hk _ _).symm, (times_add hk _ _).symm, (times_add hk _ _).symm⟩
  have ezm : T'.zm i = V3.rescale k (T.zm i) := by
    unfold Turb.zm; rw [ev, eb]; unfold V3.rescale
    simp only [V3.mk.injEq]
    exact ⟨(times_sub hk _ _).symm, (times_sub hk _ _).symm, (times_sub hk _ _).symm⟩
  have ep : T'.ep i = times (k ^ 2) (T.ep i) := by unfold Turb.ep; rw [ezp]; exact energy_by hk _
  have em : T'.em i = times (k ^ 2) (T.em i) := by unfold Turb.em; rw [ezm]; exact energy_by hk _
  have eev : T'.ev i = times (k ^ 2) (T.ev i) := by unfold Turb.ev; rw [ev]; exact energy_by hk _
  have eeb : T'.eb i = times (k ^ 2) (T.eb i) := by unfold Turb.eb; rw [eb]; exact energy_by hk _
  have et : T'.etot i = times (k ^ 2) (T.etot i) := by unfold Turb.etot; rw [eev, eeb, times_add h2k]
  have er : T'.eres i = times (k ^ 2) (T.eres i) := by unfold Turb.eres; rw [eev, eeb, times_sub h2k]
  refine ⟨ev, eb, ezp, ezm, ep, em, eev, eeb, et, er, ?_, ?_, ?_, ?_, ?_⟩
  · unfold Turb.crossHelicity; rw [ev, eb]
    have m : ∀ x y : Fl, x * .fin k * (y * .fin k) = times (k ^ 2) (x * y) := by
      intro x y
      have : x * .fin k * (y * .fin k) = times k x * times k y := rfl
      rw [this, times_mul_left hk, times_mul_right hk, times_times hk hk, pow_two]
    unfold V3.rescale
    simp only [m]
    have : ∀ a b c : Fl, Fl.sumSkip [times (k ^ 2) a, times (k ^ 2) b, times (k ^ 2) c] = times (k ^ 2) (Fl.sumSkip [a, b, c]) :=
      fun a b c => sumSkip_times h2k [a, b, c] id
    rw [this, times_mul_right h2k]
  · unfold Turb.sigmaC; rw [ep, em, ← times_sub h2k, ← times_add h2k, times_div_both h2k]
  · unfold Turb.sigmaR; rw [er, et, times_div_both h2k]
  · unfold Turb.rA; rw [eev, eeb, times_div_both h2k]
  · unfold Turb.rE; rw [ep, em, times_div_both h2k]

/-- **C221** Density: a density `k²` times higher divides the field fluctuations by `k` and so magnetic energy by `k²` and cross helicity
by `k`, and multiplies the Alfven ratio by `k²`; the velocity side does not change. -/
theorem C221_density {k : ℝ} (hk : 0 < k) (I : TurbIn) (s : Option String) (W : Window) (mp : ℕ) (T : Turb)
    (hT : turbSet I s W mp = .ok T) :
    ∃ T', turbSet (I.heavier k) s W mp = .ok T' ∧ ∀ i,
      T'.v i = T.v i ∧ T'.b i = V3.rescale (1 / k) (T.b i) ∧ T'.ev i = T.ev i ∧ T'.eb i = times ((1 / k) ^ 2) (T.eb i) ∧
      T'.crossHelicity i = times (1 / k) (T.crossHelicity i) ∧ T'.rA i = times (k ^ 2) (T.rA i) := by
  have hk1 : 0 < 1 / k := by positivity
  have hk2 : 0 < (1 / k) ^ 2 := by positivity
  obtain ⟨h1, h2, h3⟩ := turbSet_inv hT
  obtain ⟨T', hT', e1, e2, -⟩ := h3 (I.heavier k)
  refine ⟨T', hT', fun i => ?_⟩
  have ev : T'.v i = T.v i := by rw [e1, h1]; rfl
  have hbca : (I.heavier k).bca = ⟨fun j => I.bca.x j * .fin (1 / k), fun j => I.bca.y j * .fin (1 / k), fun j => I.bca.z j * .fin (1 / k)⟩ := by
    have : ∀ r b : Fl, alfvenUnits I.coef (r * .fin (k ^ 2)) b = alfvenUnits I.coef r b * .fin (1 / k) := by
      intro r b
      unfold alfvenUnits
      have e : Fl.sqrt (r * .fin (k ^ 2)) = times k (Fl.sqrt r) := sqrt_times hk r
      rw [e, times_div_right hk, times_mul_left hk1]; rfl
    unfold TurbIn.bca
    simp only [TurbIn.heavier, this]
  have eb : T'.b i = V3.rescale (1 / k) (T.b i) := by
    rw [e2, h2, hbca]
    unfold V3s.delta V3.rescale
    simp only [delta_times hk1]; rfl
  have eev : T'.ev i = T.ev i := by unfold Turb.ev; rw [ev]
  have eeb : T'.eb i = times ((1 / k) ^ 2) (T.eb i) := by unfold Turb.eb; rw [eb]; exact energy_by hk1 _
  refine ⟨ev, eb, eev, eeb, ?_, ?_⟩
  · unfold Turb.crossHelicity; rw [ev, eb]
    have m : ∀ x y : Fl, x * (y * .fin (1 / k)) = times (1 / k) (x * y) := fun x y => times_mul_right hk1 x y
    unfold V3.rescale
    simp only [m]
    have : ∀ a b c : Fl, Fl.sumSkip [times (1 / k) a, times (1 / k) b, times (1 / k) c] = times (1 / k) (Fl.sumSkip [a, b, c]) :=
      fun a b c => sumSkip_times hk1 [a, b, c] id
    rw [this, times_mul_right hk1]
  · unfold Turb.rA; rw [eev, eeb, times_div_right hk2]
    congr 1
    field_simp

/-- **C221** Clock: moving all time stamps by the same amount changes nothing. -/
theorem C221_clock (c : ℤ) (I : TurbIn) (s : Option String) (W : Window) (mp : ℕ) : turbSet (I.later c) s W mp = turbSet I s W mp := by
  have hw : ∀ i, windowRows W (fun j => I.t j + c) i = windowRows W I.t i := by
    intro i
    unfold windowRows
    cases W with
    | rows n => rfl
    | offset w =>
      simp only
      congr 1; funext j
      have : (I.t i + c - w < I.t j + c) ↔ (I.t i - w < I.t j) := by omega
      simp only [this]
  have hd : ∀ x i, delta W mp (fun j => I.t j + c) x i = delta W mp I.t x i := by
    intro x i
    unfold delta rollMean
    rw [hw]
  unfold turbSet TurbIn.later TurbIn.bca V3s.delta
  simp only [hd]

/-! ### a pure Alfven wave -/

/-- **C221** A pure wave: if at every measured row the field in Alfven units is the velocity, or its opposite, plus a constant background,
then at every row where the velocity fluctuates the normalised cross helicity is `1` (`-1`), the other Elsasser variable vanishes, there
is no residual energy and the Alfven ratio is `1`. -/
theorem C221_wave (I : TurbIn) (s : Option String) (W : Window) (mp : ℕ) (T : Turb) (hT : turbSet I s W mp = .ok T)
    (sgn : ℝ) (hs : sgn = 1 ∨ sgn = -1) (vx vy vz : ℕ → ℝ) (cx cy cz : ℝ)
    (hv : ∀ j, I.v.x j = .fin (vx j) ∧ I.v.y j = .fin (vy j) ∧ I.v.z j = .fin (vz j))
    (hb : ∀ j, I.bca.x j = .fin (sgn * vx j + cx) ∧ I.bca.y j = .fin (sgn * vy j + cy) ∧ I.bca.z j = .fin (sgn * vz j + cz))
    (i : ℕ) (x y z : ℝ) (hi : T.v i = .ofReal x y z) (hne : ¬ (x = 0 ∧ y = 0 ∧ z = 0)) :
    T.sigmaC i = .fin sgn ∧ T.sigmaR i = .fin 0 ∧ T.rA i = .fin 1 ∧ T.eres i = .fin 0 ∧
    (sgn = 1 → T.em i = .fin 0 ∧ T.rE i = .fin 0) ∧ (sgn = -1 → T.ep i = .fin 0 ∧ T.rE i = .pinf) := by
  obtain ⟨h1, h2, -⟩ := turbSet_inv hT
  have lin : ∀ (f : ℕ → ℝ) (c : ℝ) (X B : ℕ → Fl), (∀ j, X j = .fin (f j)) → (∀ j, B j = .fin (sgn * f j + c)) → ∀ a,
      delta W mp I.t X i = .fin a → delta W mp I.t B i = .fin (sgn * a) := by
    intro f c X B hX hB a ha
    have hfB : B = fun j => (fun j => Fl.fin (sgn * f j)) j + .fin c := by funext j; rw [hB]; simp
    have hfX : X = fun j => Fl.fin (f j) := funext hX
    have hsh : delta W mp I.t B i = delta W mp I.t (fun j => Fl.fin (sgn * f j)) i := by
      rw [hfB]
      rcases C39_shift W mp I.t (fun j => Fl.fin (sgn * f j)) i c with h | h | h
      · exact h
      · cases h
      · cases h
    rw [hsh]
    rcases hs with rfl | rfl
    · simp only [one_mul]; rw [← hfX]; exact ha
    · have : (fun j => Fl.fin (-1 * f j)) = fun j => -X j := by
        funext j; rw [hX, fl_neg_fin]; congr 1; ring
      rw [this, delta_neg, ha, fl_neg_fin]; congr 1; ring
  rw [h1] at hi
  have ex : delta W mp I.t I.v.x i = .fin x := congrArg V3.x hi
  have ey : delta W mp I.t I.v.y i = .fin y := congrArg V3.y hi
  have ez : delta W mp I.t I.v.z i = .fin z := congrArg V3.z hi
  have R : T.Row i x y z (sgn * x) (sgn * y) (sgn * z) := by
    refine ⟨by rw [h1]; exact hi, ?_⟩
    rw [h2]
    unfold V3s.delta V3.ofReal
    rw [lin vx cx _ _ (fun j => (hv j).1) (fun j => (hb j).1) x ex, lin vy cy _ _ (fun j => (hv j).2.1) (fun j => (hb j).2.1) y ey,
      lin vz cz _ _ (fun j => (hv j).2.2) (fun j => (hb j).2.2) z ez]
  have hpos : 0 < x ^ 2 + y ^ 2 + z ^ 2 := by
    rcases lt_or_eq_of_le (by positivity : 0 ≤ x ^ 2 + y ^ 2 + z ^ 2) with h | h
    · exact h
    · exact absurd (sq3_zero h.symm) hne
  obtain ⟨E, hE⟩ : ∃ E, E = x ^ 2 + y ^ 2 + z ^ 2 := ⟨_, rfl⟩
  have hV := Turb.ev_fin R
  have hB := Turb.eb_fin R
  have hP := Turb.ep_fin R
  have hM := Turb.em_fin R
  have hsq : sgn ^ 2 = 1 := by rcases hs with rfl | rfl <;> norm_num
  have eB : ((sgn * x) ^ 2 + (sgn * y) ^ 2 + (sgn * z) ^ 2) / 2 = E / 2 := by
    rw [hE, mul_pow, mul_pow, mul_pow, hsq]; ring
  rw [eB] at hB
  rw [← hE] at hV hpos
  have hE2 : E / 2 ≠ 0 := by positivity
  have er : T.eres i = .fin 0 := by unfold Turb.eres; rw [hV, hB, Fl.fin_sub, sub_self]
  have et : T.etot i = .fin E := by unfold Turb.etot; rw [hV, hB, Fl.fin_add]; congr 1; ring
  have hsr : T.sigmaR i = .fin 0 := by unfold Turb.sigmaR; rw [er, et, Fl.fin_div _ _ hpos.ne', zero_div]
  have hra : T.rA i = .fin 1 := by unfold Turb.rA; rw [hV, hB, Fl.fin_div _ _ hE2, div_self hE2]
  have hE4 : (2 * E) ≠ 0 := by positivity
  rcases hs with rfl | rfl
  · have eP : ((x + 1 * x) ^ 2 + (y + 1 * y) ^ 2 + (z + 1 * z) ^ 2) / 2 = 2 * E := by rw [hE]; ring
    have eM : ((x - 1 * x) ^ 2 + (y - 1 * y) ^ 2 + (z - 1 * z) ^ 2) / 2 = 0 := by ring
    rw [eP] at hP
    rw [eM] at hM
    refine ⟨?_, hsr, hra, er, fun _ => ⟨hM, ?_⟩, fun h => by norm_num at h⟩
    · unfold Turb.sigmaC; rw [hP, hM, Fl.fin_sub, Fl.fin_add, sub_zero, add_zero, Fl.fin_div _ _ hE4, div_self hE4]
    · unfold Turb.rE; rw [hP, hM, Fl.fin_div _ _ hE4, zero_div]
  · have eP : ((x + -1 * x) ^ 2 + (y + -1 * y) ^ 2 + (z + -1 * z) ^ 2) / 2 = 0 := by ring
    have eM : ((x - -1 * x) ^ 2 + (y - -1 * y) ^ 2 + (z - -1 * z) ^ 2) / 2 = 2 * E := by rw [hE]; ring
    rw [eP] at hP
    rw [eM] at hM
    refine ⟨?_, hsr, hra, er, fun h => by norm_num at h, fun _ => ⟨hP, ?_⟩⟩
    · unfold Turb.sigmaC; rw [hP, hM, Fl.fin_sub, Fl.fin_add, zero_sub, zero_add, Fl.fin_div _ _ hE4, neg_div, div_self hE4]
    · unfold Turb.rE; rw [hP, hM]
      have h2 : (0 : ℝ) < 2 * E := by positivity
      show Fl.div _ _ = _
      simp [Fl.div, h2, h2.ne']

/-! ### the hypotheses are met -/

/-- demo: one row per second, the velocity 0, 1, 2, …, the field the same in Alfven units plus a background -/
def demoTurbIn : TurbIn where
  t := fun j => 1000000000 * j
  v := ⟨fun j => .fin j, fun _ => .fin 1, fun _ => .fin 0⟩
  b := ⟨fun j => .fin (j + 5), fun _ => .fin 2, fun _ => .fin 0⟩
  rho := fun _ => .fin 1
  coef := 1

theorem demo_bca (j : ℕ) : demoTurbIn.bca.x j = .fin (1 * (j : ℝ) + 5) ∧ demoTurbIn.bca.y j = .fin (1 * 1 + 1) ∧
    demoTurbIn.bca.z j = .fin (1 * 0 + 0) := by
  have e : ∀ a : ℝ, alfvenUnits 1 (.fin 1) (.fin a) = .fin a := by
    intro a; unfold alfvenUnits
    rw [Fl.sqrt_fin _ (by norm_num), Real.sqrt_one, Fl.fin_div _ _ (by norm_num), Fl.fin_mul]; congr 1; ring
  refine ⟨?_, ?_, ?_⟩
  · show alfvenUnits 1 (.fin 1) (.fin _) = _
    rw [e]; congr 1; ring
  · show alfvenUnits 1 (.fin 1) (.fin _) = _
    rw [e]; congr 1; ring
  · show alfvenUnits 1 (.fin 1) (.fin _) = _
    rw [e]; congr 1; ring

/-- demo: at row 1, with a window of two rows, the velocity fluctuates and the wave theorem applies -/
example : ∃ T, turbSet demoTurbIn (some "p1") (.rows 2) 1 = .ok T ∧ T.sigmaC 1 = .fin 1 ∧ T.rA 1 = .fin 1 := by
  have hsp : turbSpecies (some "p1") = .ok "p1" := by decide +kernel
  obtain ⟨T, hT⟩ : ∃ T, turbSet demoTurbIn (some "p1") (.rows 2) 1 = .ok T := by
    unfold turbSet; rw [hsp]; exact ⟨_, rfl⟩
  have h1 := (turbSet_inv hT).1 1
  have hwin : winSet (.rows 2) demoTurbIn.t demoTurbIn.v.x 1 = {0, 1} := by
    ext j
    unfold winSet
    rw [Finset.mem_filter, Finset.mem_range]
    unfold InWindow
    simp only [Finset.mem_insert, Finset.mem_singleton]
    constructor
    · rintro ⟨h, -⟩; omega
    · intro h; exact ⟨by omega, ⟨by omega, by omega⟩, Fl.isFinite_fin _⟩
  have hwin' : ∀ c : ℝ, winSet (.rows 2) demoTurbIn.t (fun _ => .fin c) 1 = {0, 1} := by
    intro c
    ext j
    unfold winSet
    rw [Finset.mem_filter, Finset.mem_range]
    unfold InWindow
    simp only [Finset.mem_insert, Finset.mem_singleton]
    constructor
    · rintro ⟨h, -⟩; omega
    · intro h; exact ⟨by omega, ⟨by omega, by omega⟩, Fl.isFinite_fin _⟩
  have hcard : ({0, 1} : Finset ℕ).card = 2 := by decide
  have hx : delta (.rows 2) 1 demoTurbIn.t demoTurbIn.v.x 1 = .fin (1 / 2) := by
    rw [delta_eq, hwin, hcard, if_neg (by omega), Finset.sum_pair (by decide)]
    show Fl.fin ((1 : ℕ) : ℝ) - .fin ((((0 : ℕ) : ℝ) + ((1 : ℕ) : ℝ)) / ((2 : ℕ) : ℝ)) = _
    rw [Fl.fin_sub]; congr 1; norm_num
  have hc : ∀ c : ℝ, delta (.rows 2) 1 demoTurbIn.t (fun _ => .fin c) 1 = .fin 0 := by
    intro c
    rw [delta_eq, hwin', hcard, if_neg (by omega), Finset.sum_pair (by decide)]
    show Fl.fin c - .fin ((c + c) / ((2 : ℕ) : ℝ)) = _
    rw [Fl.fin_sub]; congr 1; push_cast; ring
  have hv1 : T.v 1 = .ofReal (1 / 2) 0 0 := by
    rw [h1]; unfold V3s.delta V3.ofReal; rw [hx]
    congr 1
    · exact hc 1
    · exact hc 0
  have := C221_wave demoTurbIn (some "p1") (.rows 2) 1 T hT 1 (.inl rfl) (fun j => (j : ℝ)) (fun _ => 1) (fun _ => 0) 5 1 0
    (fun j => ⟨rfl, rfl, rfl⟩) (fun j => demo_bca j) 1 (1 / 2) 0 0 hv1 (by norm_num)
  exact ⟨T, hT, this.1, this.2.2.1⟩

/-- demo: the rows of this input are whole and its density positive -/
example : demoTurbIn.v.Whole ∧ demoTurbIn.b.Whole ∧ (∀ j, demoTurbIn.rho j = .nan ∨ ∃ r : ℝ, 0 < r ∧ demoTurbIn.rho j = .fin r) :=
  ⟨fun j => .inl ⟨_, _, _, rfl, rfl, rfl⟩, fun j => .inl ⟨_, _, _, rfl, rfl, rfl⟩, fun j => .inr ⟨1, by norm_num, rfl⟩⟩

end
end SW
