import Verif.Props.RoundFlow
import Verif.RoundPhys2

/-!
# C279, C280: anisotropic Alfven speed and heat flux with rounding
-/

namespace SW
namespace Rnd

/-! ### one rounding as a factor -/

theorem round_factor {p : ℕ} (hp : 1 ≤ p) (x : ℝ) : ∃ m, (fmt p hp).r x = x * m ∧ Near (ulp p) 1 1 m := by
  obtain ⟨u0, u1⟩ := ulp_range hp
  have u1' : ulp p < 1 := by linarith
  have pos : ∀ x : ℝ, 0 < x → ∃ m, (fmt p hp).r x = x * m ∧ Near (ulp p) 1 1 m := by
    intro x hx
    have := near_div u0.le u1' (near_one hp hx) (near_refl u0.le u1' hx)
    rw [div_self hx.ne', add_zero] at this
    exact ⟨_, by field_simp, this⟩
  rcases lt_trichotomy x 0 with h | h | h
  · obtain ⟨m, e, n⟩ := pos (-x) (by linarith)
    refine ⟨m, ?_, n⟩
    rw [(fmt p hp).odd] at e
    linarith
  · refine ⟨1, by rw [h, r_zero]; ring, near_up u0.le u1' (by norm_num) (near_refl u0.le u1' one_pos)⟩
  · exact pos x h

theorem near_bsq {p : ℕ} (hp : 1 ≤ p) (d : RData) {T : Order} (hT : T.Of 3) (hb : bsqR d ≠ 0) :
    Near (ulp p) 3 (bsqR d) (T.sum (fmt p hp) fun i => (fmt p hp).r (field d i * field d i)) := by
  obtain ⟨u0, u1⟩ := ulp_range hp
  have h := sum_within hp 1 (fun i => field d i * field d i) (fun i => (fmt p hp).r (field d i * field d i)) T (fun i _ => mul_self_nonneg _)
    (fun i _ => sq_nonneg' _ _) (fun i _ => within_sq hp (field d i))
  rw [of_sum hT, of_length hT] at h
  have e : ∑ i ∈ Finset.range 3, field d i * field d i = bsqR d := by
    simp only [Finset.sum_range_succ, Finset.sum_range_zero, field, bsqR]
    norm_num
    ring
  rw [e] at h
  have b0 : 0 < bsqR d := lt_of_le_of_ne (bsqR_nonneg d) (Ne.symm hb)
  simp only [Nat.reduceSub, Nat.reduceAdd] at h
  have v : (1 - ulp p) ^ (3 : ℝ) = (1 - ulp p) ^ 3 := by rw [show (3 : ℝ) = ((3 : ℕ) : ℝ) by norm_num, Real.rpow_natCast]
  refine ⟨b0, by rw [v]; exact h.1, ?_⟩
  have v0 : 0 < 1 - ulp p := by linarith
  rw [v, le_div_iff₀ (by positivity)]
  have q : (1 + ulp p) ^ 3 * (1 - ulp p) ^ 3 ≤ 1 := by
    rw [← mul_pow]
    apply pow_le_one₀
    · nlinarith
    · nlinarith
  calc _ ≤ (1 + ulp p) ^ 3 * bsqR d * (1 - ulp p) ^ 3 := mul_le_mul_of_nonneg_right h.2 (by positivity)
    _ = (1 + ulp p) ^ 3 * (1 - ulp p) ^ 3 * bsqR d := by ring
    _ ≤ 1 * bsqR d := mul_le_mul_of_nonneg_right q b0.le
    _ = bsqR d := one_mul _

theorem field_ne {d : RData} (hb : ¬ (d.bx = 0 ∧ d.by_ = 0 ∧ d.bz = 0)) : bsqR d ≠ 0 := by
  intro e
  unfold bsqR at e
  apply hb
  refine ⟨?_, ?_, ?_⟩ <;> nlinarith [sq_nonneg d.bx, sq_nonneg d.by_, sq_nonneg d.bz]

/-! ## C279: the anisotropy factor and the anisotropic Alfven speed -/

/-- the pressure term of the exact anisotropy factor: `mu0 * p / B^2` in SI units -/
noncomputable def mag0 (K : Const) (d : RData) (x : ℝ) : ℝ := K.mu0 * (x * K.uPth) / (bsqR d * K.uB ^ 2)

/-- three numbers close to 1, P and Q -/
theorem near_combine {u a m x y P Q : ℝ} (u1 : u ≤ 1) (a1 : 1 ≤ a) (hau : a * u < 1) (h1 : Near u a 1 m) (h2 : Near u a P x) (h3 : Near u a Q y) :
    |m + x - y - (1 + P - Q)| ≤ a * u / (1 - a * u) * (1 + P + Q) := by
  have e1 := near_rel u1 a1 hau h1
  have e2 := near_rel u1 a1 hau h2
  have e3 := near_rel u1 a1 hau h3
  have : m + x - y - (1 + P - Q) = (m - 1) + (x - P) + -(y - Q) := by ring
  rw [this]
  refine (abs_add_three _ _ _).trans ?_
  rw [abs_neg]
  linarith

section
variable {p : ℕ} (hp : 1 ≤ p) (K : Const) (d : RData)

/-- the exact factor is `1 + mu0 (p_per - p_par) / B^2`, and the computed one is it up to `7 N + 11` rounding errors of the sum of the three terms -/
theorem C279_accuracy (h6 : 6 ≤ p) {ps : List String} (h : Present d ps) {T : Order} (hT : T.Of 3) (hb : ¬ (d.bx = 0 ∧ d.by_ = 0 ∧ d.bz = 0))
    (hN : (7 * ps.length + 11) * ulp p < 1) :
    ∃ P Q, pthTot K d.obs "per" ps = .fin P ∧ pthTot K d.obs "par" ps = .fin Q ∧ 0 < P ∧ 0 < Q ∧
      afsqOf K d.obs (pthTot K d.obs "par" ps) (pthTot K d.obs "per" ps) = .fin (1 + mag0 K d P - mag0 K d Q) ∧
      |afsqTotR (fmt p hp) T K d ps - (1 + mag0 K d P - mag0 K d Q)| ≤
        (7 * ps.length + 11) * ulp p / (1 - (7 * ps.length + 11) * ulp p) * (1 + mag0 K d P + mag0 K d Q) := by
  obtain ⟨u0, u1⟩ := ulp_range hp
  have u1' : ulp p < 1 := by linarith
  have hb' := field_ne hb
  obtain ⟨P, hP, nP⟩ := C257_pressure hp K d h6 h (c := "per") (by simp)
  obtain ⟨Q, hQ, nQ⟩ := C257_pressure hp K d h6 h (c := "par") (by simp)
  have B := K.uB_pos.ne'
  refine ⟨P, Q, hP, hQ, nP.1, nQ.1, ?_, ?_⟩
  · rw [hP, hQ]
    unfold afsqOf
    have hbq : V3.sqSum d.obs.b = .fin (bsqR d) := b_sqSum_fin (d.measured ps)
    rw [hbq]
    simp only [Fl.fin_mul, Fl.sumSkip_cons_fin, Fl.sumSkip_nil, Fl.zero_def, Fl.fin_add]
    rw [Fl.fin_div _ _ hb', Fl.fin_mul, Fl.fin_add]
    congr 1
    unfold mag0
    field_simp
    ring
  · have nb := near_bsq hp d hT hb'
    have k1 := near_one hp (mul_pos K.mu0_pos K.uPth_pos)
    have k2 := near_one hp (mul_pos K.uB_pos K.uB_pos)
    have k3 := near_round hp (near_div u0.le u1' k1 k2)
    unfold afsqTotR afsqOfR
    simp only []
    generalize pthTotR (fmt p hp) K d "per" ps = per at nP ⊢
    generalize pthTotR (fmt p hp) K d "par" ps = par at nQ ⊢
    generalize (T.sum (fmt p hp) fun i => (fmt p hp).r (field d i * field d i)) = bs at nb ⊢
    generalize (fmt p hp).r ((fmt p hp).r (K.mu0 * K.uPth) / (fmt p hp).r (K.uB * K.uB)) = co at k3 ⊢
    obtain ⟨m1, e1, n1⟩ := round_factor hp (per - par)
    rw [e1]
    obtain ⟨m2, e2, n2⟩ := round_factor hp ((per - par) * m1 / bs)
    rw [e2]
    obtain ⟨m3, e3, n3⟩ := round_factor hp ((per - par) * m1 / bs * m2 * co)
    rw [e3]
    obtain ⟨m4, e4, n4⟩ := round_factor hp (1 + (per - par) * m1 / bs * m2 * co * m3)
    rw [e4]
    have G := near_mul u0.le u1' (near_mul u0.le u1' (near_mul u0.le u1' (near_mul u0.le u1' (near_mul u0.le u1' n1 n2) n3) n4) k3) (near_refl u0.le u1' one_pos)
    have GP := near_div u0.le u1' (near_mul u0.le u1' nP G) nb
    have GQ := near_div u0.le u1' (near_mul u0.le u1' nQ G) nb
    have eP : P * (1 * 1 * 1 * 1 * (K.mu0 * K.uPth / (K.uB * K.uB)) * 1) / bsqR d = mag0 K d P := by unfold mag0; field_simp
    have eQ : Q * (1 * 1 * 1 * 1 * (K.mu0 * K.uPth / (K.uB * K.uB)) * 1) / bsqR d = mag0 K d Q := by unfold mag0; field_simp
    rw [eP] at GP
    rw [eQ] at GQ
    have N0 : (0 : ℝ) ≤ ps.length := Nat.cast_nonneg _
    have c := near_combine u1'.le (show (1 : ℝ) ≤ 7 * ps.length + 11 by linarith) hN (near_up u0.le u1' (by linarith) n4)
      (near_up u0.le u1' (b := 7 * ps.length + 11) (by linarith) GP) (near_up u0.le u1' (b := 7 * ps.length + 11) (by linarith) GQ)
    refine le_trans (le_of_eq ?_) c
    congr 1
    have := (near_pos u1' nb).ne'
    field_simp
    ring

end

theorem coeff_nonneg (R : Rounding) (K : Const) : 0 ≤ R.r (R.r (K.mu0 * K.uPth) / R.r (K.uB * K.uB)) :=
  r_nonneg R (div_nonneg (r_nonneg R (mul_pos K.mu0_pos K.uPth_pos).le) (r_nonneg R (mul_pos K.uB_pos K.uB_pos).le))

theorem bs_nonneg (R : Rounding) (T : Order) (d : RData) : 0 ≤ T.sum R (fun i => R.r (field d i * field d i)) :=
  sum_nonneg R _ T fun i _ => sq_nonneg' R (field d i)

/-- more perpendicular pressure never lowers the factor, more parallel pressure never raises it -/
theorem C279_mono (R : Rounding) (T : Order) (K : Const) (d : RData) {par par' per per' : ℝ} (h1 : par' ≤ par) (h2 : per ≤ per') :
    afsqOfR R T K d par per ≤ afsqOfR R T K d par' per' := by
  unfold afsqOfR
  simp only []
  have e : R.r (per - par) ≤ R.r (per' - par') := R.mono (by linarith)
  have e2 := R.mono (div_le_div_of_nonneg_right e (bs_nonneg R T d))
  have e3 := R.mono (mul_le_mul_of_nonneg_right e2 (coeff_nonneg R K))
  exact R.mono (by linarith)

/-- equal pressures: exactly one -/
theorem C279_equal (R : Rounding) (T : Order) (K : Const) (d : RData) (x : ℝ) : afsqOfR R T K d x x = 1 := by
  unfold afsqOfR
  simp only [sub_self, r_zero, zero_div, zero_mul, add_zero]
  exact R.one

/-- the factor is at least one if the perpendicular pressure is at least the parallel one, and at most one if it is at most that -/
theorem C279_side (R : Rounding) (T : Order) (K : Const) (d : RData) {par per : ℝ} :
    (par ≤ per → 1 ≤ afsqOfR R T K d par per) ∧ (per ≤ par → afsqOfR R T K d par per ≤ 1) := by
  constructor <;> intro h
  · have := C279_mono R T K d (le_refl par) h
    rwa [C279_equal] at this
  · have := C279_mono R T K d (le_refl par) h
    rwa [C279_equal] at this

/-- isotropic species: the factor is exactly one -/
theorem C279_isotropic (R : Rounding) (T : Order) (K : Const) (d : RData) (ps : List String) (h : ∀ s ∈ ps, d.w s "par" = d.w s "per") :
    afsqTotR R T K d ps = 1 := by
  unfold afsqTotR
  have e : pthTotR R K d "par" ps = pthTotR R K d "per" ps := by
    unfold pthTotR
    congr 1
    apply List.map_congr_left
    intro s hs
    unfold pthR wsqR
    rw [h s hs]
  rw [e, C279_equal]

theorem pthR_mono (R : Rounding) (K : Const) (d : RData) {s c c' : String} (hn : 0 ≤ d.n s) (h0 : 0 ≤ d.w s c) (h : d.w s c ≤ d.w s c') :
    pthR R K d c s ≤ pthR R K d c' s := by
  unfold pthR wsqR
  simp only []
  have a : R.r (d.w s c * K.uV) ≤ R.r (d.w s c' * K.uV) := R.mono (mul_le_mul_of_nonneg_right h K.uV_pos.le)
  have a0 : 0 ≤ R.r (d.w s c * K.uV) := r_nonneg R (mul_nonneg h0 K.uV_pos.le)
  have b := R.mono (mul_le_mul a a a0 (a0.trans a))
  have r0 : 0 ≤ R.r (rhoR R K d s * K.uRho) := r_nonneg R (mul_nonneg (r_nonneg R (mul_nonneg hn (K.mInMp_pos s).le)) K.uRho_pos.le)
  have c := R.mono (mul_le_mul_of_nonneg_right b r0)
  exact R.mono (mul_le_mul_of_nonneg_left c (r_nonneg R (div_nonneg (by norm_num) K.uPth_pos.le)))

theorem kahan_single (R : Rounding) (x : ℝ) : kahan R [x] = R.r (R.r x) := by
  unfold kahan kahanStep
  simp only [List.foldl_cons, List.foldl_nil, sub_zero, zero_add]

/-- one species: the factor is on the side of one that its thermal speeds say -/
theorem C279_single (R : Rounding) (T : Order) (K : Const) (d : RData) (s : String) (hn : 0 ≤ d.n s) (h0 : 0 ≤ d.w s "par") (h1 : 0 ≤ d.w s "per") :
    (d.w s "par" ≤ d.w s "per" → 1 ≤ afsqTotR R T K d [s]) ∧ (d.w s "per" ≤ d.w s "par" → afsqTotR R T K d [s] ≤ 1) := by
  unfold afsqTotR pthTotR
  simp only [List.map_cons, List.map_nil, kahan_single]
  exact ⟨fun h => (C279_side R T K d).1 (R.mono (R.mono (pthR_mono R K d hn h0 h))),
    fun h => (C279_side R T K d).2 (R.mono (R.mono (pthR_mono R K d hn h1 h)))⟩

theorem ca_rep (R : Rounding) (V : Order) (pw : ℝ → ℝ → ℝ) (K : Const) (d : RData) (x : ℝ) : R.r (caOfR R V pw K d x) = caOfR R V pw K d x := R.idem _

theorem ca_nonneg (R : Rounding) (V : Order) (pw : ℝ → ℝ → ℝ) (hw : ∀ x e, 0 ≤ pw x e) (K : Const) (d : RData) (x : ℝ) : 0 ≤ caOfR R V pw K d x := by
  apply r_nonneg
  apply mul_nonneg
  · exact r_nonneg R (mul_nonneg (hw _ _) (r_nonneg R (Real.sqrt_nonneg _)))
  · exact r_nonneg R (div_nonneg K.uB_pos.le (r_nonneg R (mul_nonneg (r_nonneg R (Real.sqrt_nonneg _)) K.uV_pos.le)))

/-- isotropic species: the anisotropic Alfven speed is the Alfven speed, bit by bit -/
theorem C279_isotropic_speed (R : Rounding) (S T V : Order) (pw : ℝ → ℝ → ℝ) (K : Const) (d : RData) (ps : List String)
    (h : ∀ s ∈ ps, d.w s "par" = d.w s "per") : caaniR R S T V pw K d ps = caOfR R V pw K d (rhoTotR R S K d ps) := by
  unfold caaniR
  rw [C279_isotropic R T K d ps h, Real.sqrt_one, R.one, mul_one, ca_rep]

/-- otherwise it is at least, or at most, the Alfven speed as the factor is at least, or at most, one -/
theorem C279_speed (R : Rounding) (S T V : Order) (pw : ℝ → ℝ → ℝ) (hw : ∀ x e, 0 ≤ pw x e) (K : Const) (d : RData) (ps : List String) :
    (1 ≤ afsqTotR R T K d ps → caOfR R V pw K d (rhoTotR R S K d ps) ≤ caaniR R S T V pw K d ps) ∧
    (afsqTotR R T K d ps ≤ 1 → caaniR R S T V pw K d ps ≤ caOfR R V pw K d (rhoTotR R S K d ps)) := by
  have c0 := ca_nonneg R V pw hw K d (rhoTotR R S K d ps)
  constructor <;> intro h
  · have a : 1 ≤ R.r (Real.sqrt (afsqTotR R T K d ps)) := by
      have := R.mono (Real.one_le_sqrt.mpr h)
      rwa [R.one] at this
    have := R.mono (le_mul_of_one_le_right c0 a)
    rwa [ca_rep] at this
  · have a : R.r (Real.sqrt (afsqTotR R T K d ps)) ≤ 1 := by
      have := R.mono (Real.sqrt_le_one.mpr h)
      rwa [R.one] at this
    have := R.mono (mul_le_of_le_one_right c0 a)
    rwa [ca_rep] at this

/-- the same row with another field -/
def withField (d : RData) (x y z : ℝ) : RData := { d with bx := x, by_ := y, bz := z }

theorem field_neg (d : RData) : field (withField d (-d.bx) (-d.by_) (-d.bz)) = fun i => - field d i := by
  funext i
  unfold field withField
  simp only []
  split_ifs <;> rfl

/-- reversing the field changes no bit of the factor and of the speed -/
theorem C279_reverse (R : Rounding) (S T V : Order) (pw : ℝ → ℝ → ℝ) (K : Const) (d : RData) (ps : List String) :
    afsqTotR R T K (withField d (-d.bx) (-d.by_) (-d.bz)) ps = afsqTotR R T K d ps ∧
    caaniR R S T V pw K (withField d (-d.bx) (-d.by_) (-d.bz)) ps = caaniR R S T V pw K d ps := by
  have e : afsqTotR R T K (withField d (-d.bx) (-d.by_) (-d.bz)) ps = afsqTotR R T K d ps := by
    unfold afsqTotR afsqOfR
    rw [field_neg]
    simp only [neg_mul_neg]
    rfl
  refine ⟨e, ?_⟩
  unfold caaniR
  rw [e]
  unfold caOfR
  rw [field_neg, (C253_reverse R V (field d) (field d)).1]
  rfl

/-! ## C280: heat flux -/

/-- the same row with reversed velocities -/
def backward (d : RData) : RData := { d with vx := fun s => - d.vx s, vy := fun s => - d.vy s, vz := fun s => - d.vz s }

theorem vel_neg (d : RData) (i : ℕ) : vel (backward d) i = fun s => - vel d i s := by
  unfold vel backward
  simp only []
  split_ifs <;> rfl

/-- what is used of numpy's cube -/
structure CubeOk (cb : ℝ → ℝ) : Prop where
  odd : ∀ x, cb (-x) = - cb x
  nonneg : ∀ x, 0 ≤ x → 0 ≤ cb x

/-- the correctly rounded cube, for instance -/
theorem cube_rounded (R : Rounding) : CubeOk fun x => R.r (x ^ 3) :=
  ⟨fun x => by rw [← R.odd]; congr 1; ring, fun x hx => r_nonneg R (pow_nonneg hx 3)⟩

theorem flow_neg (R : Rounding) (x y : ℝ) : flow R (-x) (-y) = - flow R x y := by
  unfold flow
  rw [← R.odd]
  congr 1
  ring

theorem drift_backward (R : Rounding) (S T U : Order) (K : Const) (d : RData) (ps : List String) (s : String) :
    driftParR R S T U K (backward d) ps s = - driftParR R S T U K d ps s := by
  unfold driftParR
  rw [← sum_neg]
  congr 1
  funext i
  rw [vel_neg]
  have e : comOfR R S K (backward d) ps (fun s => - vel d i s) = - comOfR R S K d ps (vel d i) := C258_reverse K d R S ps (vel d i)
  rw [e, flow_neg, ← R.odd, neg_mul]
  rfl

theorem drift_field (R : Rounding) (S T U : Order) (K : Const) (d : RData) (ps : List String) (s : String) :
    driftParR R S T U K (withField d (-d.bx) (-d.by_) (-d.bz)) ps s = - driftParR R S T U K d ps s := by
  unfold driftParR
  rw [← sum_neg]
  congr 1
  funext i
  rw [field_neg, (C253_reverse R T (field d) (field d)).2.1 i, ← R.odd, mul_neg]
  rfl

theorem q_neg (R : Rounding) {cb : ℝ → ℝ} (hc : CubeOk cb) (K : Const) (d : RData) (s : String) (v : ℝ) : qOfR R cb K d s (-v) = - qOfR R cb K d s v := by
  unfold qOfR
  rw [hc.odd, neg_mul, R.odd, neg_mul, R.odd, ← neg_add, R.odd, neg_mul, R.odd]

/-- reversing all velocities, or the field, reverses the heat flux of every species and of their sum, bit by bit -/
theorem C280_reverse (R : Rounding) (S T U V : Order) {cb : ℝ → ℝ} (hc : CubeOk cb) (K : Const) (d : RData) (ps : List String) :
    (∀ s, heatEachR R S T U cb K (backward d) ps s = - heatEachR R S T U cb K d ps s) ∧
    heatTotR R S T U V cb K (backward d) ps = - heatTotR R S T U V cb K d ps ∧
    (∀ s, heatEachR R S T U cb K (withField d (-d.bx) (-d.by_) (-d.bz)) ps s = - heatEachR R S T U cb K d ps s) ∧
    heatTotR R S T U V cb K (withField d (-d.bx) (-d.by_) (-d.bz)) ps = - heatTotR R S T U V cb K d ps := by
  have k1 : ∀ s, qOfR R cb K (backward d) s (driftParR R S T U K (backward d) ps s) = - qOfR R cb K d s (driftParR R S T U K d ps s) := by
    intro s
    rw [drift_backward, ← q_neg R hc]
    rfl
  have k2 : ∀ s, qOfR R cb K (withField d (-d.bx) (-d.by_) (-d.bz)) s (driftParR R S T U K (withField d (-d.bx) (-d.by_) (-d.bz)) ps s) =
      - qOfR R cb K d s (driftParR R S T U K d ps s) := by
    intro s
    rw [drift_field, ← q_neg R hc]
    rfl
  refine ⟨fun s => ?_, ?_, fun s => ?_, ?_⟩
  · unfold heatEachR
    rw [k1, mul_neg, R.odd]
  · unfold heatTotR across
    simp only [k1]
    rw [sum_neg, mul_neg, R.odd]
  · unfold heatEachR
    rw [k2, mul_neg, R.odd]
  · unfold heatTotR across
    simp only [k2]
    rw [sum_neg, mul_neg, R.odd]

/-- species at rest carry no heat -/
theorem C280_rest (R : Rounding) (S T U V : Order) {cb : ℝ → ℝ} (hc : CubeOk cb) (K : Const) (d : RData) (ps : List String)
    (hx : d.vx = fun _ => 0) (hy : d.vy = fun _ => 0) (hz : d.vz = fun _ => 0) :
    (∀ s, heatEachR R S T U cb K d ps s = 0) ∧ heatTotR R S T U V cb K d ps = 0 := by
  have e : backward d = d := by
    cases d
    simp only at hx hy hz
    subst hx hy hz
    unfold backward
    simp
  obtain ⟨h1, h2, -⟩ := C280_reverse R S T U V hc K d ps
  rw [e] at h1 h2
  exact ⟨fun s => by linarith [h1 s], by linarith⟩

theorem q_nonneg (R : Rounding) {cb : ℝ → ℝ} (hc : CubeOk cb) (K : Const) (d : RData) {s : String} (hn : 0 ≤ d.n s) {v : ℝ} (hv : 0 ≤ v) :
    0 ≤ qOfR R cb K d s v := by
  unfold qOfR
  apply r_nonneg
  apply mul_nonneg
  · exact r_nonneg R (add_nonneg (hc.nonneg v hv) (r_nonneg R (mul_nonneg (r_nonneg R (mul_nonneg hv (sq_nonneg' R _))) (by norm_num))))
  · exact r_nonneg R (mul_nonneg hn (K.mInMp_pos s).le)

theorem qCoeff_nonneg (R : Rounding) {cb : ℝ → ℝ} (hc : CubeOk cb) (K : Const) : 0 ≤ qCoeffR R cb K :=
  r_nonneg R (div_nonneg (r_nonneg R (mul_nonneg K.uRho_pos.le (hc.nonneg _ K.uV_pos.le))) K.uQpar_pos.le)

/-- the heat flux of a species is along the field if its drift from the centre of mass is, against it if its drift is -/
theorem C280_sign (R : Rounding) (S T U : Order) {cb : ℝ → ℝ} (hc : CubeOk cb) (K : Const) (d : RData) (ps : List String) (s : String) (hn : 0 ≤ d.n s) :
    (0 ≤ driftParR R S T U K d ps s → 0 ≤ heatEachR R S T U cb K d ps s) ∧
    (driftParR R S T U K d ps s ≤ 0 → heatEachR R S T U cb K d ps s ≤ 0) := by
  unfold heatEachR
  generalize driftParR R S T U K d ps s = v
  have c0 := qCoeff_nonneg R hc K
  constructor <;> intro h
  · exact r_nonneg R (mul_nonneg c0 (q_nonneg R hc K d hn h))
  · have := r_nonneg R (mul_nonneg c0 (q_nonneg R hc K d hn (show 0 ≤ -v by linarith)))
    rw [q_neg R hc, mul_neg, R.odd] at this
    linarith

theorem q_pos {cb : ℝ → ℝ} (hc : CubeOk cb) (K : Const) (d : RData) {s : String} (hn : 0 < d.n s) (hw : d.w s "par" ≠ 0) {v : ℝ} (hv : 0 < v) :
    0 < qOfR double cb K d s v := by
  unfold qOfR
  apply dr_pos
  apply mul_pos
  · exact dr_pos (add_pos_of_nonneg_of_pos (hc.nonneg v hv.le) (dr_pos (mul_pos (dr_pos (mul_pos hv (dr_pos (mul_self_pos.mpr hw)))) (by norm_num))))
  · exact dr_pos (mul_pos hn (K.mInMp_pos s))

/-- what rounding breaks: two proton beams that move together, with 3 along the field, have a heat flux, against the field -/
theorem C280_together_violated (K : Const) (h1 : K.mInMp "p1" = 1) (h2 : K.mInMp "p2" = 1) :
    ∃ d : RData, (∀ s, d.n s = double.r (1 / 10) ∧ d.vx s = 3 ∧ d.vy s = 0 ∧ d.vz s = 0 ∧ ∀ c, d.w s c = 50) ∧ d.bx = 1 ∧ d.by_ = 0 ∧ d.bz = 0 ∧
      (∀ s, heatEachR double (.add (.term 0) (.term 1)) xyz xyz (fun x => double.r (x ^ 3)) K d ["p1", "p2"] s < 0) ∧
      heatTotR double (.add (.term 0) (.term 1)) xyz xyz (.add (.term 0) (.term 1)) (fun x => double.r (x ^ 3)) K d ["p1", "p2"] < 0 := by
  obtain ⟨d0, hd0, hcom, -⟩ := C258_same_violated K h1 h2
  obtain ⟨d, hd⟩ : ∃ d : RData, d = ⟨d0.n, d0.vx, d0.vy, d0.vz, fun _ _ => 50, 1, 0, 0⟩ := ⟨_, rfl⟩
  have dn : d.n = d0.n := by rw [hd]
  have dx : d.vx = d0.vx := by rw [hd]
  have z := r_zero double
  have o := double.one
  have fe : field d = fun i => if i = 0 then 1 else 0 := by
    funext i
    unfold field
    rw [hd]
    simp only []
    split_ifs <;> rfl
  have ma : mag double xyz (field d) = 1 := by
    rw [fe]
    unfold mag xyz
    simp [Order.sum, z, o]
  have com : comOfR double (.add (.term 0) (.term 1)) K d ["p1", "p2"] d.vx = comOfR double (.add (.term 0) (.term 1)) K d0 ["p1", "p2"] d0.vx := by
    unfold comOfR rhoTotR rhoR
    rw [dn, dx]
  obtain ⟨c, hc⟩ : ∃ c, c = comOfR double (.add (.term 0) (.term 1)) K d0 ["p1", "p2"] d0.vx := ⟨_, rfl⟩
  rw [← hc] at hcom com
  have fl : flow double 3 c < 0 := by
    have a := (C254_flow double c 3).2.2 hcom.le
    rw [(C254_flow double 3 c).1] at a
    have b : flow double 3 c ≠ 0 := by
      intro h
      have := (C254_flow_zero (p := 53) (by norm_num) 3 c).mp h
      linarith
    rcases lt_or_eq_of_le (show flow double 3 c ≤ 0 by linarith) with h | h
    · exact h
    · exact absurd h b
  have drift : ∀ s, driftParR double (.add (.term 0) (.term 1)) xyz xyz K d ["p1", "p2"] s = flow double 3 c := by
    intro s
    unfold driftParR
    have u0 : unit double xyz (field d) 0 = 1 := by
      unfold unit
      rw [ma, fe]
      simp [o]
    have u1 : unit double xyz (field d) 1 = 0 := by
      unfold unit
      rw [ma, fe]
      simp [z]
    have u2 : unit double xyz (field d) 2 = 0 := by
      unfold unit
      rw [ma, fe]
      simp [z]
    have v0 : vel d 0 = d.vx := by unfold vel; simp
    have vs : d.vx s = 3 := by rw [dx]; exact (hd0 s).2.1
    have k : double.r (flow double 3 c) = flow double 3 c := double.idem _
    conv_lhs => unfold xyz
    simp only [Order.sum]
    change double.r (double.r (double.r (_ * unit double xyz (field d) 0) + double.r (_ * unit double xyz (field d) 1)) +
      double.r (_ * unit double xyz (field d) 2)) = _
    rw [u0, u1, u2, v0, com, vs]
    simp only [mul_one, mul_zero, z, add_zero, k]
  have co : CubeOk fun x => double.r (x ^ 3) := cube_rounded double
  have n0 : ∀ s, 0 < d.n s := by
    intro s
    rw [dn, (hd0 s).1]
    exact dr_pos (by norm_num)
  have q : ∀ s, qOfR double (fun x => double.r (x ^ 3)) K d s (flow double 3 c) < 0 := by
    intro s
    have w : d.w s "par" ≠ 0 := by rw [hd]; norm_num
    have := q_pos co K d (n0 s) w (show 0 < - flow double 3 c by linarith)
    rw [q_neg double co] at this
    linarith
  have cf : 0 < qCoeffR double (fun x => double.r (x ^ 3)) K :=
    dr_pos (div_pos (dr_pos (mul_pos K.uRho_pos (dr_pos (pow_pos K.uV_pos 3)))) K.uQpar_pos)
  have neg : ∀ x, x < 0 → double.r x < 0 := by
    intro x hx
    have := dr_pos (show 0 < -x by linarith)
    rw [double.odd] at this
    linarith
  refine ⟨d, ?_, by rw [hd], by rw [hd], by rw [hd], ?_, ?_⟩
  · intro s
    rw [hd]
    obtain ⟨a, b, e, g⟩ := hd0 s
    exact ⟨a, b, e, g, fun _ => rfl⟩
  · intro s
    unfold heatEachR
    rw [drift]
    exact neg _ (mul_neg_of_pos_of_neg cf (q s))
  · unfold heatTotR across
    simp only [Order.sum, drift]
    exact neg _ (mul_neg_of_pos_of_neg cf (neg _ (add_neg (q _) (q _))))

/-- in double precision -/
theorem C279_double (K : Const) (d : RData) {ps : List String} (h : Present d ps) (hN : ps.length ≤ 10 ^ 9) {T : Order} (hT : T.Of 3)
    (hb : ¬ (d.bx = 0 ∧ d.by_ = 0 ∧ d.bz = 0)) :
    ∃ P Q, pthTot K d.obs "per" ps = .fin P ∧ pthTot K d.obs "par" ps = .fin Q ∧ 0 < P ∧ 0 < Q ∧
      afsqOf K d.obs (pthTot K d.obs "par" ps) (pthTot K d.obs "per" ps) = .fin (1 + mag0 K d P - mag0 K d Q) ∧
      |afsqTotR double T K d ps - (1 + mag0 K d P - mag0 K d Q)| ≤ (7 * ps.length + 11) * (12 / 10 ^ 17) * (1 + mag0 K d P + mag0 K d Q) := by
  have hu : ulp 53 = 1 / 2 ^ 53 := by
    unfold ulp
    norm_num
  have N1 : (ps.length : ℝ) ≤ 10 ^ 9 := by exact_mod_cast hN
  have N0 : (0 : ℝ) ≤ ps.length := Nat.cast_nonneg _
  obtain ⟨a, ha⟩ : ∃ a : ℝ, a = 7 * ps.length + 11 := ⟨_, rfl⟩
  have a2 : a ≤ 10 ^ 12 := by linarith
  have a0 : 0 ≤ a := by linarith
  have hau : a * ulp 53 ≤ 1 / 1000 := by
    rw [hu]
    have : a * (1 / 2 ^ 53) ≤ 10 ^ 12 * (1 / 2 ^ 53) := mul_le_mul_of_nonneg_right a2 (by norm_num)
    refine this.trans ?_
    norm_num
  obtain ⟨P, Q, h1, h2, h3, h4, h5, h6⟩ := C279_accuracy (p := 53) (by norm_num) K d (by norm_num) h hT hb (by rw [← ha]; linarith)
  refine ⟨P, Q, h1, h2, h3, h4, h5, h6.trans ?_⟩
  rw [← ha]
  have pos : ∀ x, 0 < x → 0 ≤ mag0 K d x := fun x hx =>
    div_nonneg (mul_nonneg K.mu0_pos.le (mul_nonneg hx.le K.uPth_pos.le)) (mul_nonneg (bsqR_nonneg d) (sq_nonneg _))
  have p0 := pos P h3
  have q0 := pos Q h4
  apply mul_le_mul_of_nonneg_right _ (by linarith)
  rw [div_le_iff₀ (by linarith)]
  have g1 : ulp 53 ≤ (12 / 10 ^ 17) * (1 - 1 / 1000) := by rw [hu]; norm_num
  calc a * ulp 53 ≤ a * ((12 / 10 ^ 17) * (1 - 1 / 1000)) := mul_le_mul_of_nonneg_left g1 a0
    _ = a * (12 / 10 ^ 17) * (1 - 1 / 1000) := by ring
    _ ≤ _ := mul_le_mul_of_nonneg_left (by linarith) (by positivity)

/-- for example: protons and alphas with T_par > T_per: the exact factor exists and is met to 25 errors -/
example (K : Const) : ∃ P Q, |afsqTotR double xyz K ⟨fun _ => 3, fun _ => 400, fun _ => 0, fun _ => 0, fun _ c => if c = "par" then 60 else 50, 3, 4, 0⟩ ["a", "p1"] -
      (1 + mag0 K ⟨fun _ => 3, fun _ => 400, fun _ => 0, fun _ => 0, fun _ c => if c = "par" then 60 else 50, 3, 4, 0⟩ P -
        mag0 K ⟨fun _ => 3, fun _ => 400, fun _ => 0, fun _ => 0, fun _ c => if c = "par" then 60 else 50, 3, 4, 0⟩ Q)| ≤
      (7 * (["a", "p1"] : List String).length + 11) * (12 / 10 ^ 17) *
        (1 + mag0 K ⟨fun _ => 3, fun _ => 400, fun _ => 0, fun _ => 0, fun _ c => if c = "par" then 60 else 50, 3, 4, 0⟩ P +
          mag0 K ⟨fun _ => 3, fun _ => 400, fun _ => 0, fun _ => 0, fun _ c => if c = "par" then 60 else 50, 3, 4, 0⟩ Q) := by
  obtain ⟨P, Q, -, -, -, -, -, h⟩ := C279_double K ⟨fun _ => 3, fun _ => 400, fun _ => 0, fun _ => 0, fun _ c => if c = "par" then 60 else 50, 3, 4, 0⟩
    (ps := ["a", "p1"]) ⟨by simp, fun _ _ => by norm_num, fun _ _ c _ => by dsimp only; split_ifs <;> norm_num⟩ (by norm_num) (T := xyz)
    (by unfold xyz Order.Of; decide) (by norm_num)
  exact ⟨P, Q, h⟩

/-- for example: isotropic protons and alphas -/
example (K : Const) : caaniR double (.add (.term 0) (.term 1)) xyz xyz (fun x e => double.r (x ^ e)) K
      ⟨fun _ => 3, fun _ => 400, fun _ => 0, fun _ => 0, fun _ _ => 50, 3, 4, 0⟩ ["a", "p1"] =
    caOfR double xyz (fun x e => double.r (x ^ e)) K ⟨fun _ => 3, fun _ => 400, fun _ => 0, fun _ => 0, fun _ _ => 50, 3, 4, 0⟩
      (rhoTotR double (.add (.term 0) (.term 1)) K ⟨fun _ => 3, fun _ => 400, fun _ => 0, fun _ => 0, fun _ _ => 50, 3, 4, 0⟩ ["a", "p1"]) :=
  C279_isotropic_speed _ _ _ _ _ _ _ _ fun _ _ => rfl

/-! ## without rounding: the formulas -/

theorem kahan_exact (l : List ℝ) : kahan exact l = l.sum := by
  have : ∀ (l : List ℝ) (a : ℝ), l.foldl (kahanStep exact) (a, 0) = (a + l.sum, 0) := by
    intro l
    induction l with
    | nil => intro a; simp
    | cons x l ih =>
      intro a
      have e : kahanStep exact (a, 0) x = (a + x, 0) := by
        unfold kahanStep exact
        simp
      rw [List.foldl_cons, e, ih, List.sum_cons, add_assoc]
  unfold kahan
  rw [this]
  simp

theorem across_exact (ps : List String) (f : String → ℝ) {S : Order} (hS : S.Of ps.length) : across exact S ps f = (ps.map f).sum := by
  unfold across
  rw [exact_sum hS, ← of_sum hS (fun i => f (ps.getD i "")), across_sum ps f hS]

theorem com_exact (K : Const) (d : RData) (ps : List String) {S : Order} (hS : S.Of ps.length) (f : String → ℝ) :
    comOfR exact S K d ps f = comR K d ps f := by
  unfold comOfR comR rhoTotR
  rw [across_exact ps _ hS, kahan_exact]
  rfl

/-- the factor and the speed computed without rounding -/
theorem C279_exact (K : Const) (d : RData) (ps : List String) {S T V : Order} (hS : S.Of ps.length) (hT : T.Of 3) (hV : V.Of 3) :
    let P := fun c => (ps.map (pR K d c)).sum
    let rho := (ps.map fun s => d.n s * K.mInMp s).sum
    let f := 1 + mag0 K d (P "per") - mag0 K d (P "par")
    afsqTotR exact T K d ps = f ∧
    caaniR exact S T V (fun x e => x ^ e) K d ps = rho ^ (-(1 / 2) : ℝ) * Real.sqrt (bsqR d) * (K.uB / (Real.sqrt (K.uRho * K.mu0) * K.uV)) * Real.sqrt f := by
  intro P rho f
  have bs : ∀ W : Order, W.Of 3 → W.sum exact (fun i => exact.r (field d i * field d i)) = bsqR d := by
    intro W hW
    rw [exact_sum hW]
    simp only [Finset.sum_range_succ, Finset.sum_range_zero, field, bsqR, exact]
    norm_num
    ring
  have pt : ∀ c, pthTotR exact K d c ps = P c := by
    intro c
    unfold pthTotR
    rw [kahan_exact]
    change _ = (ps.map (pR K d c)).sum
    congr 1
    apply List.map_congr_left
    intro s _
    unfold pthR wsqR pR rhoR exact
    simp only []
    ring
  have e : afsqTotR exact T K d ps = f := by
    unfold afsqTotR afsqOfR
    simp only []
    rw [bs T hT, pt, pt]
    change 1 + (P "per" - P "par") / bsqR d * (K.mu0 * K.uPth / (K.uB * K.uB)) = 1 + mag0 K d (P "per") - mag0 K d (P "par")
    unfold mag0
    have := K.uB_pos.ne'
    by_cases hb : bsqR d = 0
    · simp [hb]
    · field_simp
      ring
  refine ⟨e, ?_⟩
  unfold caaniR
  rw [e]
  unfold caOfR mag rhoTotR
  rw [across_exact ps _ hS, bs V hV]
  rfl

/-- the heat flux computed without rounding is the one of C26 -/
theorem C280_exact (K : Const) (d : RData) (ps : List String) {S T U V : Order} (hS : S.Of ps.length) (hT : T.Of 3) (hU : U.Of 3) (hV : V.Of ps.length) :
    let par := fun s => ((d.vx s - comR K d ps d.vx) * d.bx + (d.vy s - comR K d ps d.vy) * d.by_ + (d.vz s - comR K d ps d.vz) * d.bz) /
      Real.sqrt (V3.nsq d.bx d.by_ d.bz)
    let q := fun s => (K.uRho * K.uV ^ 3 / K.uQpar) * ((par s ^ 3 + 3 / 2 * par s * d.w s "par" ^ 2) * (d.n s * K.mInMp s))
    (∀ s, heatEachR exact S T U (fun x => x ^ 3) K d ps s = q s) ∧ heatTotR exact S T U V (fun x => x ^ 3) K d ps = (ps.map q).sum := by
  intro par q
  have ma : mag exact T (field d) = Real.sqrt (V3.nsq d.bx d.by_ d.bz) := by
    unfold mag
    rw [exact_sum hT]
    simp only [Finset.sum_range_succ, Finset.sum_range_zero, field, V3.nsq, exact]
    norm_num
    congr 1
    ring
  have dr : ∀ s, driftParR exact S T U K d ps s = par s := by
    intro s
    unfold driftParR
    simp only [com_exact K d ps hS]
    rw [exact_sum hU]
    simp only [Finset.sum_range_succ, Finset.sum_range_zero, unit, flow]
    rw [ma]
    simp only [vel, field, exact]
    norm_num
    change _ = ((d.vx s - comR K d ps d.vx) * d.bx + (d.vy s - comR K d ps d.vy) * d.by_ + (d.vz s - comR K d ps d.vz) * d.bz) /
      Real.sqrt (V3.nsq d.bx d.by_ d.bz)
    ring
  have one : ∀ s, qCoeffR exact (fun x => x ^ 3) K * qOfR exact (fun x => x ^ 3) K d s (par s) = q s := by
    intro s
    unfold qCoeffR qOfR rhoR exact
    simp only []
    change _ = (K.uRho * K.uV ^ 3 / K.uQpar) * ((par s ^ 3 + 3 / 2 * par s * d.w s "par" ^ 2) * (d.n s * K.mInMp s))
    ring
  constructor
  · intro s
    unfold heatEachR
    rw [dr]
    exact one s
  · unfold heatTotR
    rw [across_exact ps _ hV]
    simp only [dr]
    change qCoeffR exact (fun x => x ^ 3) K * _ = _
    rw [← List.sum_map_mul_left]
    congr 1
    apply List.map_congr_left
    intro s _
    exact one s

end Rnd
end SW
