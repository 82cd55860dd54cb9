import Verif.RoundElec
import Verif.Props.RoundPhys2
import Verif.Props.RoundInsta
import Verif.Props.PlasmaKinetic

/-!
# C285: estimated electrons with rounding

Specification: the exact estimate is `n_e = sum q_i n_i`, `v_e = sum q_i n_i v_i / n_e` and `w_e = sqrt (n_p / n_e * m_p / m_e) * w_p` (C25).
-/

namespace SW
namespace Rnd

/-! ### specification -/

/-- charge density of the ions -/
noncomputable def chargeDens (K : Const) (d : RData) (ps : List String) : ℝ := (ps.map fun s => d.n s * K.chargeState s).sum

/-- mean of a quantity of the species, weighted by their charge density -/
noncomputable def chargeMean (K : Const) (d : RData) (ps : List String) (f : String → ℝ) : ℝ :=
  (ps.map fun s => f s * (d.n s * K.chargeState s)).sum / chargeDens K d ps

/-- thermal speed of electrons with the pressure of the protons `t` -/
noncomputable def elecSpeed (K : Const) (d : RData) (ps : List String) (t : String) : ℝ :=
  Real.sqrt (d.n t / chargeDens K d ps * (1 / K.mInMp "e") * d.w t "scalar" ^ 2)

/-! ### charges in place of masses: the formulas for the centre of mass apply -/

/-- constants whose masses are the charge states -/
noncomputable def byCharge (K : Const) : Const :=
  { K with
    mInMp := fun s => if 0 < K.chargeState s then K.chargeState s else 1
    mInMp_pos := fun s => by split_ifs with h; exacts [h, one_pos] }

theorem byCharge_rho (R : Rounding) {K : Const} (d : RData) {s : String} (h : 0 < K.chargeState s) : rhoR R (byCharge K) d s = chargeDensR R K d s := by
  unfold rhoR chargeDensR byCharge
  simp only [if_pos h]

theorem byCharge_r {K : Const} (d : RData) {s : String} (h : 0 < K.chargeState s) : rR (byCharge K) d s = d.n s * K.chargeState s := by
  unfold rR byCharge
  simp only [if_pos h]

section
variable {p : ℕ} (hp : 1 ≤ p) (K : Const) (d : RData)

theorem charge_sum {ps : List String} (hz : ∀ s ∈ ps, 0 < K.chargeState s) : (ps.map (rR (byCharge K) d)).sum = chargeDens K d ps := by
  unfold chargeDens
  congr 1
  exact List.map_congr_left fun s hs => byCharge_r d (hz s hs)

theorem across_charge (R : Rounding) {ps : List String} (hz : ∀ s ∈ ps, 0 < K.chargeState s) {S : Order} (hS : S.Of ps.length) :
    across R S ps (chargeDensR R K d) = rhoTotR R S (byCharge K) d ps := by
  unfold rhoTotR across
  have key : ∀ i ∈ S.terms, chargeDensR R K d (ps.getD i "") = rhoR R (byCharge K) d (ps.getD i "") := by
    intro i hi
    have hi' := (mem_of hS i).mp hi
    have e : ps.getD i "" = ps[i] := by simp [List.getD, List.getElem?_eq_getElem hi']
    rw [e]
    exact (byCharge_rho R d (hz _ (List.getElem_mem hi'))).symm
  exact le_antisymm (sum_mono R _ _ S fun i hi => (key i hi).le) (sum_mono R _ _ S fun i hi => (key i hi).ge)

/-- the order of a sum of one term -/
theorem of_one {S : Order} (hS : S.Of 1) : S = .term 0 := by
  have h := hS.length_eq
  cases S with
  | term i =>
    have := (mem_of hS i).mp (by simp [Order.terms])
    rw [show i = 0 by omega]
  | add a b =>
    have ne : ∀ T : Order, 1 ≤ T.terms.length := by
      intro T
      induction T with
      | term i => simp [Order.terms]
      | add a b iha ihb => simp only [Order.terms, List.length_append]; omega
    have h1 := ne a
    have h2 := ne b
    simp only [Order.terms, List.length_append, List.length_range] at h
    omega

theorem single {ps : List String} (h : ps.length = 1) : ∃ s, ps = [s] := List.length_eq_one_iff.mp h

theorem elecN_rho (R : Rounding) {ps : List String} (hz : ∀ s ∈ ps, 0 < K.chargeState s) {S : Order} (hS : S.Of ps.length) :
    elecNR R S K d ps = rhoTotR R S (byCharge K) d ps := by
  unfold elecNR
  split_ifs with h
  · rw [← across_charge K d R hz hS]
    rw [h] at hS
    rw [of_one hS]
    obtain ⟨s, rfl⟩ := single h
    rfl
  · exact across_charge K d R hz hS

theorem elecV_com (R : Rounding) {ps : List String} (hz : ∀ s ∈ ps, 0 < K.chargeState s) {S : Order} (hS : S.Of ps.length) (f : String → ℝ) :
    elecVR R S K d ps f = comOfR R S (byCharge K) d ps f := by
  unfold elecVR comOfR
  rw [elecN_rho K d R hz hS]
  congr 2
  unfold fluxR
  split_ifs with h
  · obtain ⟨s, rfl⟩ := single h
    simp only [List.headD_cons, List.map_cons, List.map_nil]
    rw [kahan_single, R.idem, R.idem, byCharge_rho R d (hz s (by simp))]
  · congr 1
    apply List.map_congr_left
    intro s hs
    rw [byCharge_rho R d (hz s hs)]

theorem mean_com {ps : List String} (hz : ∀ s ∈ ps, 0 < K.chargeState s) (f : String → ℝ) : comR (byCharge K) d ps f = chargeMean K d ps f := by
  unfold comR chargeMean
  rw [charge_sum K d hz]
  congr 2
  apply List.map_congr_left
  intro s hs
  rw [byCharge_r d (hz s hs)]

/-! ## C285 -/

/-- the exact estimate is the specification -/
theorem C285_value {ps : List String} {t : String} (ht : protonOf ps = .ok t) (hm : t ∈ ps) (hq : chargeDens K d ps ≠ 0) (hpos : 0 ≤ d.n t / chargeDens K d ps) :
    estimateElectrons K d.obs ps = .ok ⟨.fin (chargeDens K d ps), V3.ofReal (chargeMean K d ps d.vx) (chargeMean K d ps d.vy) (chargeMean K d ps d.vz),
      .fin (elecSpeed K d ps t)⟩ := by
  have c : (ps.map fun s => K.chargeState s * d.n s).sum = chargeDens K d ps := by
    unfold chargeDens
    simp only [mul_comm]
  have cf : ∀ f : String → ℝ, (ps.map fun s => K.chargeState s * d.n s * f s).sum = (ps.map fun s => f s * (d.n s * K.chargeState s)).sum := by
    intro f
    congr 1
    apply List.map_congr_left
    intro s _
    ring
  obtain ⟨e, ne, vx, vy, vz, we, h1, h2, h3, h4, h5, h6, h7, h8, h9, h10⟩ :=
    C25_neutral K d.obs ps t ht d (List.ne_nil_of_mem hm) hm (d.measured ps) (by rw [c]; exact hq) (by rw [c]; exact hpos)
  rw [c] at h6
  rw [cf] at h7 h8 h9
  subst h6
  rw [h1]
  obtain ⟨n, v, w⟩ := e
  simp only at h2 h3 h4
  subst h2 h3 h4
  have k : ∀ {x : ℝ} {f : String → ℝ}, chargeDens K d ps * x = (ps.map fun s => f s * (d.n s * K.chargeState s)).sum → x = chargeMean K d ps f := by
    intro x f h
    unfold chargeMean
    rw [eq_div_iff hq, mul_comm]
    exact h
  rw [k h7, k h8, k h9]
  have hw : we = elecSpeed K d ps t := by
    unfold elecSpeed
    have m := (K.mInMp_pos "e").ne'
    rw [← Real.sqrt_sq h5]
    congr 1
    field_simp
    field_simp at h10
    linarith
  rw [hw]

/-- density: at most one relative error for each species -/
theorem C285_density {ps : List String} (h : Present d ps) (hz : ∀ s ∈ ps, 0 < K.chargeState s) {S : Order} (hS : S.Of ps.length) :
    Near (ulp p) ps.length (chargeDens K d ps) (elecNR (fmt p hp) S K d ps) := by
  obtain ⟨x, hx, nx⟩ := C257_density hp (byCharge K) d h hS
  rw [rhoTot_fin (d.measured ps)] at hx
  injection hx with hx
  have hx' : (ps.map (rR (byCharge K) d)).sum = x := hx
  rw [elecN_rho K d _ hz hS, ← charge_sum K d hz, hx']
  exact nx

/-- velocity: accurate to a small part of the mean size of the component, weighted by charge -/
theorem C285_velocity (h6 : 6 ≤ p) {ps : List String} (h : Present d ps) (hz : ∀ s ∈ ps, 0 < K.chargeState s) {S : Order} (hS : S.Of ps.length)
    (f : String → ℝ) :
    |elecVR (fmt p hp) S K d ps f - chargeMean K d ps f| ≤
      ((1 + ulp p) ^ 3 * ((1 + 7 * ulp p) / (1 - ulp p)) ^ ps.length - 1) * chargeMean K d ps (fun s => |f s|) := by
  rw [elecV_com K d _ hz hS, ← mean_com K d hz, ← mean_com K d hz]
  exact C258_accuracy hp (byCharge K) d h6 h hS f

/-- thermal speed: at most half an error for each species, half those of the power, and three -/
theorem C285_speed {j : ℝ} {pw : ℝ → ℝ → ℝ} (hw : PowerOk p j pw) {ps : List String} {t : String} (h : Present d ps) (hm : t ∈ ps)
    (hz : ∀ s ∈ ps, 0 < K.chargeState s) {S : Order} (hS : S.Of ps.length) :
    Near (ulp p) (ps.length / 2 + j / 2 + 3) (elecSpeed K d ps t) (elecWR (fmt p hp) S pw K d ps t) := by
  obtain ⟨u0, u1⟩ := ulp_range hp
  have u1' : ulp p < 1 := by linarith
  have h1 := near_round hp (near_div u0.le u1' (near_refl u0.le u1' (h.n t hm)) (C285_density hp K d h hz hS))
  have h2 := near_power hp hw (-1) (near_refl u0.le u1' (K.mInMp_pos "e"))
  have h3 := near_round hp (near_mul u0.le u1' h1 h2)
  have w0 := h.w t hm "scalar" (by simp)
  have h4 := near_one hp (mul_pos w0 w0)
  have h5 := near_round hp (near_sqrt u0.le u1' (near_round hp (near_mul u0.le u1' h3 h4)))
  have e : Real.sqrt (d.n t / chargeDens K d ps * K.mInMp "e" ^ (-1 : ℝ) * (d.w t "scalar" * d.w t "scalar")) = elecSpeed K d ps t := by
    unfold elecSpeed
    rw [Real.rpow_neg_one, one_div, pow_two]
  rw [e] at h5
  refine near_up u0.le u1' ?_ h5
  norm_num
  linarith

/-- reversing all velocities reverses the computed velocity exactly -/
theorem C285_reverse (R : Rounding) (S : Order) (ps : List String) (f : String → ℝ) : elecVR R S K d ps (fun s => - f s) = - elecVR R S K d ps f := by
  unfold elecVR fluxR
  split_ifs with h
  · rw [neg_mul, R.odd, neg_div, R.odd]
  · have e : (ps.map fun s => R.r (- f s * chargeDensR R K d s)) = (ps.map fun s => R.r (f s * chargeDensR R K d s)).map fun x => - x := by
      rw [List.map_map]
      apply List.map_congr_left
      intro s _
      simp only [Function.comp_apply]
      rw [← R.odd]
      congr 1
      ring
    rw [e, kahan_neg, neg_div, R.odd]

/-- at rest: exactly zero -/
theorem C285_rest (R : Rounding) (S : Order) (ps : List String) : elecVR R S K d ps (fun _ => 0) = 0 := by
  have := C285_reverse K d R S ps (fun _ => 0)
  simp only [neg_zero] at this
  linarith

/-- if no ion moves backward, the electrons do not -/
theorem C285_sign (h6 : 6 ≤ p) {ps : List String} (hn : ∀ s ∈ ps, 0 ≤ d.n s) (hz : ∀ s ∈ ps, 0 < K.chargeState s) {S : Order} (hS : S.Of ps.length)
    (f : String → ℝ) (hf : ∀ s ∈ ps, 0 ≤ f s) : 0 ≤ elecVR (fmt p hp) S K d ps f := by
  rw [elecV_com K d _ hz hS]
  exact C258_sign hp (byCharge K) d h6 hn hS f hf

/-- the row is masked iff there are no ions -/
theorem C285_masked (pw : ℝ → ℝ → ℝ) {ps : List String} (t : String) (hn : ∀ s ∈ ps, 0 ≤ d.n s) (hz : ∀ s ∈ ps, 0 < K.chargeState s)
    {S : Order} (hS : S.Of ps.length) : elecRowR (fmt p hp) S pw K d ps t = none ↔ ∀ s ∈ ps, d.n s = 0 := by
  have c0 : ∀ s ∈ ps, 0 ≤ rhoR (fmt p hp) (byCharge K) d s := fun s hs => r_nonneg _ (mul_nonneg (hn s hs) ((byCharge K).mInMp_pos s).le)
  have get : ∀ i ∈ S.terms, ps.getD i "" ∈ ps := by
    intro i hi
    have hi' := (mem_of hS i).mp hi
    have e : ps.getD i "" = ps[i] := by simp [List.getD, List.getElem?_eq_getElem hi']
    rw [e]
    exact List.getElem_mem hi'
  have iff : elecRowR (fmt p hp) S pw K d ps t = none ↔ elecNR (fmt p hp) S K d ps = 0 := by
    unfold elecRowR
    split_ifs with h <;> simp [h]
  rw [iff, elecN_rho K d _ hz hS]
  constructor
  · intro h s hs
    by_contra hc
    obtain ⟨i, hi, rfl⟩ := List.mem_iff_getElem.mp hs
    have pos : 0 < rhoR (fmt p hp) (byCharge K) d ps[i] :=
      fmt_pos hp (mul_pos (lt_of_le_of_ne (hn _ hs) (Ne.symm hc)) ((byCharge K).mInMp_pos _))
    have g := sum_ge (fmt p hp) (fun i => rhoR (fmt p hp) (byCharge K) d (ps.getD i "")) S (fun i hi => c0 _ (get i hi)) (fun i _ => (fmt p hp).idem _) i
      ((mem_of hS i).mpr hi)
    have e : ps.getD i "" = ps[i] := by simp [List.getD, List.getElem?_eq_getElem hi]
    simp only [e] at g
    have h' : S.sum (fmt p hp) (fun i => rhoR (fmt p hp) (byCharge K) d (ps.getD i "")) = 0 := h
    linarith
  · intro h
    have z : ∀ i ∈ S.terms, rhoR (fmt p hp) (byCharge K) d (ps.getD i "") = 0 := by
      intro i hi
      unfold rhoR
      rw [h _ (get i hi), zero_mul, r_zero]
    apply le_antisymm
    · have := sum_mono (fmt p hp) (fun i => rhoR (fmt p hp) (byCharge K) d (ps.getD i "")) (fun i => - rhoR (fmt p hp) (byCharge K) d (ps.getD i "")) S
        (fun i hi => by simp only [z i hi, neg_zero]; exact le_rfl)
      rw [sum_neg] at this
      unfold rhoTotR across
      linarith
    · exact sum_nonneg _ _ _ fun i hi => (z i hi).ge

theorem kahan_scale (k : ℤ) (l : List ℝ) : kahan (fmt p hp) (l.map fun x => 2 ^ k * x) = 2 ^ k * kahan (fmt p hp) l := by
  have : ∀ (l : List ℝ) (s c : ℝ), (l.map fun x => 2 ^ k * x).foldl (kahanStep (fmt p hp)) (2 ^ k * s, 2 ^ k * c) =
      (2 ^ k * (l.foldl (kahanStep (fmt p hp)) (s, c)).1, 2 ^ k * (l.foldl (kahanStep (fmt p hp)) (s, c)).2) := by
    intro l
    induction l with
    | nil => intro s c; rfl
    | cons x l ih =>
      intro s c
      simp only [List.map_cons, List.foldl_cons]
      have e : kahanStep (fmt p hp) (2 ^ k * s, 2 ^ k * c) (2 ^ k * x) = (2 ^ k * (kahanStep (fmt p hp) (s, c) x).1, 2 ^ k * (kahanStep (fmt p hp) (s, c) x).2) := by
        simp only [kahanStep, ← mul_sub, ← mul_add, fmt_scale hp]
      rw [e, ih]
  have h := this l 0 0
  rw [mul_zero] at h
  unfold kahan
  rw [h]

/-- all densities in a unit that is a power of two as large: the density is rescaled, velocity and thermal speed are the same numbers -/
theorem C285_unit (k : ℤ) (S : Order) (pw : ℝ → ℝ → ℝ) (ps : List String) (t : String) (f : String → ℝ) :
    let d' := { d with n := fun s => 2 ^ k * d.n s }
    elecNR (fmt p hp) S K d' ps = 2 ^ k * elecNR (fmt p hp) S K d ps ∧ elecVR (fmt p hp) S K d' ps f = elecVR (fmt p hp) S K d ps f ∧
      elecWR (fmt p hp) S pw K d' ps t = elecWR (fmt p hp) S pw K d ps t := by
  intro d'
  have k0 : (2 : ℝ) ^ k ≠ 0 := zpow_ne_zero _ (by norm_num)
  have c : ∀ s, chargeDensR (fmt p hp) K d' s = 2 ^ k * chargeDensR (fmt p hp) K d s := by
    intro s
    unfold chargeDensR
    rw [← fmt_scale hp, ← mul_assoc]
  have n : elecNR (fmt p hp) S K d' ps = 2 ^ k * elecNR (fmt p hp) S K d ps := by
    unfold elecNR across
    split_ifs
    · exact c _
    · rw [← sum_scale hp]
      simp only [c]
  have v : fluxR (fmt p hp) K d' ps f = 2 ^ k * fluxR (fmt p hp) K d ps f := by
    unfold fluxR
    split_ifs
    · rw [c, ← fmt_scale hp, mul_left_comm]
    · rw [← kahan_scale hp, List.map_map]
      congr 1
      apply List.map_congr_left
      intro s _
      rw [Function.comp_apply, c, ← fmt_scale hp, mul_left_comm]
  refine ⟨n, ?_, ?_⟩
  · unfold elecVR
    rw [n, v, mul_div_mul_left _ _ k0]
  · unfold elecWR
    rw [n]
    change (fmt p hp).r (Real.sqrt ((fmt p hp).r ((fmt p hp).r ((fmt p hp).r (2 ^ k * d.n t / (2 ^ k * elecNR (fmt p hp) S K d ps)) * _) * _))) = _
    rw [mul_div_mul_left _ _ k0]

/-- without rounding: C25 -/
theorem C285_exact {ps : List String} {t : String} (ht : protonOf ps = .ok t) (hm : t ∈ ps) (hz : ∀ s ∈ ps, 0 < K.chargeState s)
    (hq : chargeDens K d ps ≠ 0) (hpos : 0 ≤ d.n t / chargeDens K d ps) {S : Order} (hS : S.Of ps.length) :
    ∃ x : ElecRow, elecR exact S (fun x e => x ^ e) K d ps = .ok (some x) ∧
      estimateElectrons K d.obs ps = .ok ⟨.fin x.n, V3.ofReal x.vx x.vy x.vz, .fin x.w⟩ := by
  rw [C285_value K d ht hm hq hpos]
  have n : elecNR exact S K d ps = chargeDens K d ps := by
    rw [elecN_rho K d _ hz hS, ← charge_sum K d hz]
    unfold rhoTotR
    rw [across_exact ps _ hS]
    rfl
  have v : ∀ f, elecVR exact S K d ps f = chargeMean K d ps f := by
    intro f
    rw [elecV_com K d _ hz hS, com_exact (byCharge K) d ps hS, mean_com K d hz]
  refine ⟨⟨chargeDens K d ps, chargeMean K d ps d.vx, chargeMean K d ps d.vy, chargeMean K d ps d.vz, elecSpeed K d ps t⟩, ?_, rfl⟩
  unfold elecR
  rw [ht]
  simp only [elecRowR, n, v, if_neg hq]
  congr 3
  unfold elecWR elecSpeed
  rw [n]
  simp only [exact]
  rw [Real.rpow_neg_one, one_div, pow_two]

/-- the same plasmas are refused as without rounding -/
theorem C285_errors (R : Rounding) (S : Order) (pw : ℝ → ℝ → ℝ) (ps : List String) (e : PyErr) :
    elecR R S pw K d ps = .error e ↔ estimateElectrons K d.obs ps = .error e := by
  unfold elecR estimateElectrons
  cases protonOf ps <;> simp

end

/-- what rounding breaks: in a plasma of protons alone, the estimated electrons need not move with the protons.
Protons of density 0.1 that move with 3 get electrons of the same density that move faster -/
theorem C285_together_violated (K : Const) (h1 : K.chargeState "p1" = 1) (pw : ℝ → ℝ → ℝ) :
    ∃ (d : RData) (x : ElecRow), d.n "p1" = double.r (1 / 10) ∧ d.vx "p1" = 3 ∧ elecR double (.term 0) pw K d ["p1"] = .ok (some x) ∧
      x.n = d.n "p1" ∧ x.vx = 3 + 2 ^ (-51 : ℤ) := by
  obtain ⟨x, hx⟩ : ∃ x : ℝ, x = 3602879701896397 * 2 ^ (-55 : ℤ) := ⟨_, rfl⟩
  have tenth : double.r (1 / 10) = x := by
    have t := binary_eval (p := 53) (1 / 10) 7205759403792794 (-56) (by norm_num) (by norm_num) (by rw [abs_lt]; norm_num)
    have e : binary 53 (1 / 10) = x := by rw [t, hx]; norm_num
    exact e
  have keepx : double.r x = x := by rw [← tenth]; exact double.idem _
  have three : double.r (3 * x) = 5404319552844596 * 2 ^ (-54 : ℤ) := by
    have t := binary_eval' (p := 53) (3 * x) 5404319552844596 (-54) (by rw [hx]; norm_num) (by rw [hx]; norm_num) (by
      rw [hx]
      have := rne_odd_tie 5404319552844595 (by norm_num)
      norm_num at this ⊢
      exact this)
    have e : binary 53 (3 * x) = 5404319552844596 * 2 ^ (-54 : ℤ) := by rw [t]; norm_num
    exact e
  have x0 : x ≠ 0 := by rw [hx]; norm_num
  obtain ⟨d, hd⟩ : ∃ d : RData, d = ⟨fun _ => x, fun _ => 3, fun _ => 0, fun _ => 0, fun _ _ => 50, 3, 4, 0⟩ := ⟨_, rfl⟩
  have cd : chargeDensR double K d "p1" = x := by unfold chargeDensR; rw [hd, h1]; simp only [mul_one]; exact keepx
  have en : elecNR double (.term 0) K d ["p1"] = x := by unfold elecNR; simp [cd]
  refine ⟨d, ⟨x, 3 + 2 ^ (-51 : ℤ), elecVR double (.term 0) K d ["p1"] d.vy, elecVR double (.term 0) K d ["p1"] d.vz, elecWR double (.term 0) pw K d ["p1"] "p1"⟩,
    by rw [hd, tenth], by rw [hd], ?_, by rw [hd], rfl⟩
  have v : elecVR double (.term 0) K d ["p1"] d.vx = 3 + 2 ^ (-51 : ℤ) := by
    unfold elecVR
    rw [en]
    unfold fluxR
    simp only [List.length_cons, List.length_nil, zero_add, if_true, List.headD_cons, cd]
    have : d.vx "p1" = 3 := by rw [hd]
    rw [this, three, hx]
    have t := binary_eval (p := 53) (5404319552844596 * 2 ^ (-54 : ℤ) / (3602879701896397 * 2 ^ (-55 : ℤ))) 6755399441055745 (-51) (by norm_num) (by norm_num)
      (by rw [abs_lt]; norm_num)
    have e : binary 53 (5404319552844596 * 2 ^ (-54 : ℤ) / (3602879701896397 * 2 ^ (-55 : ℤ))) = 3 + 2 ^ (-51 : ℤ) := by rw [t]; norm_num
    exact e
  have pr : protonOf ["p1"] = .ok "p1" := by decide
  unfold elecR
  rw [pr]
  simp only [elecRowR, en, if_neg x0, v]

/-- in double precision, for a row of up to a thousand species: density and velocity -/
theorem C285_double (K : Const) (d : RData) {ps : List String} (h : Present d ps) (hN : ps.length ≤ 1000) (hz : ∀ s ∈ ps, 0 < K.chargeState s) {S : Order}
    (hS : S.Of ps.length) (f : String → ℝ) :
    |elecNR double S K d ps - chargeDens K d ps| ≤ ps.length * (12 / 10 ^ 17) * chargeDens K d ps ∧
    |elecVR double S K d ps f - chargeMean K d ps f| ≤ (8 * ps.length + 3) * (12 / 10 ^ 17) * chargeMean K d ps (fun s => |f s|) := by
  have l1 : (1 : ℝ) ≤ ps.length := by exact_mod_cast List.length_pos_iff.mpr h.some
  have l2 : (ps.length : ℝ) ≤ 10 ^ 12 := by
    have : (ps.length : ℝ) ≤ 1000 := by exact_mod_cast hN
    linarith
  constructor
  · exact C257_double l1 l2 (C285_density (p := 53) (by norm_num) K d h hz hS)
  · refine (C285_velocity (p := 53) (by norm_num) K d (by norm_num) h hz hS f).trans ?_
    apply mul_le_mul_of_nonneg_right (C258_double ps.length (by omega))
    have c0 : ∀ s ∈ ps, 0 ≤ d.n s * K.chargeState s := fun s hs => mul_nonneg (h.n s hs).le (hz s hs).le
    apply div_nonneg
    · apply List.sum_nonneg
      intro x hx
      obtain ⟨s, hs, rfl⟩ := List.mem_map.mp hx
      exact mul_nonneg (abs_nonneg _) (c0 s hs)
    · apply List.sum_nonneg
      intro x hx
      obtain ⟨s, hs, rfl⟩ := List.mem_map.mp hx
      exact c0 s hs

/-- protons and alphas: the hypotheses hold -/
example : |elecNR double (.add (.term 0) (.term 1)) exK exD ["a", "p1"] - chargeDens exK exD ["a", "p1"]| ≤
    (["a", "p1"].length : ℝ) * (12 / 10 ^ 17) * chargeDens exK exD ["a", "p1"] := by
  have h : Present exD ["a", "p1"] := by
    refine ⟨by simp, ?_, ?_⟩
    · intro s hs
      simp only [List.mem_cons, List.not_mem_nil, or_false] at hs
      rcases hs with rfl | rfl <;> simp [exD]
    · intro s hs c hc
      simp only [List.mem_cons, List.not_mem_nil, or_false] at hs hc
      rcases hs with rfl | rfl <;> rcases hc with rfl | rfl | rfl <;> simp [exD]
  refine (C285_double exK exD h (by simp) ?_ (by simp [Order.Of, Order.terms, List.range_succ]) exD.vx).1
  intro s hs
  simp only [List.mem_cons, List.not_mem_nil, or_false] at hs
  rcases hs with rfl | rfl <;> simp [exK]

example : ∃ x : ElecRow, elecR exact (.add (.term 0) (.term 1)) (fun x e => x ^ e) exK exD ["a", "p1"] = .ok (some x) := by
  have c : 0 < chargeDens exK exD ["a", "p1"] := by
    simp [chargeDens, exK, exD]
    norm_num
  obtain ⟨x, hx, -⟩ := C285_exact exK exD (ps := ["a", "p1"]) (t := "p1") (by decide) (by simp)
    (by
      intro s hs
      simp only [List.mem_cons, List.not_mem_nil, or_false] at hs
      rcases hs with rfl | rfl <;> simp [exK])
    c.ne' (div_nonneg (by simp [exD]) c.le) (S := .add (.term 0) (.term 1)) (by simp [Order.Of, Order.terms, List.range_succ])
  exact ⟨x, hx⟩

end Rnd
end SW
