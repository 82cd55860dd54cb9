import Verif.PlasmaPhys
import Verif.Props.PlasmaFlow

/-!
# Properties C22-C27, C95 (collisions, VDF ratio, electrons, heat flux)
-/

namespace SW
open Classical

variable (K : Const) (o : Obs)

/-- concrete constants for the non-vacuity examples: alphas have mass 4 and charge 2, electrons mass 1/1836 -/
noncomputable def exK : Const where
  mInMp := fun s => if s = "a" then 4 else if s = "e" then 1 / 1836 else 1
  chargeState := fun s => if s = "a" then 2 else if s = "e" then -1 else 1
  charge := fun s => if s = "a" then 2 else if s = "e" then -1 else 1
  m := fun s => if s = "a" then 4 else if s = "e" then 1 / 1836 else 1
  mAmu := fun s => if s = "a" then 4 else if s = "e" then 1 / 1836 else 1
  mu0 := 1
  e0 := 1
  kbJ := 1
  kbEV := 1
  gamma := 5 / 3
  uB := 1
  uV := 1000
  uPth := 1
  uT := 1
  uN := 1
  uRho := 1
  uNuc := 1
  uQpar := 1
  uS := 1
  erf := fun x => x
  mInMp_pos := by intro s; split_ifs <;> norm_num
  m_pos := by intro s; split_ifs <;> norm_num
  mAmu_pos := by intro s; split_ifs <;> norm_num
  mu0_pos := by norm_num
  e0_pos := by norm_num
  kbJ_pos := by norm_num
  kbEV_pos := by norm_num
  gamma_pos := by norm_num
  uB_pos := by norm_num
  uV_pos := by norm_num
  uPth_pos := by norm_num
  uT_pos := by norm_num
  uN_pos := by norm_num
  uRho_pos := by norm_num
  uNuc_pos := by norm_num
  uQpar_pos := by norm_num
  uS_pos := by norm_num

theorem twoSpecies_ok {ions : List String} {a b : String} (ha : Valid ions [a]) (hb : Valid ions [b]) :
    twoSpecies ions a b = .ok (a, b) := by
  have h1 := chk_join ha
  have h2 := chk_join hb
  rw [pyJoin_singleton] at h1 h2
  unfold twoSpecies
  rw [h1, h2]
  simp [pySorted, ha.avail a (by simp), hb.avail b (by simp)]

theorem pair_valid {ions : List String} {a b : String} (h : Valid ions [a, b]) :
    Valid ions [a] ∧ Valid ions [b] ∧ a ≠ b :=
  ⟨h.single (by simp), h.single (by simp), by have := h.nodup; simpa using this⟩

/-! ## C22 -/

/-- C22: the Coulomb logarithm is symmetric for any two species and any data. -/
theorem C22_lnlambda_symmetric (ions : List String) (a b : String) (ha : Valid ions [a]) (hb : Valid ions [b]) :
    lnlambda K o ions a b = lnlambda K o ions b a ∧ ∃ x, lnlambda K o ions a b = .ok x := by
  have e : lnlambdaOf K o a b = lnlambdaOf K o b a := by
    unfold lnlambdaOf
    simp only []
    rw [Fl.add_comm' (o.n a * Fl.fin K.uN * Fl.fin (K.chargeState a ^ 2) /
      (tempS K o "scalar" a * Fl.fin K.uT * Fl.fin K.kbEV)),
      Fl.add_comm' (Fl.fin (K.mAmu a) * (tempS K o "scalar" b * Fl.fin K.uT * Fl.fin K.kbEV)),
      mul_comm (K.chargeState a), add_comm (K.mAmu a)]
  unfold lnlambda
  rw [twoSpecies_ok ha hb, twoSpecies_ok hb ha]
  simp only [e]
  exact ⟨trivial, _, rfl⟩

/-- value of the Coulomb logarithm for measured, positive densities and thermal speeds and like charges -/
theorem lnlambda_fin (d : RData) (a b : String) (hm : Measured o [a, b] d) (hna : 0 < d.n a) (hnb : 0 < d.n b)
    (hwa : 0 < d.w a "scalar") (hwb : 0 < d.w b "scalar") (hz : 0 < K.chargeState a * K.chargeState b) :
    ∃ L : ℝ, lnlambdaOf K o a b = .fin L := by
  have hz0 := hz.ne'
  have za : K.chargeState a ≠ 0 := left_ne_zero_of_mul hz0
  have hu := K.uN_pos; have hT := K.uT_pos; have hk := K.kbEV_pos; have hkJ := K.kbJ_pos; have hv := K.uV_pos
  have hA := K.mAmu_pos a; have hB := K.mAmu_pos b; have hma := K.m_pos a; have hmb := K.m_pos b
  have ta : 0 < tR K d "scalar" a * K.uT * K.kbEV := by unfold tR; positivity
  have tb : 0 < tR K d "scalar" b * K.uT * K.kbEV := by unfold tR; positivity
  unfold lnlambdaOf
  simp only []
  rw [tempS_fin hm (c := "scalar") (by simp) (show a ∈ [a, b] by simp),
    tempS_fin hm (c := "scalar") (by simp) (show b ∈ [a, b] by simp), hm.n a (by simp), hm.n b (by simp)]
  simp only [Fl.fin_mul]
  have hd : K.mAmu a * (tR K d "scalar" b * K.uT * K.kbEV) + K.mAmu b * (tR K d "scalar" a * K.uT * K.kbEV) ≠ 0 := by
    positivity
  rw [Fl.fin_div _ _ ta.ne', Fl.fin_div _ _ tb.ne', Fl.fin_add, Fl.fin_add, Fl.sqrt_fin _ (by positivity),
    Fl.fin_div _ _ hd, Fl.fin_mul, Fl.log_fin, Fl.fin_sub]
  · exact ⟨_, rfl⟩
  · have hr : 0 < d.n a * K.uN * K.chargeState a ^ 2 / (tR K d "scalar" a * K.uT * K.kbEV) +
        d.n b * K.uN * K.chargeState b ^ 2 / (tR K d "scalar" b * K.uT * K.kbEV) := by positivity
    have := Real.sqrt_pos.mpr hr
    positivity

/-- C95: between an electron and an ion (opposite charges) the Coulomb logarithm is always NaN. -/
theorem C95_opposite_charges_nan (ions : List String) (d : RData) (a b : String) (h : Valid ions [a, b])
    (hm : Measured o [a, b] d) (hna : 0 < d.n a) (hnb : 0 < d.n b)
    (hwa : 0 < d.w a "scalar") (hwb : 0 < d.w b "scalar") (hz : K.chargeState a * K.chargeState b < 0) :
    lnlambda K o ions a b = .ok .nan := by
  have hz0 := hz.ne
  have za : K.chargeState a ≠ 0 := left_ne_zero_of_mul hz0
  have hu := K.uN_pos; have hT := K.uT_pos; have hk := K.kbEV_pos; have hkJ := K.kbJ_pos; have hv := K.uV_pos
  have hA := K.mAmu_pos a; have hB := K.mAmu_pos b; have hma := K.m_pos a; have hmb := K.m_pos b
  have ta : 0 < tR K d "scalar" a * K.uT * K.kbEV := by unfold tR; positivity
  have tb : 0 < tR K d "scalar" b * K.uT * K.kbEV := by unfold tR; positivity
  obtain ⟨va, vb, -⟩ := pair_valid h
  unfold lnlambda
  rw [twoSpecies_ok va vb]
  simp only []
  congr 1
  unfold lnlambdaOf
  simp only []
  rw [tempS_fin hm (c := "scalar") (by simp) (show a ∈ [a, b] by simp),
    tempS_fin hm (c := "scalar") (by simp) (show b ∈ [a, b] by simp), hm.n a (by simp), hm.n b (by simp)]
  simp only [Fl.fin_mul]
  have hd : 0 < K.mAmu a * (tR K d "scalar" b * K.uT * K.kbEV) +
      K.mAmu b * (tR K d "scalar" a * K.uT * K.kbEV) := by positivity
  rw [Fl.fin_div _ _ ta.ne', Fl.fin_div _ _ tb.ne', Fl.fin_add, Fl.fin_add, Fl.sqrt_fin _ (by positivity),
    Fl.fin_div _ _ hd.ne', Fl.fin_mul]
  have hr : 0 < d.n a * K.uN * K.chargeState a ^ 2 / (tR K d "scalar" a * K.uT * K.kbEV) +
        d.n b * K.uN * K.chargeState b ^ 2 / (tR K d "scalar" b * K.uT * K.kbEV) := by positivity
  have hs := Real.sqrt_pos.mpr hr
  have hneg : K.chargeState a * K.chargeState b * (K.mAmu a + K.mAmu b) /
      (K.mAmu a * (tR K d "scalar" b * K.uT * K.kbEV) + K.mAmu b * (tR K d "scalar" a * K.uT * K.kbEV)) *
      Real.sqrt (d.n a * K.uN * K.chargeState a ^ 2 / (tR K d "scalar" a * K.uT * K.kbEV) +
        d.n b * K.uN * K.chargeState b ^ 2 / (tR K d "scalar" b * K.uT * K.kbEV)) < 0 := by
    apply mul_neg_of_neg_of_pos _ hs
    apply div_neg_of_neg_of_pos _ hd
    exact mul_neg_of_neg_of_pos hz (by positivity)
  show Fl.fin 29.9 - (if _ < _ then Fl.nan else _) = _
  rw [if_pos hneg]; rfl

/-- squared relative drift in SI -/
noncomputable def dsq (d : RData) (a b : String) : ℝ :=
  (d.vx a - d.vx b) ^ 2 + (d.vy a - d.vy b) ^ 2 + (d.vz a - d.vz b) ^ 2

/-- the part of the collision rate that is the same for `ab` and `ba` (Hernandez & Marsch 1985, Eq. 18) -/
noncomputable def nuSym (K : Const) (d : RData) (a b : String) (L : ℝ) : ℝ :=
  let wab := Real.sqrt (d.w a "par" ^ 2 + d.w b "par" ^ 2) * K.uV
  let x := Real.sqrt (dsq d a b) * K.uV / wab
  K.charge a ^ 2 * K.charge b ^ 2 / (4 * Real.pi * K.e0 ^ 2 * (K.m a * K.m b / (K.m a + K.m b))) * K.uN * L *
    ((K.erf x - x * (2 / Real.sqrt Real.pi * Real.exp (-x ^ 2))) / x ^ 3) / wab ^ 3 / K.uNuc

theorem nuab_fin (d : RData) (a b : String) (hm : Measured o [a, b] d)
    (hwa : 0 < d.w a "par") (hwb : 0 < d.w b "par") (hd : dsq d a b ≠ 0) (L : ℝ) (hL : lnlambdaOf K o a b = .fin L) :
    nuabOf K o a b (V3.sub (o.v a) (o.v b)) = .fin (d.n b / K.m a * nuSym K d a b L) := by
  have hdp : 0 < dsq d a b := lt_of_le_of_ne (by unfold dsq; positivity) (Ne.symm hd)
  have hw : 0 < d.w a "par" ^ 2 + d.w b "par" ^ 2 := by positivity
  have hws : 0 < Real.sqrt (d.w a "par" ^ 2 + d.w b "par" ^ 2) * K.uV :=
    mul_pos (Real.sqrt_pos.mpr hw) K.uV_pos
  have hx : 0 < Real.sqrt (dsq d a b) * K.uV / (Real.sqrt (d.w a "par" ^ 2 + d.w b "par" ^ 2) * K.uV) :=
    div_pos (mul_pos (Real.sqrt_pos.mpr hdp) K.uV_pos) hws
  have hma := K.m_pos a; have hmb := K.m_pos b; have he := K.e0_pos; have hnu := K.uNuc_pos
  unfold nuabOf
  simp only []
  rw [hL, hm.v a (by simp), hm.v b (by simp), V3.sub_ofReal, V3.mag_ofReal, hm.n b (by simp),
    hm.w a (by simp) "par" (by simp), hm.w b (by simp) "par" (by simp)]
  simp only [Fl.sq_fin, Fl.sumSkip_cons_fin, Fl.sumSkip_nil, Fl.zero_def, Fl.fin_add, add_zero]
  rw [Fl.sqrt_fin _ hw.le]
  simp only [Fl.fin_mul]
  rw [Fl.fin_div _ _ hws.ne']
  change Fl.fin _ * (Fl.fin (d.n b * K.uN * L) * (Fl.powm3 (Fl.fin (Real.sqrt (dsq d a b) * K.uV /
      (Real.sqrt (d.w a "par" ^ 2 + d.w b "par" ^ 2) * K.uV))) * _) * _) / _ = _
  set x := Real.sqrt (dsq d a b) * K.uV / (Real.sqrt (d.w a "par" ^ 2 + d.w b "par" ^ 2) * K.uV) with hxd
  have hx3 : x ^ 3 ≠ 0 := by positivity
  have hw3 : (Real.sqrt (d.w a "par" ^ 2 + d.w b "par" ^ 2) * K.uV) ^ 3 ≠ 0 := by positivity
  unfold Fl.powm3
  rw [Fl.cube_fin, Fl.fin_div _ _ hx3, Fl.cube_fin, Fl.fin_div _ _ hw3]
  change Fl.fin _ * (_ * (_ * (Fl.fin (K.erf x) - Fl.fin x * (Fl.fin (2 / Real.sqrt Real.pi) *
    Fl.exp (-(Fl.sq (Fl.fin x)))))) * _) / _ = _
  rw [Fl.sq_fin, Fl.fin_neg]
  change Fl.fin _ * (_ * (_ * (Fl.fin (K.erf x) - Fl.fin x * (Fl.fin (2 / Real.sqrt Real.pi) *
    Fl.fin (Real.exp (-x ^ 2))))) * _) / _ = _
  simp only [Fl.fin_mul, Fl.fin_sub]
  rw [Fl.fin_div _ _ hnu.ne']
  congr 1
  unfold nuSym
  simp only []
  rw [← hxd]
  field_simp

theorem nuSym_symm (d : RData) (a b : String) (L : ℝ) : nuSym K d a b L = nuSym K d b a L := by
  have h1 : dsq d a b = dsq d b a := by unfold dsq; ring
  unfold nuSym
  rw [h1, add_comm (d.w a "par" ^ 2), mul_comm (K.charge a ^ 2), mul_comm (K.m a), add_comm (K.m a)]

theorem prod_pow_fin (x y : ℝ) (hx : x ≠ 0) (hy : y ≠ 0) :
    Fl.prodSkip [Fl.sumSkip [.fin x], .fin 1 / Fl.sumSkip [.fin y]] = .fin (x / y) := by
  simp only [Fl.sumSkip_cons_fin, Fl.sumSkip_nil, Fl.zero_def, Fl.fin_add, add_zero]
  rw [Fl.fin_div _ _ hy]
  simp only [Fl.prodSkip_cons_fin, Fl.prodSkip_nil, Fl.one_def, Fl.fin_mul]
  congr 1; ring

/-- C22: with consistent mass tables (`m = m_p * m_in_mp`), like charges and a non-zero drift, momentum exchange
is balanced, `rho_a nu_ab = rho_b nu_ba`, and the two-species rate is symmetric and equals `nu_ab + nu_ba`. -/
theorem C22_balance (ions : List String) (d : RData) (a b : String) (h : Valid ions [a, b])
    (hm : Measured o [a, b] d) (hna : 0 < d.n a) (hnb : 0 < d.n b)
    (hwa : 0 < d.w a "scalar") (hwb : 0 < d.w b "scalar") (hpa : 0 < d.w a "par") (hpb : 0 < d.w b "par")
    (hz : 0 < K.chargeState a * K.chargeState b) (mp : ℝ) (hmp : ∀ s ∈ [a, b], K.m s = mp * K.mInMp s)
    (hd : (d.vx a - d.vx b) ^ 2 + (d.vy a - d.vy b) ^ 2 + (d.vz a - d.vz b) ^ 2 ≠ 0) :
    ∃ x y z : ℝ, nuc K o ions a b false = .ok (.fin x) ∧ nuc K o ions b a false = .ok (.fin y) ∧
      nuc K o ions a b true = .ok (.fin z) ∧ nuc K o ions b a true = .ok (.fin z) ∧
      (d.n a * K.mInMp a) * x = (d.n b * K.mInMp b) * y ∧ z = x + y := by
  obtain ⟨va, vb, hab⟩ := pair_valid h
  have hm' : Measured o [b, a] d := hm.sub (by simp)
  obtain ⟨L, hL⟩ := lnlambda_fin K o d a b hm hna hnb hwa hwb hz
  have hL' : lnlambdaOf K o b a = .fin L := by
    have := (C22_lnlambda_symmetric K o ions a b va vb).1
    unfold lnlambda at this
    rw [twoSpecies_ok va vb, twoSpecies_ok vb va] at this
    simp only [] at this
    injection this with this
    rw [← this, hL]
  have hd' : dsq d b a ≠ 0 := by rw [show dsq d b a = dsq d a b by unfold dsq; ring]; exact hd
  have e1 := nuab_fin K o d a b hm hpa hpb hd L hL
  have e2 := nuab_fin K o d b a hm' hpb hpa hd' L hL'
  have pa := mul_pos hna (K.mInMp_pos a)
  have pb := mul_pos hnb (K.mInMp_pos b)
  have ra : rhoS K o a = .fin (d.n a * K.mInMp a) := rhoS_fin hm (by simp)
  have rb : rhoS K o b = .fin (d.n b * K.mInMp b) := rhoS_fin hm (by simp)
  have hma := hmp a (by simp)
  have hmb := hmp b (by simp)
  have mp0 : mp ≠ 0 := by intro e; have := K.m_pos a; rw [hma, e] at this; simp at this
  have Ia := (K.mInMp_pos a).ne'; have Ib := (K.mInMp_pos b).ne'
  refine ⟨d.n b / K.m a * nuSym K d a b L, d.n a / K.m b * nuSym K d b a L, d.n b / K.m a * nuSym K d a b L + d.n b / K.m a * nuSym K d a b L *
    (d.n a * K.mInMp a / (d.n b * K.mInMp b)), ?_, ?_, ?_, ?_, ?_, ?_⟩
  · unfold nuc; rw [twoSpecies_ok va vb]; simp only []
    rw [dv_pair h (by simp) (by simp) hab]; simp [e1]
  · unfold nuc; rw [twoSpecies_ok vb va]; simp only []
    rw [dv_pair h (by simp) (by simp) hab.symm]; simp [e2]
  · unfold nuc; rw [twoSpecies_ok va vb]; simp only []
    rw [dv_pair h (by simp) (by simp) hab]
    simp only [if_true, e1, ra, rb]
    rw [prod_pow_fin _ _ pa.ne' pb.ne', Fl.fin_mul, Fl.fin_add]
  · unfold nuc; rw [twoSpecies_ok vb va]; simp only []
    rw [dv_pair h (by simp) (by simp) hab.symm]
    simp only [if_true, e2, ra, rb]
    rw [prod_pow_fin _ _ pb.ne' pa.ne', Fl.fin_mul, Fl.fin_add, nuSym_symm, hma, hmb]
    congr 2
    have := hna.ne'; have := hnb.ne'
    field_simp; ring
  · rw [nuSym_symm K d b a, hma, hmb]
    field_simp
  · rw [nuSym_symm K d b a, hma, hmb]
    have := hna.ne'; have := hnb.ne'
    field_simp

example : ∃ x y z : ℝ, nuc exK exD.obs ["a", "p1"] "p1" "a" false = .ok (.fin x) ∧
    nuc exK exD.obs ["a", "p1"] "a" "p1" false = .ok (.fin y) ∧
    nuc exK exD.obs ["a", "p1"] "p1" "a" true = .ok (.fin z) ∧
    nuc exK exD.obs ["a", "p1"] "a" "p1" true = .ok (.fin z) ∧
    (exD.n "p1" * exK.mInMp "p1") * x = (exD.n "a" * exK.mInMp "a") * y ∧ z = x + y :=
  C22_balance exK exD.obs _ exD "p1" "a" exValid (exD.measured _) (by simp [exD]) (by simp [exD]) (by simp [exD])
    (by simp [exD]) (by simp [exD]) (by simp [exD]) (by simp [exK]) 1 (by simp [exK]) (by simp [exD]; norm_num)

/-! ## C23 -/

/-- C23: without a spacecraft the Coulomb number is a ValueError, and so it is for a sum of species. -/
theorem C23_errors (ions : List String) (a b : String) (ha : Valid ions [a]) (hb : Valid ions [b]) (both : Bool)
    (ps : List String) (hps : Valid ions ps) (hl : 2 ≤ ps.length) (sc : Option Fl) :
    nc K o ions none a b both = .error .valueError ∧
    nc K o ions sc (pyJoin '+' ps) b both = .error .valueError ∧
    nc K o ions sc a (pyJoin '+' ps) both = .error .valueError := by
  have h1 := chk_join ha
  have h2 := chk_join hb
  have h3 := chk_join hps
  rw [pyJoin_singleton] at h1 h2
  have hlen := sorted_length ps
  rcases hs : pySorted ps with _ | ⟨x, _ | ⟨y, l⟩⟩
  · rw [hs] at hlen; simp at hlen; omega
  · rw [hs] at hlen; simp at hlen; omega
  refine ⟨?_, ?_, ?_⟩
  · unfold nc; rw [twoSpecies_ok ha hb]
  · unfold nc twoSpecies; rw [h3, h2, hs]
  · unfold nc twoSpecies; rw [h3, h1, hs]; simp [pySorted]

/-- C23: otherwise `nc = nuc * r / |v_com|` (SI), `v_com` the velocity of all ions together, and it is symmetric
in the two species. -/
theorem C23_value (ions : List String) (d : RData) (a b : String) (h : Valid ions [a, b])
    (hm : Measured o ions d) (hn : ∀ s ∈ ions, 0 < d.n s)
    (hwa : 0 < d.w a "scalar") (hwb : 0 < d.w b "scalar") (hpa : 0 < d.w a "par") (hpb : 0 < d.w b "par")
    (hz : 0 < K.chargeState a * K.chargeState b) (mp : ℝ) (hmp : ∀ s ∈ [a, b], K.m s = mp * K.mInMp s)
    (hd : (d.vx a - d.vx b) ^ 2 + (d.vy a - d.vy b) ^ 2 + (d.vz a - d.vz b) ^ 2 ≠ 0)
    (r x y z : ℝ) (hv : velocity K o ions [pyJoin '+' ions] false = .ok (.total (V3.ofReal x y z)))
    (hv0 : x ^ 2 + y ^ 2 + z ^ 2 ≠ 0) :
    ∃ nu N : ℝ, nuc K o ions a b true = .ok (.fin nu) ∧ nc K o ions (some (.fin r)) a b true = .ok (.fin N) ∧
      nc K o ions (some (.fin r)) b a true = .ok (.fin N) ∧
      N * (Real.sqrt (x ^ 2 + y ^ 2 + z ^ 2) * K.uV) = (nu * K.uNuc) * r := by
  have haI := h.avail a (by simp)
  have hbI := h.avail b (by simp)
  obtain ⟨va, vb, -⟩ := pair_valid h
  obtain ⟨-, -, nu, -, -, e1, e2, -, -⟩ := C22_balance K o ions d a b h
    (hm.sub (by intro s hs; exact h.avail s hs)) (hn a haI) (hn b hbI) hwa hwb hpa hpb hz mp hmp hd
  have hp : 0 < Real.sqrt (x ^ 2 + y ^ 2 + z ^ 2) :=
    Real.sqrt_pos.mpr (lt_of_le_of_ne (by positivity) (Ne.symm hv0))
  have hpu := (mul_pos hp K.uV_pos).ne'
  refine ⟨nu, nu * K.uNuc * (r / (Real.sqrt (x ^ 2 + y ^ 2 + z ^ 2) * K.uV)), e1, ?_, ?_, ?_⟩
  rotate_left 2
  · have := hp.ne'; have := K.uV_pos.ne'; field_simp
  · unfold nc; rw [twoSpecies_ok va vb]; simp only [hv, e1, V3.mag_ofReal, Fl.fin_mul]
    rw [Fl.fin_div _ _ hpu, Fl.fin_mul]
  · unfold nc; rw [twoSpecies_ok vb va]; simp only [hv, e2, V3.mag_ofReal, Fl.fin_mul]
    rw [Fl.fin_div _ _ hpu, Fl.fin_mul]

example : ∃ nu N : ℝ, nuc exK exD.obs ["a", "p1"] "p1" "a" true = .ok (.fin nu) ∧
    nc exK exD.obs ["a", "p1"] (some (.fin 149)) "p1" "a" true = .ok (.fin N) := by
  obtain ⟨x, y, z, hv, -, -, -, hx, -⟩ := C12_momentum exK exD.obs ["a", "p1"] ["a", "p1"]
    ⟨by simp, by decide, by decide, by decide, by decide⟩ (by simp) exD (exD.measured _)
    (by intro t _; simp only [exD]; split <;> norm_num)
  have hx := hx 400 450 (by intro s _; simp only [exD]; split <;> norm_num)
  obtain ⟨nu, N, h1, h2, -⟩ := C23_value exK exD.obs ["a", "p1"] exD "p1" "a" exValid (exD.measured _)
    (by intro t _; simp only [exD]; split <;> norm_num) (by simp [exD]) (by simp [exD]) (by simp [exD])
    (by simp [exD]) (by simp [exK]) 1 (by simp [exK]) (by simp [exD]; norm_num) 149 x y z hv
    (by nlinarith [sq_nonneg y, sq_nonneg z])
  exact ⟨nu, N, h1, h2⟩

/-! ## C24 -/

/-- Specification: a bi-Maxwellian with density `n`, bulk velocity `u`, thermal speeds `wpar`, `wper` about the
direction `b`, at velocity `v`: `n / (pi^(3/2) wpar wper^2) exp(-(dpar/wpar)^2 - (dper/wper)^2)`, where
`dpar = (v-u).b/|b|` and `dper^2 = |v-u|^2 - dpar^2`. -/
noncomputable def biMaxwellian (n wpar wper : ℝ) (u v b : ℝ × ℝ × ℝ) : ℝ :=
  let dx := v.1 - u.1
  let dy := v.2.1 - u.2.1
  let dz := v.2.2 - u.2.2
  let dpar := (dx * b.1 + dy * b.2.1 + dz * b.2.2) / Real.sqrt (b.1 ^ 2 + b.2.1 ^ 2 + b.2.2 ^ 2)
  let dperSq := dx ^ 2 + dy ^ 2 + dz ^ 2 - dpar ^ 2
  n / (Real.pi ^ (3 / 2 : ℝ) * wpar * wper ^ 2) * Real.exp (-(dpar / wpar) ^ 2 - dperSq / wper ^ 2)

/-- C24: for two proton populations (mass per charge 1) with positive densities and thermal speeds and a non-zero
field, `vdf_ratio(beam, core)` is the natural log of the beam over the core bi-Maxwellian, both evaluated at the
beam velocity. -/
theorem C24_vdf_ratio (ions : List String) (d : RData) (beam core : String) (h : Valid ions [beam, core])
    (hm : Measured o [beam, core] d) (hnb : 0 < d.n beam) (hnc : 0 < d.n core)
    (h1 : 0 < d.w beam "par") (h2 : 0 < d.w beam "per") (h3 : 0 < d.w core "par") (h4 : 0 < d.w core "per")
    (hqb : K.mInMp beam = K.chargeState beam) (hqc : K.mInMp core = K.chargeState core)
    (hB : (d.bx, d.by_, d.bz) ≠ (0, 0, 0)) :
    vdfRatio K o ions beam core = .ok (.fin (Real.log (
      biMaxwellian (d.n beam) (d.w beam "par") (d.w beam "per") (d.vx beam, d.vy beam, d.vz beam)
        (d.vx beam, d.vy beam, d.vz beam) (d.bx, d.by_, d.bz) /
      biMaxwellian (d.n core) (d.w core "par") (d.w core "per") (d.vx core, d.vy core, d.vz core)
        (d.vx beam, d.vy beam, d.vz beam) (d.bx, d.by_, d.bz)))) := by
  obtain ⟨va, vb, hab⟩ := pair_valid h
  have m2 : ∀ s, K.mInMp s = K.chargeState s → m2q K s = .fin 1 := by
    intro s hs; unfold m2q
    have := (K.mInMp_pos s)
    rw [← hs, Fl.fin_div _ _ this.ne', div_self this.ne', Fl.sqrt_fin _ zero_le_one, Real.sqrt_one]
  have hdv : dv K o ions beam core true = .ok (V3.ofReal (d.vx beam - d.vx core) (d.vy beam - d.vy core)
      (d.vz beam - d.vz core)) := by
    unfold dv
    rw [if_neg hab, velocity_single_proj h (by simp), velocity_single_proj h (by simp)]
    simp only []
    rw [m2 beam hqb, m2 core hqc, hm.v beam (by simp), hm.v core (by simp)]
    simp only [V3.scale, V3.ofReal, Fl.fin_mul, V3.sub, Fl.fin_sub, mul_one]
  unfold vdfRatio
  rw [twoSpecies_ok va vb]
  simp only [hdv]
  congr 1
  unfold vdfRatioOf
  simp only []
  rw [hm.b, V3.projPar_ofReal _ _ _ _ _ _ hB, V3.projPer_ofReal _ _ _ _ _ _ hB, hm.n beam (by simp),
    hm.n core (by simp), hm.w beam (by simp) "par" (by simp), hm.w beam (by simp) "per" (by simp),
    hm.w core (by simp) "par" (by simp), hm.w core (by simp) "per" (by simp)]
  have hbp := V3.nsq_pos hB
  set N := V3.nsq d.bx d.by_ d.bz with hN
  set X := d.vx beam - d.vx core with hX
  set Y := d.vy beam - d.vy core with hY
  set Z := d.vz beam - d.vz core with hZ
  set D := X * d.bx + Y * d.by_ + Z * d.bz with hD
  have hcs : D ^ 2 ≤ V3.nsq X Y Z * N := by
    rw [hN, hD]; unfold V3.nsq
    nlinarith [sq_nonneg (X * d.by_ - Y * d.bx), sq_nonneg (X * d.bz - Z * d.bx), sq_nonneg (Y * d.bz - Z * d.by_)]
  have hper : 0 ≤ V3.nsq X Y Z - D ^ 2 / N := by
    rw [sub_nonneg, div_le_iff₀ hbp]; exact hcs
  rw [Fl.fin_div _ _ h3.ne', Fl.fin_div _ _ h4.ne', Fl.fin_div _ _ hnc.ne', Fl.fin_div _ _ h1.ne',
    Fl.fin_div _ _ h2.ne']
  simp only [Fl.sq_fin, Fl.sumSkip_cons_fin, Fl.sumSkip_nil, Fl.zero_def, Fl.fin_add, add_zero, Fl.fin_mul]
  have harg : 0 < d.n beam / d.n core * (d.w core "par" / d.w beam "par" * (d.w core "per" / d.w beam "per") ^ 2) := by
    positivity
  rw [Fl.log_fin _ harg, Fl.fin_add]
  congr 1
  have hpi : (0 : ℝ) < Real.pi ^ (3 / 2 : ℝ) := Real.rpow_pos_of_pos Real.pi_pos _
  have e1 : biMaxwellian (d.n beam) (d.w beam "par") (d.w beam "per") (d.vx beam, d.vy beam, d.vz beam)
        (d.vx beam, d.vy beam, d.vz beam) (d.bx, d.by_, d.bz) =
      d.n beam / (Real.pi ^ (3 / 2 : ℝ) * d.w beam "par" * d.w beam "per" ^ 2) := by
    unfold biMaxwellian; simp
  have e2 : biMaxwellian (d.n core) (d.w core "par") (d.w core "per") (d.vx core, d.vy core, d.vz core)
        (d.vx beam, d.vy beam, d.vz beam) (d.bx, d.by_, d.bz) =
      d.n core / (Real.pi ^ (3 / 2 : ℝ) * d.w core "par" * d.w core "per" ^ 2) *
        Real.exp (-(D / Real.sqrt N / d.w core "par") ^ 2 -
          (V3.nsq X Y Z - (D / Real.sqrt N) ^ 2) / d.w core "per" ^ 2) := rfl
  have e3 : (D / Real.sqrt N) ^ 2 = D ^ 2 / N := by rw [div_pow, Real.sq_sqrt hbp.le]
  rw [e1, e2, div_mul_eq_div_div, Real.log_div (by positivity) (Real.exp_pos _).ne', Real.log_exp, div_pow, div_pow,
    div_pow, div_pow, Real.sq_sqrt hbp.le, Real.sq_sqrt hper]
  have e4 : d.n beam / (Real.pi ^ (3 / 2 : ℝ) * d.w beam "par" * d.w beam "per" ^ 2) /
      (d.n core / (Real.pi ^ (3 / 2 : ℝ) * d.w core "par" * d.w core "per" ^ 2)) =
      d.n beam / d.n core * (d.w core "par" / d.w beam "par" * (d.w core "per" ^ 2 / d.w beam "per" ^ 2)) := by
    field_simp
  rw [e4]
  ring

/-- two proton populations: drifting beam "p2" and core "p1" -/
noncomputable def exBeam : RData := { exD with vx := fun s => if s = "p2" then 450 else 400 }

example : ∃ x : ℝ, vdfRatio exK exBeam.obs ["p1", "p2"] "p2" "p1" = .ok (.fin x) :=
  ⟨_, C24_vdf_ratio exK exBeam.obs ["p1", "p2"] exBeam "p2" "p1"
    ⟨by simp, by decide, by decide, by decide, by decide⟩ (exBeam.measured _) (by simp [exBeam, exD])
    (by simp [exBeam, exD]) (by simp [exBeam, exD]) (by simp [exBeam, exD]) (by simp [exBeam, exD])
    (by simp [exBeam, exD]) (by simp [exK]) (by simp [exK]) (by simp [exBeam, exD])⟩

/-! ## C25 -/

/-- C25: which plasmas are refused. -/
theorem C25_errors (species : List String) :
    (estimateElectrons K o species = .error .notImplemented ↔ "e" ∈ species) ∧
    (estimateElectrons K o species = .error .valueError ↔
      "e" ∉ species ∧ ("p" ∈ species ↔ "p1" ∈ species)) := by
  unfold estimateElectrons protonOf
  by_cases he : "e" ∈ species <;> by_cases hp : "p" ∈ species <;> by_cases hp1 : "p1" ∈ species <;>
    simp [he, hp, hp1]

/-- C25: on a measured row with `n_e = sum q_i n_i ≠ 0` the estimate is quasi-neutral and current-free, and the
electron pressure `n_e m_e w_e^2 / 2` equals the proton pressure `n_p w_p^2 / 2` (in proton masses). -/
theorem C25_neutral (species : List String) (tkw : String) (hok : protonOf species = .ok tkw) (d : RData)
    (hne : species ≠ []) (hmem : tkw ∈ species) (hm : Measured o species d)
    (hq : (species.map fun s => K.chargeState s * d.n s).sum ≠ 0)
    (hpos : 0 ≤ d.n tkw / (species.map fun s => K.chargeState s * d.n s).sum) :
    ∃ (e : Electrons) (ne vx vy vz we : ℝ), estimateElectrons K o species = .ok e ∧ e.n = .fin ne ∧
      e.v = V3.ofReal vx vy vz ∧ e.w = .fin we ∧ 0 ≤ we ∧
      ne = (species.map fun s => K.chargeState s * d.n s).sum ∧
      ne * vx = (species.map fun s => K.chargeState s * d.n s * d.vx s).sum ∧
      ne * vy = (species.map fun s => K.chargeState s * d.n s * d.vy s).sum ∧
      ne * vz = (species.map fun s => K.chargeState s * d.n s * d.vz s).sum ∧
      ne * K.mInMp "e" * we ^ 2 / 2 = d.n tkw * d.w tkw "scalar" ^ 2 / 2 := by
  unfold estimateElectrons
  rw [hok]
  simp only []
  set S := (species.map fun s => K.chargeState s * d.n s).sum with hS
  have hniqi : ∀ s ∈ species, o.n s * .fin (K.chargeState s) = .fin (K.chargeState s * d.n s) := by
    intro s hs; rw [hm.n s hs, Fl.fin_mul, mul_comm]
  have head1 : species.length = 1 → species = [species.headD ""] := by
    intro hl; match species, hl with | [x], _ => rfl
  have hnee : (if species.length = 1 then o.n (species.headD "") * .fin (K.chargeState (species.headD ""))
      else Fl.sumSkip (species.map fun s => o.n s * .fin (K.chargeState s))) = .fin S := by
    split
    · rename_i hl
      have hh := head1 hl
      have hmemh : species.headD "" ∈ species := by rw [hh]; simp
      rw [hniqi _ hmemh, hS]
      conv_rhs => rw [hh]
      simp
    · rw [Fl.sumSkip_fin' _ _ _ hniqi]
  have hflux : ∀ (f : V3 → Fl) (g : String → ℝ), (∀ s ∈ species, f (o.v s) = .fin (g s)) →
      (if species.length = 1 then f (o.v (species.headD "")) * (o.n (species.headD "") *
        .fin (K.chargeState (species.headD "")))
      else Fl.sumSkip (species.map fun s => f (o.v s) * (o.n s * .fin (K.chargeState s)))) =
      .fin (species.map fun s => K.chargeState s * d.n s * g s).sum := by
    intro f g hg
    split
    · rename_i hl
      have hh := head1 hl
      have hmemh : species.headD "" ∈ species := by rw [hh]; simp
      rw [hniqi _ hmemh, hg _ hmemh, Fl.fin_mul]
      conv_rhs => rw [hh]
      simp [mul_comm]
    · rw [Fl.sumSkip_fin' _ _ (fun s => K.chargeState s * d.n s * g s)]
      intro s hs; rw [hniqi s hs, hg s hs, Fl.fin_mul, mul_comm]
  have hnr : 0 ≤ d.n tkw / S * (1 / K.mInMp "e") * d.w tkw "scalar" ^ 2 := by
    have := K.mInMp_pos "e"; positivity
  refine ⟨_, S, (species.map fun s => K.chargeState s * d.n s * d.vx s).sum / S,
    (species.map fun s => K.chargeState s * d.n s * d.vy s).sum / S,
    (species.map fun s => K.chargeState s * d.n s * d.vz s).sum / S,
    Real.sqrt (d.n tkw / S * (1 / K.mInMp "e") * d.w tkw "scalar" ^ 2), rfl, ?_, ?_, ?_,
    Real.sqrt_nonneg _, rfl, ?_, ?_, ?_, ?_⟩
  · unfold electronsOf
    simp only [hnee]
    rw [if_neg (by simpa using hq)]
  · unfold electronsOf
    simp only [hnee]
    rw [if_neg (by simpa using hq)]
    simp only [hflux V3.x d.vx (fun s hs => by rw [hm.v s hs]; rfl),
      hflux V3.y d.vy (fun s hs => by rw [hm.v s hs]; rfl), hflux V3.z d.vz (fun s hs => by rw [hm.v s hs]; rfl)]
    rw [Fl.fin_div _ _ hq, Fl.fin_div _ _ hq, Fl.fin_div _ _ hq]; rfl
  · unfold electronsOf
    simp only [hnee]
    rw [if_neg (by simpa using hq), hm.n tkw hmem, hm.w tkw hmem "scalar" (by simp)]
    simp only [Fl.sumSkip_cons_fin, Fl.sumSkip_nil, Fl.zero_def, Fl.fin_add, add_zero]
    rw [Fl.fin_div _ _ hq, Fl.fin_mul, Fl.sq_fin, Fl.fin_mul, Fl.sqrt_fin _ hnr]
  · field_simp
  · field_simp
  · field_simp
  · rw [Real.sq_sqrt hnr]
    have := (K.mInMp_pos "e").ne'
    field_simp

/-- C25: rows whose charge density is zero are masked with NaN. -/
theorem C25_masked (species : List String) (tkw : String) (hok : protonOf species = .ok tkw) (n : String → ℝ)
    (hn : ∀ s ∈ species, o.n s = .fin (n s)) (hne : species ≠ [])
    (hq : (species.map fun s => K.chargeState s * n s).sum = 0) :
    estimateElectrons K o species = .ok ⟨.nan, ⟨.nan, .nan, .nan⟩, .nan⟩ := by
  unfold estimateElectrons
  rw [hok]
  simp only []
  congr 1
  have hniqi : ∀ s ∈ species, o.n s * .fin (K.chargeState s) = .fin (K.chargeState s * n s) := by
    intro s hs; rw [hn s hs, Fl.fin_mul, mul_comm]
  have hnee : (if species.length = 1 then o.n (species.headD "") * .fin (K.chargeState (species.headD ""))
      else Fl.sumSkip (species.map fun s => o.n s * .fin (K.chargeState s))) = .fin 0 := by
    split
    · rename_i hl
      have hh : species = [species.headD ""] := by match species, hl with | [x], _ => rfl
      have hmemh : species.headD "" ∈ species := by rw [hh]; simp
      rw [hniqi _ hmemh]
      rw [hh] at hq
      simpa using hq
    · rw [Fl.sumSkip_fin' _ _ _ hniqi, hq]
  unfold electronsOf
  simp only [hnee, if_true]

/-- C25 (docstring violated): the electron temperature is `T_e = T_p n_p / n_e`, so it is the proton temperature
iff `n_e = n_p` -- with alphas present the estimate is colder than the documented "same as proton". -/
theorem C25_temperature (species : List String) (tkw : String) (hok : protonOf species = .ok tkw) (d : RData)
    (hne : species ≠ []) (hmem : tkw ∈ species) (hm : Measured o species d) (hnp : 0 < d.n tkw)
    (hwp : 0 < d.w tkw "scalar") (hmt : K.mInMp tkw = 1)
    (hq : 0 < (species.map fun s => K.chargeState s * d.n s).sum) :
    ∃ (e : Electrons) (we : ℝ), estimateElectrons K o species = .ok e ∧ e.w = .fin we ∧
      (K.mInMp "e" * we ^ 2 = K.mInMp tkw * d.w tkw "scalar" ^ 2 ↔
        (species.map fun s => K.chargeState s * d.n s).sum = d.n tkw) := by
  obtain ⟨e, ne, -, -, -, we, h1, -, -, h2, -, h3, -, -, -, h4⟩ :=
    C25_neutral K o species tkw hok d hne hmem hm hq.ne' (div_nonneg hnp.le hq.le)
  refine ⟨e, we, h1, h2, ?_⟩
  rw [← h3, hmt, one_mul]
  have hne0 : ne ≠ 0 := by rw [h3]; exact hq.ne'
  have hw2 : d.w tkw "scalar" ^ 2 ≠ 0 := by positivity
  constructor
  · intro e'
    have h4' : ne * (K.mInMp "e" * we ^ 2) = d.n tkw * d.w tkw "scalar" ^ 2 := by linarith
    rw [e'] at h4'
    exact mul_right_cancel₀ hw2 h4'
  · intro e'
    apply mul_left_cancel₀ hne0
    rw [e'] at h4 ⊢
    linarith

example : ∃ (e : Electrons) (we : ℝ), estimateElectrons exK exD.obs ["a", "p1"] = .ok e ∧ e.w = .fin we ∧
    exK.mInMp "e" * we ^ 2 ≠ exK.mInMp "p1" * exD.w "p1" "scalar" ^ 2 := by
  obtain ⟨e, we, h1, h2, h3⟩ := C25_temperature exK exD.obs ["a", "p1"] "p1" (by decide) exD (by simp) (by simp)
    (exD.measured _) (by simp [exD]) (by simp [exD]) (by simp [exK]) (by simp [exK, exD]; norm_num)
  exact ⟨e, we, h1, h2, fun h => by have := h3.mp h; simp [exK, exD] at this⟩

/-! ## C26 -/

theorem heatFlux_r (ions ps args : List String) (h : Valid ions ps) (hl : 2 ≤ ps.length) (d : RData)
    (hm : Measured o ps d) (hr : (ps.map (rR K d)).sum ≠ 0) (hB : (d.bx, d.by_, d.bz) ≠ (0, 0, 0))
    (hargs : chkSpecies ions (args.map .str) = .ok (pySorted ps)) :
    ∃ q : String → ℝ, (∀ s ∈ ps, ∃ u : ℝ, u = ((d.vx s - comR K d ps d.vx) * d.bx + (d.vy s - comR K d ps d.vy) * d.by_ +
        (d.vz s - comR K d ps d.vz) * d.bz) / Real.sqrt (V3.nsq d.bx d.by_ d.bz) ∧
        q s = (K.uRho * K.uV ^ 3 / K.uQpar) * ((u ^ 3 + 3 / 2 * u * d.w s "par" ^ 2) * (d.n s * K.mInMp s))) ∧
      heatFlux K o ions args = if args.length = 1 then .ok (.total (.fin (ps.map q).sum))
        else .ok (.each ((pySorted ps).map fun s => (s, .fin (q s)))) := by
  have hs : Valid ions (pySorted ps) := h.perm (pySorted_perm ps).symm
  have hlen : ¬ (pySorted ps).length ≤ 1 := by rw [sorted_length]; omega
  set par : String → ℝ := fun s => ((d.vx s - comR K d ps d.vx) * d.bx + (d.vy s - comR K d ps d.vy) * d.by_ +
        (d.vz s - comR K d ps d.vz) * d.bz) / Real.sqrt (V3.nsq d.bx d.by_ d.bz) with hpar
  refine ⟨fun s => (K.uRho * K.uV ^ 3 / K.uQpar) * ((par s ^ 3 + 3 / 2 * par s * d.w s "par" ^ 2) *
    (d.n s * K.mInMp s)), fun s _ => ⟨par s, rfl, rfl⟩, ?_⟩
  unfold heatFlux
  rw [hargs]
  simp only [if_neg hlen]
  rw [resolve_args hs, pySorted_idem]
  simp only []
  rw [forEach_ok _ (fun s => V3.ofReal (d.vx s - comR K d ps d.vx) (d.vy s - comR K d ps d.vy)
      (d.vz s - comR K d ps d.vz))]
  · simp only [zip_map_self, List.map_map, Function.comp_def]
    have hq : ∀ s ∈ pySorted ps, qparOf K o s (V3.projPar (V3.ofReal (d.vx s - comR K d ps d.vx)
        (d.vy s - comR K d ps d.vy) (d.vz s - comR K d ps d.vz)) o.b) =
        .fin ((par s ^ 3 + 3 / 2 * par s * d.w s "par" ^ 2) * (d.n s * K.mInMp s)) := by
      intro s hs'
      have hmem := mem_pySorted.mp hs'
      unfold qparOf
      rw [hm.b, V3.projPar_ofReal _ _ _ _ _ _ hB, rhoS_fin hm hmem, hm.w s hmem "par" (by simp)]
      simp only [Fl.cube_fin, Fl.sq_fin, Fl.fin_mul, Fl.fin_add]
      congr 1
      rw [hpar]; ring
    split
    · rw [Fl.sumSkip_fin' _ _ _ hq, Fl.fin_mul, sum_sorted, list_sum_mul_left]
    · congr 2
      apply List.map_congr_left
      intro s hs'
      rw [hq s hs', Fl.fin_mul]
  · intro s hs'
    have hmem := mem_pySorted.mp hs'
    have hd := dv_single_com (K := K) (o := o) hs (by rw [sorted_length]; exact hl) hs'
    rw [pySorted_idem] at hd
    rw [hd, vCom_fin hm.sorted (by rw [sum_sorted]; exact hr)]
    simp only [comR_sorted]
    rw [hm.v s hmem, V3.sub_ofReal]

theorem heatFlux_of (ions ps args : List String) (h : Valid ions ps) (hl : 2 ≤ ps.length) (d : RData)
    (hm : Measured o ps d) (hn : ∀ s ∈ ps, 0 < d.n s) (hB : (d.bx, d.by_, d.bz) ≠ (0, 0, 0))
    (hargs : chkSpecies ions (args.map .str) = .ok (pySorted ps)) :
    ∃ q : String → ℝ, (∀ s ∈ ps, ∃ u : ℝ, u = ((d.vx s - comR K d ps d.vx) * d.bx + (d.vy s - comR K d ps d.vy) * d.by_ +
        (d.vz s - comR K d ps d.vz) * d.bz) / Real.sqrt (V3.nsq d.bx d.by_ d.bz) ∧
        q s = (K.uRho * K.uV ^ 3 / K.uQpar) * ((u ^ 3 + 3 / 2 * u * d.w s "par" ^ 2) * (d.n s * K.mInMp s))) ∧
      heatFlux K o ions args = if args.length = 1 then .ok (.total (.fin (ps.map q).sum))
        else .ok (.each ((pySorted ps).map fun s => (s, .fin (q s)))) :=
  heatFlux_r K o ions ps args h hl d hm (list_sum_pos h.ne (fun s hs => rR_pos K (hn s hs))).ne' hB hargs

/-- C26: the heat flux of `"s0+s1+..."` is the sum of the per-species heat fluxes, each
`rho (u^3 + 3/2 u w^2)` with `u` the parallel drift relative to the velocity of the sum. -/
theorem C26_sum (ions ps : List String) (h : Valid ions ps) (hl : 2 ≤ ps.length) (d : RData)
    (hm : Measured o ps d) (hn : ∀ s ∈ ps, 0 < d.n s) (hB : (d.bx, d.by_, d.bz) ≠ (0, 0, 0)) :
    ∃ (cx cy cz : ℝ) (q : String → ℝ),
      velocity K o ions [pyJoin '+' ps] false = .ok (.total (V3.ofReal cx cy cz)) ∧
      heatFlux K o ions ps = .ok (.each ((pySorted ps).map fun s => (s, .fin (q s)))) ∧
      heatFlux K o ions [pyJoin '+' ps] = .ok (.total (.fin (ps.map q).sum)) ∧
      ∀ s ∈ ps, ∃ u : ℝ, u = ((d.vx s - cx) * d.bx + (d.vy s - cy) * d.by_ + (d.vz s - cz) * d.bz) /
          Real.sqrt (d.bx ^ 2 + d.by_ ^ 2 + d.bz ^ 2) ∧
        q s * K.uQpar = (d.n s * K.mInMp s * K.uRho) *
          ((u * K.uV) ^ 3 + 3 / 2 * (u * K.uV) * (d.w s "par" * K.uV) ^ 2) := by
  obtain ⟨q, hq, e1⟩ := heatFlux_of K o ions ps ps h hl d hm hn hB (chk_args h)
  obtain ⟨q', hq', e2⟩ := heatFlux_of K o ions ps [pyJoin '+' ps] h hl d hm hn hB (chk_join h)
  refine ⟨_, _, _, q, velocity_fin K o ions ps h hl d hm hn, ?_, ?_, ?_⟩
  · rw [e1, if_neg (by omega)]
  · rw [e2, if_pos (List.length_singleton)]
    congr 4
    apply List.map_congr_left
    intro s hs
    obtain ⟨u, hu, e⟩ := hq s hs
    obtain ⟨u', hu', e'⟩ := hq' s hs
    rw [e, e', hu, hu']
  · intro s hs
    obtain ⟨u, hu, e⟩ := hq s hs
    refine ⟨u, hu, ?_⟩
    have := K.uQpar_pos.ne'
    rw [e]; field_simp

/-- C26: zero when all species co-move. -/
theorem C26_comoving (ions ps : List String) (h : Valid ions ps) (hl : 2 ≤ ps.length) (d : RData)
    (hm : Measured o ps d) (hn : ∀ s ∈ ps, 0 < d.n s) (hB : (d.bx, d.by_, d.bz) ≠ (0, 0, 0))
    (hco : ∀ s ∈ ps, ∀ t ∈ ps, d.vx s = d.vx t ∧ d.vy s = d.vy t ∧ d.vz s = d.vz t) :
    heatFlux K o ions [pyJoin '+' ps] = .ok (.total (.fin 0)) := by
  have hr : 0 < (ps.map (rR K d)).sum := list_sum_pos h.ne (fun s hs => rR_pos K (hn s hs))
  obtain ⟨q, hq, e2⟩ := heatFlux_of K o ions ps [pyJoin '+' ps] h hl d hm hn hB (chk_join h)
  rw [e2, if_pos (List.length_singleton)]
  congr 3
  have hc : ∀ f : String → ℝ, ∀ s ∈ ps, (∀ t ∈ ps, f s = f t) → f s = comR K d ps f := by
    intro f s hs hf
    have hb := com_between K ps d f hn hr (f s) (f s) (fun t ht => by rw [← hf t ht]; exact ⟨le_rfl, le_rfl⟩)
    exact le_antisymm hb.1 hb.2
  have : ∀ s ∈ ps, q s = 0 := by
    intro s hs
    obtain ⟨u, hu, e⟩ := hq s hs
    have hu0 : u = 0 := by
      rw [hu, ← hc d.vx s hs (fun t ht => (hco s hs t ht).1), ← hc d.vy s hs (fun t ht => (hco s hs t ht).2.1),
        ← hc d.vz s hs (fun t ht => (hco s hs t ht).2.2)]
      simp
    rw [e, hu0]; ring
  rw [List.map_congr_left this]
  simp

/-- C26: odd under reversal of all velocities (hence of the parallel drifts). -/
theorem C26_odd (o' : Obs) (ions ps : List String) (h : Valid ions ps) (hl : 2 ≤ ps.length) (d d' : RData)
    (hm : Measured o ps d) (hm' : Measured o' ps d') (hn : ∀ s ∈ ps, 0 < d.n s)
    (hB : (d.bx, d.by_, d.bz) ≠ (0, 0, 0))
    (hsame : ∀ s ∈ ps, d'.n s = d.n s ∧ d'.w s "par" = d.w s "par")
    (hb : d'.bx = d.bx ∧ d'.by_ = d.by_ ∧ d'.bz = d.bz)
    (hv : ∀ s ∈ ps, d'.vx s = -d.vx s ∧ d'.vy s = -d.vy s ∧ d'.vz s = -d.vz s) :
    ∃ Q : ℝ, heatFlux K o ions [pyJoin '+' ps] = .ok (.total (.fin Q)) ∧
      heatFlux K o' ions [pyJoin '+' ps] = .ok (.total (.fin (-Q))) := by
  have hB' : (d'.bx, d'.by_, d'.bz) ≠ (0, 0, 0) := by rw [hb.1, hb.2.1, hb.2.2]; exact hB
  obtain ⟨q, hq, e1⟩ := heatFlux_of K o ions ps [pyJoin '+' ps] h hl d hm hn hB (chk_join h)
  obtain ⟨q', hq', e2⟩ := heatFlux_of K o' ions ps [pyJoin '+' ps] h hl d' hm'
    (fun s hs => by rw [(hsame s hs).1]; exact hn s hs) hB' (chk_join h)
  refine ⟨_, by rw [e1, if_pos (List.length_singleton)], ?_⟩
  rw [e2, if_pos (List.length_singleton)]
  congr 3
  have hrr : ∀ s ∈ ps, rR K d' s = rR K d s := fun s hs => by unfold rR; rw [(hsame s hs).1]
  have hcom : ∀ f g : String → ℝ, (∀ s ∈ ps, g s = -f s) → comR K d' ps g = -comR K d ps f := by
    intro f g hg; unfold comR
    rw [List.map_congr_left (fun s hs => show g s * rR K d' s = -1 * (f s * rR K d s) by
      rw [hrr s hs, hg s hs]; ring), List.map_congr_left hrr, list_sum_mul_left]
    ring
  have : ∀ s ∈ ps, q' s = -1 * q s := by
    intro s hs
    obtain ⟨u, hu, e⟩ := hq s hs
    obtain ⟨u', hu', e'⟩ := hq' s hs
    have huu : u' = -u := by
      rw [hu, hu', hcom d.vx d'.vx (fun s hs => (hv s hs).1), hcom d.vy d'.vy (fun s hs => (hv s hs).2.1),
        hcom d.vz d'.vz (fun s hs => (hv s hs).2.2), (hv s hs).1, (hv s hs).2.1, (hv s hs).2.2, hb.1, hb.2.1, hb.2.2]
      ring
    rw [e, e', huu, (hsame s hs).1, (hsame s hs).2]; ring
  rw [List.map_congr_left this, list_sum_mul_left]
  ring

/-- C26: a single species is a ValueError. -/
theorem C26_single (ions : List String) (s : String) (h : Valid ions [s]) :
    heatFlux K o ions [s] = .error .valueError := by
  have hc := chk_args h
  unfold heatFlux
  rw [hc]
  simp [pySorted]

example (K : Const) : ∃ q : ℝ, heatFlux K exD.obs ["a", "p1"] [pyJoin '+' ["p1", "a"]] = .ok (.total (.fin q)) := by
  obtain ⟨_, _, _, q, -, -, h, -⟩ := C26_sum K exD.obs _ _ exValid (by simp) exD (exD.measured _)
    (by intro t _; simp only [exD]; split <;> norm_num) (by simp [exD])
  exact ⟨_, h⟩

/-! ## C27 -/

/-- C27 (violated): the kinetic energy flux can never be computed: every call with valid species, in either form,
raises AttributeError. -/
theorem C27_unusable (ions ps : List String) (h : Valid ions ps) :
    kineticEnergyFlux ions ps = .error .attributeError ∧
    kineticEnergyFlux ions [pyJoin '+' ps] = .error .attributeError := by
  have hne : ∃ a l, pySorted ps = a :: l := by
    rcases hs : pySorted ps with _ | ⟨a, l⟩
    · have := sorted_length ps; rw [hs] at this
      exact absurd (List.length_eq_zero_iff.mp this.symm) h.ne
    · exact ⟨a, l, rfl⟩
  obtain ⟨a, l, hs⟩ := hne
  constructor
  · unfold kineticEnergyFlux; rw [resolve_args h, hs]; rfl
  · unfold kineticEnergyFlux; rw [resolve_join h, hs]; rfl

example : kineticEnergyFlux ["a", "p1"] ["p1", "a"] = .error .attributeError := (C27_unusable _ _ exValid).1

end SW
