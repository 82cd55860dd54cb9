import Verif.Props.Frames

/-!
# Properties C218, C219 (rescaling the data)

The specification is the rescaled row: all densities times `k` (`Obs.dens`), all thermal speeds times `k` (`Obs.therm`), the magnetic
field times `k` (`Obs.field`). The theorems say how every reported quantity responds.
-/

namespace SW
open Classical

/-! ### Specification -/

/-- every density multiplied by `k` -/
noncomputable def Obs.dens (k : ℝ) (o : Obs) : Obs := { o with n := fun s => o.n s * .fin k }
/-- every thermal speed multiplied by `k` -/
noncomputable def Obs.therm (k : ℝ) (o : Obs) : Obs := { o with w := fun s c => o.w s c * .fin k }
/-- the magnetic field multiplied by `k` -/
noncomputable def Obs.field (k : ℝ) (o : Obs) : Obs := { o with b := ⟨o.b.x * .fin k, o.b.y * .fin k, o.b.z * .fin k⟩ }

/-- a number multiplied by the factor `k` -/
noncomputable def times (k : ℝ) (x : Fl) : Fl := x * .fin k

/-! ### Helper lemmas: a positive factor -/

section
variable {k : ℝ} (hk : 0 < k)
include hk

theorem infMul_pos (p : Bool) : Fl.infMul p k = if p then .pinf else .ninf := by
  unfold Fl.infMul; rw [if_neg hk.ne']; cases p <;> simp [hk]

theorem times_pinf : times k .pinf = .pinf := infMul_pos hk true
theorem times_ninf : times k .ninf = .ninf := infMul_pos hk false

omit hk in
theorem times_fin (a : ℝ) : times k (.fin a) = .fin (a * k) := rfl
omit hk in
theorem times_nan : times k .nan = .nan := rfl

theorem times_add (x y : Fl) : times k (x + y) = times k x + times k y := by
  cases x <;> cases y <;> simp only [times_pinf hk, times_ninf hk, times_fin, times_nan, Fl.fin_add, add_mul] <;>
    first | rfl | skip
  all_goals (show times k (Fl.add _ _) = Fl.add _ _; simp only [Fl.add, times_pinf hk, times_ninf hk, times_nan])

theorem times_isNaN (x : Fl) : (times k x).isNaN ↔ x.isNaN := by
  cases x <;> simp [times_pinf hk, times_ninf hk, times_fin, times_nan]

theorem times_mul_left (x y : Fl) : times k x * y = times k (x * y) := by
  cases x <;> cases y <;> simp only [times_pinf hk, times_ninf hk, times_fin, times_nan, Fl.fin_mul, Fl.nan_mul, Fl.mul_nan] <;>
    first | (congr 1; ring; done) | skip
  all_goals
    show Fl.mul _ _ = times k (Fl.mul _ _)
    simp only [Fl.mul, Fl.infMul]
    first
    | (simp only [times_pinf hk, times_ninf hk]; done)
    | (split_ifs <;> simp_all [times_pinf hk, times_ninf hk, times_nan, mul_pos_iff_of_pos_right])

theorem times_mul_right (x y : Fl) : x * times k y = times k (x * y) := by
  rw [Fl.mul_comm', times_mul_left hk, Fl.mul_comm']

theorem times_div_left (x y : Fl) : times k x / y = times k (x / y) := by
  cases x <;> cases y <;> simp only [times_pinf hk, times_ninf hk, times_fin, times_nan, Fl.nan_div, Fl.div_nan] <;>
    (show Fl.div _ _ = times k (Fl.div _ _)) <;> simp only [Fl.div] <;> try split_ifs <;>
    simp_all [times_pinf hk, times_ninf hk, times_fin, times_nan, mul_pos_iff_of_pos_right, mul_neg_iff, hk.not_gt]
  all_goals first | rfl | (congr 1; ring; done) | ring | (rw [times_fin]; congr 1; ring)

theorem times_div_both (x y : Fl) : times k x / times k y = x / y := by
  cases x <;> cases y <;> simp only [times_pinf hk, times_ninf hk, times_fin, times_nan, Fl.nan_div, Fl.div_nan] <;>
    (show Fl.div _ _ = Fl.div _ _) <;> simp only [Fl.div] <;> try split_ifs <;>
    simp_all [mul_pos_iff_of_pos_right, mul_neg_iff, hk.not_gt]
  all_goals field_simp

theorem sumSkip_times {α : Type} (l : List α) (f : α → Fl) :
    Fl.sumSkip (l.map fun a => times k (f a)) = times k (Fl.sumSkip (l.map f)) := by
  induction l with
  | nil => simp [times, Fl.zero_def]
  | cons a l ih =>
    simp only [List.map_cons, Fl.sumSkip_cons, times_isNaN hk, ih]
    split
    · rfl
    · rw [times_add hk]

theorem sumAll_times {α : Type} (l : List α) (f : α → Fl) :
    Fl.sumAll (l.map fun a => times k (f a)) = times k (Fl.sumAll (l.map f)) := by
  induction l with
  | nil => simp [times, Fl.zero_def]
  | cons a l ih => simp only [List.map_cons, Fl.sumAll_cons, ih, times_add hk]

theorem times_times {m : ℝ} (hm : 0 < m) (x : Fl) : times m (times k x) = times (k * m) x := by
  have h := mul_pos hk hm
  cases x <;> simp only [times_pinf hk, times_ninf hk, times_pinf hm, times_ninf hm, times_pinf h, times_ninf h, times_fin,
    times_nan, mul_assoc]

theorem times_div_right (x y : Fl) : x / times k y = times (1 / k) (x / y) := by
  have h : 0 < 1 / k := by positivity
  have e : x = times k (times (1 / k) x) := by
    rw [times_times h hk]
    have : 1 / k * k = 1 := by field_simp
    rw [this]
    cases x <;> first | rfl | skip
    · exact (times_pinf one_pos).symm
    · exact (times_ninf one_pos).symm
    · rw [times_fin, mul_one]
  conv_lhs => rw [e]
  rw [times_div_both hk, times_div_left h]

theorem sq_times (x : Fl) : Fl.sq (times k x) = times (k ^ 2) (Fl.sq x) := by
  unfold Fl.sq; rw [times_mul_left hk, times_mul_right hk, times_times hk hk]; congr 1; ring

theorem sqrt_times (x : Fl) : Fl.sqrt (times (k ^ 2) x) = times k (Fl.sqrt x) := by
  have h : 0 < k ^ 2 := by positivity
  cases x with
  | nan => rfl
  | pinf => rw [times_pinf h]; exact (times_pinf hk).symm
  | ninf => rw [times_ninf h]; rfl
  | fin a =>
    rw [times_fin]
    by_cases ha : a < 0
    · have : a * k ^ 2 < 0 := mul_neg_of_neg_of_pos ha h
      simp only [Fl.sqrt, if_pos ha, if_pos this]; rfl
    · have ha' : 0 ≤ a := not_lt.mp ha
      rw [Fl.sqrt_fin _ (by positivity), Fl.sqrt_fin _ ha', times_fin, Real.sqrt_mul ha', Real.sqrt_sq hk.le]

theorem rpow_times (x : Fl) (e : ℝ) : Fl.rpow (times k x) e = times (k ^ e) (Fl.rpow x e) := by
  have h : 0 < k ^ e := Real.rpow_pos_of_pos hk e
  cases x with
  | nan => rfl
  | pinf => rw [times_pinf hk]; simp only [Fl.rpow]; split
            · simp [times_fin]
            · exact (times_pinf h).symm
  | ninf => rw [times_ninf hk]; simp only [Fl.rpow]; split
            · simp [times_fin]
            · exact (times_pinf h).symm
  | fin a =>
    rw [times_fin]
    simp only [Fl.rpow]
    rcases lt_trichotomy a 0 with ha | ha | ha
    · rw [if_pos ha, if_pos (mul_neg_of_neg_of_pos ha hk)]; rfl
    · subst ha
      simp only [zero_mul, lt_irrefl, if_false, if_true]
      split
      · exact (times_pinf h).symm
      · simp [times_fin]
    · have := mul_pos ha hk
      rw [if_neg ha.not_gt, if_neg this.not_gt, if_neg ha.ne', if_neg this.ne', times_fin, Real.mul_rpow ha.le hk.le]

theorem times_eq_zero (x : Fl) : times k x = .fin 0 ↔ x = .fin 0 := by
  cases x <;> simp [times_pinf hk, times_ninf hk, times_fin, times_nan, hk.ne']

end

theorem query_map {α : Type} (ions args : List String) (tot tot' : List String → α) (one one' : String → α) (f : α → α)
    (ht : ∀ l, tot' l = f (tot l)) (ho : ∀ s, one' s = f (one s)) :
    query ions args tot' one' = (query ions args tot one).map (Res.map f) := by
  unfold query
  rcases resolve ions args with e | sl
  · rfl
  · simp only []
    split
    · rw [ht]; rfl
    · simp only [Except.map, Res.map, List.map_map]
      congr 2
      apply List.map_congr_left
      intro s _
      simp only [Function.comp, ho]

theorem query_same {α : Type} (ions args : List String) (tot tot' : List String → α) (one one' : String → α)
    (ht : ∀ l, tot' l = tot l) (ho : ∀ s, one' s = one s) : query ions args tot' one' = query ions args tot one := by
  rw [funext ht, funext ho]

variable (K : Const) (o : Obs)

/-! ## C218: all densities times `k` -/

section
variable {k : ℝ} (hk : 0 < k)
include hk

theorem rhoS_dens (s : String) : rhoS K (o.dens k) s = times k (rhoS K o s) := times_mul_left hk _ _

theorem rhoTot_dens (l : List String) : rhoTot K (o.dens k) l = times k (rhoTot K o l) := by
  unfold rhoTot; rw [show rhoS K (o.dens k) = fun s => times k (rhoS K o s) from funext (rhoS_dens K o hk)]; exact sumSkip_times hk l _

theorem pthS_dens (c s : String) : pthS K (o.dens k) c s = times k (pthS K o c s) := by
  unfold pthS; rw [rhoS_dens K o hk, times_mul_left hk, times_mul_right hk, times_mul_right hk]; rfl

theorem pthTot_dens (c : String) (l : List String) : pthTot K (o.dens k) c l = times k (pthTot K o c l) := by
  unfold pthTot; rw [show pthS K (o.dens k) c = fun s => times k (pthS K o c s) from funext (pthS_dens K o hk c)]; exact sumSkip_times hk l _

theorem vCom_dens (l : List String) : vCom K (o.dens k) l = vCom K o l := by
  unfold vCom
  rw [show rhoS K (o.dens k) = fun s => times k (rhoS K o s) from funext (rhoS_dens K o hk)]
  simp only [times_mul_right hk, sumSkip_times hk, times_div_both hk]
  rfl

theorem velocity_dens (ions args : List String) (proj : Bool) : velocity K (o.dens k) ions args proj = velocity K o ions args proj := by
  unfold velocity; simp only [vCom_dens K o hk]; rfl

theorem dv_dens (ions : List String) (s0 s1 : String) (proj : Bool) : dv K (o.dens k) ions s0 s1 proj = dv K o ions s0 s1 proj := by
  unfold dv; simp only [velocity_dens K o hk]

/-- C218: multiplying every density by `k > 0` multiplies number density, mass density, thermal pressure and beta by `k`, whatever the
data (NaN and infinities included) and the arguments (errors included). -/
theorem C218_extensive (ions args : List String) (skipna : Bool) (c : String) :
    numberDensity (o.dens k) ions skipna args = (numberDensity o ions skipna args).map (Res.map (times k)) ∧
    massDensity K (o.dens k) ions args = (massDensity K o ions args).map (Res.map (times k)) ∧
    pth K (o.dens k) ions c args = (pth K o ions c args).map (Res.map (times k)) ∧
    beta K (o.dens k) ions c args = (beta K o ions c args).map (Res.map (times k)) := by
  refine ⟨?_, ?_, ?_, ?_⟩
  · apply query_map
    · intro l; unfold nTot
      split
      · exact sumSkip_times hk l o.n
      · exact sumAll_times hk l o.n
    · intro s; rfl
  · exact query_map _ _ _ _ _ _ _ (rhoTot_dens K o hk) (rhoS_dens K o hk)
  · exact query_map _ _ _ _ _ _ _ (pthTot_dens K o hk c) (pthS_dens K o hk c)
  · apply query_map
    · intro l; unfold betaOf; rw [pthTot_dens K o hk, times_div_left hk, times_mul_left hk]; rfl
    · intro s; unfold betaOf; rw [pthS_dens K o hk, times_div_left hk, times_mul_left hk]; rfl

/-- C218: velocities (the centre of mass too), drifts, temperatures, sound speeds and the VDF ratio do not change. -/
theorem C218_intensive (ions args : List String) (proj : Bool) (s0 s1 c : String) :
    velocity K (o.dens k) ions args proj = velocity K o ions args proj ∧
    dv K (o.dens k) ions s0 s1 proj = dv K o ions s0 s1 proj ∧
    temperature K (o.dens k) ions c args = temperature K o ions c args ∧
    soundSpeed K (o.dens k) ions args = soundSpeed K o ions args ∧
    vdfRatio K (o.dens k) ions s0 s1 = vdfRatio K o ions s0 s1 := by
  refine ⟨velocity_dens K o hk ions args proj, dv_dens K o hk ions s0 s1 proj, rfl, ?_, ?_⟩
  · apply query_same
    · intro l; unfold csOf
      rw [pthTot_dens K o hk, rhoTot_dens K o hk, times_mul_left hk, times_mul_left hk, times_div_both hk]
    · intro s; unfold csOf
      rw [pthS_dens K o hk, rhoS_dens K o hk, times_mul_left hk, times_mul_left hk, times_div_both hk]
  · have hn : ∀ a b, (o.dens k).n a / (o.dens k).n b = o.n a / o.n b := fun a b => times_div_both hk _ _
    unfold vdfRatio
    simp only [dv_dens K o hk, vdfRatioOf, hn]
    rfl

/-- C218: Alfven speed by `k^(-1/2)`, specific entropy by `k^(1-gamma)`. -/
theorem C218_powers (ions args : List String) :
    ca K (o.dens k) ions args = (ca K o ions args).map (Res.map (times (k ^ (-(1 / 2) : ℝ)))) ∧
    specificEntropy K (o.dens k) ions args = (specificEntropy K o ions args).map (Res.map (times (k ^ (1 - K.gamma)))) := by
  have h1 : 0 < k ^ (-(1 / 2) : ℝ) := Real.rpow_pos_of_pos hk _
  have h2 : 0 < k ^ (-K.gamma) := Real.rpow_pos_of_pos hk _
  have h3 : 0 < k ^ (1 - K.gamma) := Real.rpow_pos_of_pos hk _
  have h4 : k * k ^ (-K.gamma) = k ^ (1 - K.gamma) := by
    rw [sub_eq_add_neg, Real.rpow_add hk, Real.rpow_one]
  have hca : ∀ r, caOf K (o.dens k) (times k r) = times (k ^ (-(1 / 2) : ℝ)) (caOf K o r) := by
    intro r; unfold caOf
    rw [rpow_times hk, times_mul_left h1, times_mul_left h1]; rfl
  have hs : ∀ p r, entropyOf K (times k p) (times k r) = times (k ^ (1 - K.gamma)) (entropyOf K p r) := by
    intro p r; unfold entropyOf
    rw [times_mul_left hk, times_mul_left hk r, rpow_times hk, times_mul_left hk, times_mul_right h2, times_times h2 hk, mul_comm, h4,
      times_div_left h3]
  refine ⟨query_map _ _ _ _ _ _ _ (fun l => ?_) (fun s => ?_), query_map _ _ _ _ _ _ _ (fun l => ?_) (fun s => ?_)⟩
  · rw [rhoTot_dens K o hk, hca]
  · rw [rhoS_dens K o hk, hca]
  · rw [rhoTot_dens K o hk, pthTot_dens K o hk, hs]
  · rw [rhoS_dens K o hk, pthS_dens K o hk, hs]

/-- C218: dynamic pressure and heat flux by `k`. -/
theorem C218_drifting (ions args : List String) :
    pdynamic K (o.dens k) ions args false = (pdynamic K o ions args false).map (times k) ∧
    heatFlux K (o.dens k) ions args = (heatFlux K o ions args).map (Res.map (times k)) := by
  refine ⟨?_, ?_⟩
  · unfold pdynamic
    simp only [dv_dens K o hk]
    rcases chkSpecies ions (args.map PyVal.str) with e | st
    · rfl
    · simp only [Bool.not_false, if_true]
      split
      · rfl
      · rcases resolve ions st with e | sl
        · rfl
        · simp only []
          rcases forEach (fun s => dv K o ions s (pyJoin '+' args) false) sl with e | dvs
          · rfl
          · simp only [Except.map, rhoS_dens K o hk, times_mul_right hk]
            rw [sumSkip_times hk, times_mul_left hk]
  · unfold heatFlux
    simp only [dv_dens K o hk]
    rcases chkSpecies ions (args.map PyVal.str) with e | st
    · rfl
    · simp only []
      split
      · rfl
      · rcases resolve ions st with e | sl
        · rfl
        · simp only []
          have hq : ∀ s x, qparOf K (o.dens k) s x = times k (qparOf K o s x) := by
            intro s x; unfold qparOf; rw [rhoS_dens K o hk, times_mul_right hk]; rfl
          rcases forEach (fun s => dv K o ions s (pyJoin '+' st) false) st with e | dvs
          · rfl
          · simp only [hq, List.map_map, Function.comp_def]
            split
            · rw [sumSkip_times hk, times_mul_right hk]; rfl
            · simp only [times_mul_right hk, Except.map, Res.map, List.map_map, Function.comp_def]
              rfl

/-- C218: the estimated electrons: density by `k`; velocity and thermal speed do not change. -/
theorem C218_electrons (species : List String) :
    estimateElectrons K (o.dens k) species = (estimateElectrons K o species).map fun e => { e with n := times k e.n } := by
  unfold estimateElectrons
  rcases protonOf species with e | tkw
  · rfl
  · simp only [Except.map]
    congr 1
    have hq : ∀ s, (o.dens k).n s * .fin (K.chargeState s) = times k (o.n s * .fin (K.chargeState s)) := fun s => times_mul_left hk _ _
    have hw : (o.dens k).w = o.w := rfl
    have hv : (o.dens k).v = o.v := rfl
    have hn : Fl.sumSkip [(o.dens k).n tkw] = times k (Fl.sumSkip [o.n tkw]) := sumSkip_times hk [tkw] o.n
    have hne : (if species.length = 1 then times k (o.n (species.headD "") * .fin (K.chargeState (species.headD "")))
        else times k (Fl.sumSkip (species.map fun s => o.n s * .fin (K.chargeState s)))) =
        times k (if species.length = 1 then o.n (species.headD "") * .fin (K.chargeState (species.headD ""))
        else Fl.sumSkip (species.map fun s => o.n s * .fin (K.chargeState s))) := by split <;> rfl
    have hfl : ∀ f : V3 → Fl, (if species.length = 1 then
          times k (f (o.v (species.headD "")) * (o.n (species.headD "") * .fin (K.chargeState (species.headD ""))))
        else times k (Fl.sumSkip (species.map fun s => f (o.v s) * (o.n s * .fin (K.chargeState s))))) =
        times k (if species.length = 1 then f (o.v (species.headD "")) * (o.n (species.headD "") * .fin (K.chargeState (species.headD "")))
        else Fl.sumSkip (species.map fun s => f (o.v s) * (o.n s * .fin (K.chargeState s)))) := by intro f; split <;> rfl
    unfold electronsOf
    simp only [hq, hw, hv, hn, times_mul_right hk, sumSkip_times hk, hne, hfl V3.x, hfl V3.y, hfl V3.z, times_div_both hk,
      times_eq_zero hk]
    split <;> (split <;> rfl)

end

theorem tR_pos (d : RData) (a : String) (h : 0 < d.w a "scalar") : 0 < tR K d "scalar" a := by
  have hT := K.uT_pos; have hkJ := K.kbJ_pos; have hv := K.uV_pos; have hma := K.m_pos a
  unfold tR; positivity

/-- C218: the Coulomb logarithm of measured, like-charged species decreases by half the logarithm of the factor. -/
theorem C218_lnlambda (ions : List String) (a b : String) (ha : Valid ions [a]) (hb : Valid ions [b]) (d : RData)
    (hm : Measured o [a, b] d) (hna : 0 < d.n a) (hnb : 0 < d.n b) (hwa : 0 < d.w a "scalar") (hwb : 0 < d.w b "scalar")
    (hz : 0 < K.chargeState a * K.chargeState b) (k : ℝ) (hk : 0 < k) :
    ∃ L : ℝ, lnlambda K o ions a b = .ok (.fin L) ∧ lnlambda K (o.dens k) ions a b = .ok (.fin (L - Real.log k / 2)) := by
  have hz0 := hz.ne'
  have za : K.chargeState a ≠ 0 := left_ne_zero_of_mul hz0
  have hu := K.uN_pos; have hT := K.uT_pos; have hkE := K.kbEV_pos
  have hA := K.mAmu_pos a; have hB := K.mAmu_pos b
  have ta : 0 < tR K d "scalar" a * K.uT * K.kbEV := by have := tR_pos K d a hwa; positivity
  have tb : 0 < tR K d "scalar" b * K.uT * K.kbEV := by have := tR_pos K d b hwb; positivity
  have hd : K.mAmu a * (tR K d "scalar" b * K.uT * K.kbEV) + K.mAmu b * (tR K d "scalar" a * K.uT * K.kbEV) ≠ 0 := by
    positivity
  have val : ∀ (o : Obs) (n : String → ℝ), o.n a = .fin (n a) → o.n b = .fin (n b) →
      tempS K o "scalar" a = .fin (tR K d "scalar" a) → tempS K o "scalar" b = .fin (tR K d "scalar" b) → 0 < n a → 0 < n b →
      lnlambdaOf K o a b = .fin (29.9 - Real.log (K.chargeState a * K.chargeState b * (K.mAmu a + K.mAmu b) /
        (K.mAmu a * (tR K d "scalar" b * K.uT * K.kbEV) + K.mAmu b * (tR K d "scalar" a * K.uT * K.kbEV)) *
        Real.sqrt (n a * K.uN * K.chargeState a ^ 2 / (tR K d "scalar" a * K.uT * K.kbEV) +
          n b * K.uN * K.chargeState b ^ 2 / (tR K d "scalar" b * K.uT * K.kbEV)))) := by
    intro o n h1 h2 h3 h4 p1 p2
    have hr : 0 < n a * K.uN * K.chargeState a ^ 2 / (tR K d "scalar" a * K.uT * K.kbEV) +
        n b * K.uN * K.chargeState b ^ 2 / (tR K d "scalar" b * K.uT * K.kbEV) := by positivity
    have hs := Real.sqrt_pos.mpr hr
    unfold lnlambdaOf
    simp only []
    rw [h1, h2, h3, h4]
    simp only [Fl.fin_mul]
    rw [Fl.fin_div _ _ ta.ne', Fl.fin_div _ _ tb.ne', Fl.fin_add, Fl.fin_add, Fl.sqrt_fin _ hr.le,
      Fl.fin_div _ _ hd, Fl.fin_mul, Fl.log_fin _ (by positivity), Fl.fin_sub]
  have t1 := tempS_fin (K := K) hm (c := "scalar") (by simp) (show a ∈ [a, b] by simp)
  have t2 := tempS_fin (K := K) hm (c := "scalar") (by simp) (show b ∈ [a, b] by simp)
  have e1 := val o d.n (hm.n a (by simp)) (hm.n b (by simp)) t1 t2 hna hnb
  have e2 := val (o.dens k) (fun s => d.n s * k) (by show o.n a * .fin k = _; rw [hm.n a (by simp), Fl.fin_mul])
    (by show o.n b * .fin k = _; rw [hm.n b (by simp), Fl.fin_mul]) t1 t2 (by positivity) (by positivity)
  have l1 : lnlambda K o ions a b = .ok (lnlambdaOf K o a b) := by
    unfold lnlambda; rw [twoSpecies_ok ha hb]
  rw [e1] at l1
  refine ⟨_, l1, ?_⟩
  · unfold lnlambda; rw [twoSpecies_ok ha hb]; simp only []; rw [e2]
    congr 2
    obtain ⟨S, hS⟩ : ∃ S, S = d.n a * K.uN * K.chargeState a ^ 2 / (tR K d "scalar" a * K.uT * K.kbEV) +
          d.n b * K.uN * K.chargeState b ^ 2 / (tR K d "scalar" b * K.uT * K.kbEV) := ⟨_, rfl⟩
    have hSp : 0 < S := by rw [hS]; positivity
    have e : d.n a * k * K.uN * K.chargeState a ^ 2 / (tR K d "scalar" a * K.uT * K.kbEV) +
          d.n b * k * K.uN * K.chargeState b ^ 2 / (tR K d "scalar" b * K.uT * K.kbEV) = S * k := by
      rw [hS]; ring
    have hC : 0 < K.chargeState a * K.chargeState b * (K.mAmu a + K.mAmu b) /
        (K.mAmu a * (tR K d "scalar" b * K.uT * K.kbEV) + K.mAmu b * (tR K d "scalar" a * K.uT * K.kbEV)) := by positivity
    rw [e, ← hS, Real.sqrt_mul hSp.le, ← mul_assoc, Real.log_mul (by have := Real.sqrt_pos.mpr hSp; positivity)
      (Real.sqrt_pos.mpr hk).ne', Real.log_sqrt hk.le]
    ring

/-! ## C219: thermal speeds times `k`; the field times `k`; the field reversed -/

section
variable {k : ℝ} (hk : 0 < k)
include hk

theorem pthS_therm (c s : String) : pthS K (o.therm k) c s = times (k ^ 2) (pthS K o c s) := by
  have h2 : 0 < k ^ 2 := by positivity
  have e : (o.therm k).w s c * .fin K.uV = times k (o.w s c * .fin K.uV) := times_mul_left hk _ _
  unfold pthS
  rw [e, sq_times hk, times_mul_left h2, times_mul_right h2]; rfl

theorem pthTot_therm (c : String) (l : List String) : pthTot K (o.therm k) c l = times (k ^ 2) (pthTot K o c l) := by
  unfold pthTot
  rw [show pthS K (o.therm k) c = fun s => times (k ^ 2) (pthS K o c s) from funext (pthS_therm K o hk c)]
  exact sumSkip_times (by positivity) l _

theorem tempS_therm (c s : String) : tempS K (o.therm k) c s = times (k ^ 2) (tempS K o c s) := by
  have h2 : 0 < k ^ 2 := by positivity
  have e : (o.therm k).w s c * .fin K.uV = times k (o.w s c * .fin K.uV) := times_mul_left hk _ _
  unfold tempS
  rw [e, sq_times hk, times_mul_right h2]

/-- C219: multiplying every thermal speed by `k > 0` multiplies pressure, temperature, beta and entropy by `k^2` and the sound speed by
`k`, whatever the data and the arguments. -/
theorem C219_thermal (ions args : List String) (c : String) :
    pth K (o.therm k) ions c args = (pth K o ions c args).map (Res.map (times (k ^ 2))) ∧
    temperature K (o.therm k) ions c args = (temperature K o ions c args).map (Res.map (times (k ^ 2))) ∧
    beta K (o.therm k) ions c args = (beta K o ions c args).map (Res.map (times (k ^ 2))) ∧
    specificEntropy K (o.therm k) ions args = (specificEntropy K o ions args).map (Res.map (times (k ^ 2))) ∧
    soundSpeed K (o.therm k) ions args = (soundSpeed K o ions args).map (Res.map (times k)) := by
  have h2 : 0 < k ^ 2 := by positivity
  have hs : ∀ p r, entropyOf K (times (k ^ 2) p) r = times (k ^ 2) (entropyOf K p r) := by
    intro p r; unfold entropyOf; rw [times_mul_left h2, times_mul_left h2, times_div_left h2]
  have hc : ∀ p r, csOf K (times (k ^ 2) p) r = times k (csOf K p r) := by
    intro p r; unfold csOf
    rw [times_mul_left h2, times_div_left h2, times_mul_left h2, sqrt_times hk, times_div_left hk]
  refine ⟨?_, ?_, ?_, ?_, ?_⟩
  · exact query_map _ _ _ _ _ _ _ (pthTot_therm K o hk c) (pthS_therm K o hk c)
  · refine query_map _ _ _ _ _ _ _ (fun l => ?_) (tempS_therm K o hk c)
    unfold tempTot
    rw [show tempS K (o.therm k) c = fun s => times (k ^ 2) (tempS K o c s) from funext (tempS_therm K o hk c)]
    exact sumSkip_times h2 l _
  · refine query_map _ _ _ _ _ _ _ (fun l => ?_) (fun s => ?_)
    · unfold betaOf; rw [pthTot_therm K o hk, times_div_left h2, times_mul_left h2]; rfl
    · unfold betaOf; rw [pthS_therm K o hk, times_div_left h2, times_mul_left h2]; rfl
  · refine query_map _ _ _ _ _ _ _ (fun l => ?_) (fun s => ?_)
    · rw [pthTot_therm K o hk, hs]; rfl
    · rw [pthS_therm K o hk, hs]; rfl
  · refine query_map _ _ _ _ _ _ _ (fun l => ?_) (fun s => ?_)
    · rw [pthTot_therm K o hk, hc]; rfl
    · rw [pthS_therm K o hk, hc]; rfl

theorem field_eq : (o.field k).b = ⟨times k o.b.x, times k o.b.y, times k o.b.z⟩ := rfl

theorem mag_field : (o.field k).b.mag = times k o.b.mag := by
  have h2 : 0 < k ^ 2 := by positivity
  rw [field_eq o hk]
  unfold V3.mag
  simp only [sq_times hk]
  have e := sumAll_times h2 [Fl.sq o.b.x, Fl.sq o.b.y, Fl.sq o.b.z] (fun x => x)
  simp only [List.map_cons, List.map_nil] at e
  rw [← sqrt_times hk, e]

theorem uv_field : (o.field k).b.uv = o.b.uv := by
  unfold V3.uv
  rw [mag_field o hk, field_eq o hk]
  simp only [times_div_both hk]

/-- C219: multiplying the magnetic field by `k > 0` divides beta by `k^2`, multiplies the Alfven speed by `k` and leaves everything that
only uses the direction of the field unchanged, whatever the data and the arguments. -/
theorem C219_field (ions args : List String) (c s0 s1 : String) :
    beta K (o.field k) ions c args = (beta K o ions c args).map (Res.map (times (1 / k ^ 2))) ∧
    ca K (o.field k) ions args = (ca K o ions args).map (Res.map (times k)) ∧
    heatFlux K (o.field k) ions args = heatFlux K o ions args ∧
    vdfRatio K (o.field k) ions s0 s1 = vdfRatio K o ions s0 s1 ∧
    anisotropy K (o.field k) ions args = anisotropy K o ions args := by
  have h2 : 0 < k ^ 2 := by positivity
  have h3 : 0 < 1 / k ^ 2 := by positivity
  have hb : ∀ p, betaOf K (o.field k) p = times (1 / k ^ 2) (betaOf K o p) := by
    intro p; unfold betaOf; rw [mag_field o hk, sq_times hk, times_div_right h2, times_mul_left h3]
  have hc : ∀ r, caOf K (o.field k) r = times k (caOf K o r) := by
    intro p; unfold caOf; rw [mag_field o hk, times_mul_right hk, times_mul_left hk]
  have hpar : ∀ v : V3, V3.projPar v (o.field k).b = V3.projPar v o.b := by
    intro v; unfold V3.projPar; rw [uv_field o hk]
  have hper : ∀ v : V3, V3.projPer v (o.field k).b = V3.projPer v o.b := by
    intro v; unfold V3.projPer; rw [uv_field o hk, hpar]
  refine ⟨query_map _ _ _ _ _ _ _ (fun l => hb _) (fun s => hb _), query_map _ _ _ _ _ _ _ (fun l => hc _) (fun s => hc _), ?_, ?_, rfl⟩
  · unfold heatFlux; simp only [hpar]; rfl
  · unfold vdfRatio vdfRatioOf; simp only [hpar, hper]; rfl

end

/-- the field with the opposite sign -/
noncomputable def Obs.reverse (o : Obs) : Obs := { o with b := ⟨-o.b.x, -o.b.y, -o.b.z⟩ }

theorem neg_mul' (x y : Fl) : -x * y = -(x * y) := by
  cases x <;> cases y <;> first | rfl | (simp only [Fl.fin_neg, Fl.fin_mul]; congr 1; ring; done) | skip
  all_goals
    show Fl.mul (Fl.neg _) _ = Fl.neg (Fl.mul _ _)
    simp only [Fl.neg, Fl.mul, Fl.infMul]
    split_ifs <;> simp_all [Fl.neg] <;> (rename_i u v w; first | exact v (le_antisymm w u) | linarith)

theorem mul_neg' (x y : Fl) : x * -y = -(x * y) := by rw [Fl.mul_comm', neg_mul', Fl.mul_comm']

theorem neg_neg' (x : Fl) : - -x = x := by
  cases x <;> first | rfl | (simp only [Fl.fin_neg, neg_neg])

theorem sq_neg' (x : Fl) : Fl.sq (-x) = Fl.sq x := by unfold Fl.sq; rw [neg_mul', mul_neg', neg_neg']

theorem cube_neg' (x : Fl) : Fl.cube (-x) = -Fl.cube x := by
  unfold Fl.cube; rw [neg_mul' x (-x), mul_neg' x x, neg_neg', mul_neg']

theorem neg_div' (x y : Fl) : -x / y = -(x / y) := by
  cases x <;> cases y <;> first | rfl | skip
  all_goals
    show Fl.div (Fl.neg _) _ = Fl.neg (Fl.div _ _)
    simp only [Fl.neg, Fl.div]
    first
    | rfl
    | (simp; done)
    | (split_ifs <;> simp_all [Fl.neg] <;> first | linarith | ring)

theorem neg_add' (x y : Fl) : -x + -y = -(x + y) := by
  cases x <;> cases y <;> first | rfl | (simp only [Fl.fin_neg, Fl.fin_add]; congr 1; ring)

theorem isNaN_neg (x : Fl) : (-x).isNaN ↔ x.isNaN := by cases x <;> rfl

theorem sumSkip_neg {α : Type} (l : List α) (f : α → Fl) : Fl.sumSkip (l.map fun a => -f a) = -Fl.sumSkip (l.map f) := by
  induction l with
  | nil => simp [Fl.zero_def]
  | cons a l ih =>
    simp only [List.map_cons, Fl.sumSkip_cons, isNaN_neg, ih]
    split
    · rfl
    · rw [neg_add']

theorem mag_reverse : o.reverse.b.mag = o.b.mag := by
  unfold V3.mag Obs.reverse; simp only [sq_neg']

theorem uv_reverse : o.reverse.b.uv = ⟨-o.b.uv.x, -o.b.uv.y, -o.b.uv.z⟩ := by
  unfold V3.uv; rw [mag_reverse]; simp only [Obs.reverse, neg_div']

theorem projPar_reverse (v : V3) : V3.projPar v o.reverse.b = -V3.projPar v o.b := by
  unfold V3.projPar; rw [uv_reverse]; simp only [mul_neg']
  exact sumSkip_neg [v.x * o.b.uv.x, v.y * o.b.uv.y, v.z * o.b.uv.z] (fun x => x)

theorem projPer_reverse (v : V3) : V3.projPer v o.reverse.b = V3.projPer v o.b := by
  unfold V3.projPer; rw [projPar_reverse, uv_reverse]; simp only [mul_neg', neg_mul', neg_neg']

/-- C219: reversing the magnetic field changes the sign of the heat flux and nothing else, whatever the data and the arguments. -/
theorem C219_polarity (ions args : List String) (c s0 s1 : String) (pdyn : Bool) :
    heatFlux K o.reverse ions args = (heatFlux K o ions args).map (Res.map fun q => -q) ∧
    beta K o.reverse ions c args = beta K o ions c args ∧
    ca K o.reverse ions args = ca K o ions args ∧
    afsq K o.reverse ions pdyn args = afsq K o ions pdyn args ∧
    caani K o.reverse ions pdyn args = caani K o ions pdyn args ∧
    vdfRatio K o.reverse ions s0 s1 = vdfRatio K o ions s0 s1 := by
  have hca : ∀ args, ca K o.reverse ions args = ca K o ions args := by
    intro args; unfold ca caOf; rw [mag_reverse]; rfl
  have haf : ∀ args, afsq K o.reverse ions pdyn args = afsq K o ions pdyn args := by
    intro args; unfold afsq afsqOf
    rw [show V3.sqSum o.reverse.b = V3.sqSum o.b by unfold V3.sqSum Obs.reverse; simp only [sq_neg']]; rfl
  refine ⟨?_, ?_, hca args, haf args, ?_, ?_⟩
  · unfold heatFlux
    simp only [show ∀ s0 s1, dv K o.reverse ions s0 s1 false = dv K o ions s0 s1 false from fun _ _ => rfl]
    rcases chkSpecies ions (args.map PyVal.str) with e | st
    · rfl
    · simp only []
      split
      · rfl
      · rcases resolve ions st with e | sl
        · rfl
        · simp only []
          have hq : ∀ s x, qparOf K o.reverse s (-x) = -qparOf K o s x := by
            intro s x; unfold qparOf
            rw [cube_neg', neg_mul', neg_mul', neg_add', neg_mul']; rfl
          rcases forEach (fun s => dv K o ions s (pyJoin '+' st) false) st with e | dvs
          · rfl
          · simp only [projPar_reverse, hq, List.map_map, Function.comp_def]
            split
            · rw [sumSkip_neg, mul_neg']; rfl
            · simp only [mul_neg', Except.map, Res.map, List.map_map, Function.comp_def]
  · unfold beta betaOf; rw [mag_reverse]; rfl
  · unfold caani; simp only [hca, haf]
  · unfold vdfRatio vdfRatioOf; simp only [projPar_reverse, projPer_reverse]
    simp only [show ∀ s0 s1, dv K o.reverse ions s0 s1 true = dv K o ions s0 s1 true from fun _ _ => rfl]
    simp only [neg_div', sq_neg']
    rfl

/-- C219: the deviation of the anisotropy factor from one scales with `k^2` of the thermal speeds and `1/k^2` of the field; the pressure
anisotropy does not change. -/
theorem C219_anisotropy (ions ps : List String) (h : Valid ions ps) (d : RData) (hm : Measured o ps d) (hb : bsqR d ≠ 0) (k : ℝ)
    (hk : 0 < k) :
    ∃ x : ℝ, afsq K o ions false [pyJoin '+' ps] = .ok (.total (.fin (1 + x))) ∧
      afsq K (o.therm k) ions false [pyJoin '+' ps] = .ok (.total (.fin (1 + x * k ^ 2))) ∧
      afsq K (o.field k) ions false [pyJoin '+' ps] = .ok (.total (.fin (1 + x / k ^ 2))) := by
  have hms := hm.sorted
  have p1 := pthTot_fin (K := K) hms (c := "par") (by simp)
  have p2 := pthTot_fin (K := K) hms (c := "per") (by simp)
  obtain ⟨P, hP⟩ : ∃ P, P = ((pySorted ps).map (pR K d "par")).sum := ⟨_, rfl⟩
  obtain ⟨Q, hQ⟩ : ∃ Q, Q = ((pySorted ps).map (pR K d "per")).sum := ⟨_, rfl⟩
  rw [← hP] at p1
  rw [← hQ] at p2
  have hsq := b_sqSum_fin hm
  have val : ∀ (o : Obs) (P Q B : ℝ), V3.sqSum o.b = .fin B → B ≠ 0 →
      afsqOf K o (.fin P) (.fin Q) = .fin (1 + (Q - P) / B * (K.mu0 * K.uPth / K.uB ^ 2)) := by
    intro o P Q B h1 h2
    unfold afsqOf
    simp only [Fl.fin_mul, Fl.sumSkip_cons_fin, Fl.sumSkip_nil, Fl.zero_def, Fl.fin_add]
    rw [h1, Fl.fin_div _ _ h2, Fl.fin_mul, Fl.fin_add]
    congr 3; ring
  refine ⟨(Q - P) / bsqR d * (K.mu0 * K.uPth / K.uB ^ 2), ?_, ?_, ?_⟩
  · show query _ _ _ _ = _
    rw [query_join h, p1, p2, val o P Q _ hsq hb]
  · show query _ _ _ _ = _
    rw [query_join h, pthTot_therm K o hk, pthTot_therm K o hk, p1, p2, times_fin, times_fin, val (o.therm k) _ _ _ hsq hb]
    congr 4; ring
  · show query _ _ _ _ = _
    have hsq' : V3.sqSum (o.field k).b = .fin (bsqR d * k ^ 2) := by
      show V3.sqSum ⟨o.b.x * .fin k, o.b.y * .fin k, o.b.z * .fin k⟩ = _
      rw [hm.b]
      have : (⟨(V3.ofReal d.bx d.by_ d.bz).x * .fin k, (V3.ofReal d.bx d.by_ d.bz).y * .fin k,
        (V3.ofReal d.bx d.by_ d.bz).z * .fin k⟩ : V3) = V3.ofReal (d.bx * k) (d.by_ * k) (d.bz * k) := by simp [V3.ofReal]
      rw [this, V3.sqSum_ofReal]; unfold bsqR; congr 1; ring
    rw [query_join h]
    rw [show pthTot K (o.field k) "par" = pthTot K o "par" from rfl, show pthTot K (o.field k) "per" = pthTot K o "per" from rfl, p1, p2,
      val (o.field k) P Q _ hsq' (by positivity)]
    congr 4
    field_simp

/-! ### Concrete cases -/

example : numberDensity (exD.obs.dens 2) ["a", "p1"] true ["p1+a"] = .ok (.total (.fin 10)) := by
  have e : numberDensity exD.obs ["a", "p1"] true ["p1+a"] = .ok (.total (.fin 5)) := by
    have := (C10_measured exD.obs ["a", "p1"] ["p1", "a"] exValid true exD.n (fun _ _ => rfl))
    have e2 : pyJoin '+' ["p1", "a"] = "p1+a" := by decide +kernel
    rw [e2] at this
    rw [this]; simp [exD]; norm_num
  rw [(C218_extensive exK exD.obs (by norm_num : (0:ℝ) < 2) ["a", "p1"] ["p1+a"] true "par").1, e]
  simp only [Except.map, Res.map, times_fin]; norm_num

example : ∃ L : ℝ, lnlambda exK exD.obs ["a", "p1"] "p1" "a" = .ok (.fin L) ∧
    lnlambda exK (exD.obs.dens 3) ["a", "p1"] "p1" "a" = .ok (.fin (L - Real.log 3 / 2)) :=
  C218_lnlambda exK exD.obs ["a", "p1"] "p1" "a" (exValid.single (by simp)) (exValid.single (by simp)) exD (exD.measured _)
    (by simp [exD]) (by simp [exD]) (by simp [exD]) (by simp [exD]) (by simp [exK]) 3 (by norm_num)

example : ∃ x : ℝ, afsq exK exD.obs ["a", "p1"] false [pyJoin '+' ["p1", "a"]] = .ok (.total (.fin (1 + x))) ∧
      afsq exK (exD.obs.therm 2) ["a", "p1"] false [pyJoin '+' ["p1", "a"]] = .ok (.total (.fin (1 + x * 2 ^ 2))) ∧
      afsq exK (exD.obs.field 2) ["a", "p1"] false [pyJoin '+' ["p1", "a"]] = .ok (.total (.fin (1 + x / 2 ^ 2))) :=
  C219_anisotropy exK exD.obs _ _ exValid exD (exD.measured _) (by simp [bsqR, exD]; norm_num) 2 (by norm_num)

example : ∃ q : ℝ, heatFlux exK exD.obs ["a", "p1"] [pyJoin '+' ["p1", "a"]] = .ok (.total (.fin q)) ∧
    heatFlux exK exD.obs.reverse ["a", "p1"] [pyJoin '+' ["p1", "a"]] = .ok (.total (.fin (-q))) := by
  obtain ⟨q, hq⟩ : ∃ q : ℝ, heatFlux exK exD.obs ["a", "p1"] [pyJoin '+' ["p1", "a"]] = .ok (.total (.fin q)) := by
    obtain ⟨_, _, _, q, -, -, h, -⟩ := C26_sum exK exD.obs _ _ exValid (by simp) exD (exD.measured _)
      (by intro t _; simp only [exD]; split <;> norm_num) (by simp [exD])
    exact ⟨_, h⟩
  refine ⟨q, hq, ?_⟩
  rw [(C219_polarity exK exD.obs _ _ "par" "a" "p1" false).1, hq]; rfl

end SW
