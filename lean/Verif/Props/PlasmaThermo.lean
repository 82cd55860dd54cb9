import Verif.PlasmaPhys
import Verif.Props.PlasmaData

/-!
# Properties C10, C11, C15, C16, C17, C20, C21, C28, C94 (densities, pressures, speeds)

A query method called with one string returns `.ok (.total x)` (a series), called with several strings
`.ok (.each [(species, x), ...])` (a frame). `pyJoin '+' ps` is the string `"s0+s1+..."`.
-/

namespace SW
open Classical

/-! ### IEEE sums (specification level): addition is associative, NaN-skipping sums split -/

theorem Fl.add_assoc' (x y z : Fl) : x + y + z = x + (y + z) := by
  cases x <;> cases y <;> cases z <;>
    first | rfl | (show Fl.fin _ = Fl.fin _; congr 1; ring)

theorem Fl.zero_add' (x : Fl) : (0 : Fl) + x = x := by
  cases x <;> first | rfl | (show Fl.fin _ = Fl.fin _; congr 1; ring)

theorem Fl.add_zero' (x : Fl) : x + (0 : Fl) = x := by rw [Fl.add_comm', Fl.zero_add']

theorem Fl.sumSkip_append (a b : List Fl) : Fl.sumSkip (a ++ b) = Fl.sumSkip a + Fl.sumSkip b := by
  induction a with
  | nil => simp [Fl.zero_add']
  | cons x a ih =>
    rw [List.cons_append, Fl.sumSkip_cons, Fl.sumSkip_cons, ih]
    split
    · rfl
    · rw [Fl.add_assoc']

theorem Fl.sumSkip_perm {a b : List Fl} (h : a.Perm b) : Fl.sumSkip a = Fl.sumSkip b := by
  induction h with
  | nil => rfl
  | cons x _ ih => rw [Fl.sumSkip_cons, Fl.sumSkip_cons, ih]
  | swap x y l =>
    simp only [Fl.sumSkip_cons]
    split <;> split <;> first | rfl | (rw [← Fl.add_assoc', ← Fl.add_assoc', Fl.add_comm' x y])
  | trans _ _ h1 h2 => exact h1.trans h2

theorem Fl.sumAll_perm {a b : List Fl} (h : a.Perm b) : Fl.sumAll a = Fl.sumAll b := by
  induction h with
  | nil => rfl
  | cons x _ ih => rw [Fl.sumAll_cons, Fl.sumAll_cons, ih]
  | swap x y l => simp only [Fl.sumAll_cons]; rw [← Fl.add_assoc', ← Fl.add_assoc', Fl.add_comm' x y]
  | trans _ _ h1 h2 => exact h1.trans h2

theorem Fl.sumSkip_eq_sumAll (l : List Fl) :
    Fl.sumSkip l = Fl.sumAll (l.map fun x => Fl.sumSkip [x]) := by
  induction l with
  | nil => rfl
  | cons x l ih =>
    rw [List.map_cons, Fl.sumAll_cons, ← ih, ← Fl.sumSkip_append]; rfl

/-- A query whose total is a NaN-skipping sum: the total of a `+` string is the sum of the single-species
totals, in any order. -/
theorem query_sum {ions ps : List String} (h : Valid ions ps) (F : String → Fl) (one x : String → Fl)
    (hx : ∀ s ∈ ps, query ions [s] (fun sl => Fl.sumSkip (sl.map F)) one = .ok (.total (x s))) :
    query ions [pyJoin '+' ps] (fun sl => Fl.sumSkip (sl.map F)) one =
      .ok (.total (Fl.sumAll (ps.map x))) := by
  rw [query_join h, Fl.sumSkip_perm ((pySorted_perm ps).map F), Fl.sumSkip_eq_sumAll, List.map_map]
  congr 3
  apply List.map_congr_left
  intro s hs
  have := hx s hs
  rw [query_single h hs] at this
  injection this with this; injection this

/-- The result of a `+` query does not depend on the order of the names. -/
theorem query_join_perm {α : Type} {ions ps qs : List String} (h : Valid ions ps) (hp : ps.Perm qs)
    (tot : List String → α) (one : String → α) :
    query ions [pyJoin '+' ps] tot one = query ions [pyJoin '+' qs] tot one := by
  rw [query_join h, query_join (h.perm hp), pySorted_eq_of_perm hp]

/-! ### A concrete plasma row for the non-vacuity examples -/

/-- two species, alphas and protons, with drifts, anisotropic temperatures and an oblique field -/
noncomputable def exD : RData where
  n := fun s => if s = "a" then 1 else 4
  vx := fun s => if s = "a" then 450 else 400
  vy := fun _ => 0
  vz := fun s => if s = "a" then -10 else 5
  w := fun s c => if s = "a" then 2 else if c = "par" then 1 else if c = "per" then 4 else Real.sqrt 11
  bx := 3
  by_ := 4
  bz := 0

theorem exValid : Valid ["a", "p1"] ["p1", "a"] :=
  ⟨by simp, by decide, by decide, by decide, by decide⟩

variable (K : Const) (o : Obs)

/-! ## C10 -/

/-- C10: the number density of `"s0+s1+..."` is the sum of the single-species densities, whatever the data
(NaN and infinities included) and for both settings of `skipna`. -/
theorem C10_sum (ions ps : List String) (h : Valid ions ps) (skipna : Bool) (x : String → Fl)
    (hx : ∀ s ∈ ps, numberDensity o ions skipna [s] = .ok (.total (x s))) :
    numberDensity o ions skipna [pyJoin '+' ps] = .ok (.total (Fl.sumAll (ps.map x))) := by
  cases skipna with
  | true => exact query_sum h o.n o.n x hx
  | false =>
    unfold numberDensity nTot at *
    rw [query_join h]
    simp only [Bool.false_eq_true, if_false] at hx ⊢
    rw [Fl.sumAll_perm ((pySorted_perm ps).map o.n)]
    congr 3
    apply List.map_congr_left
    intro s hs
    have := hx s hs
    rw [query_single h hs] at this
    injection this with this; injection this with this
    rw [← this]; simp [Fl.add_zero']

/-- C10: with measured densities the total is the real sum. -/
theorem C10_measured (ions ps : List String) (h : Valid ions ps) (skipna : Bool) (n : String → ℝ)
    (hn : ∀ s ∈ ps, o.n s = .fin (n s)) :
    numberDensity o ions skipna [pyJoin '+' ps] = .ok (.total (.fin (ps.map n).sum)) := by
  unfold numberDensity
  rw [query_join h]
  unfold nTot
  cases skipna
  · rw [if_neg (by simp), Fl.sumAll_fin' _ _ n (fun s hs => hn s (mem_pySorted.mp hs)), sum_sorted]
  · rw [if_pos rfl, Fl.sumSkip_fin' _ _ n (fun s hs => hn s (mem_pySorted.mp hs)), sum_sorted]

/-- C10: `skipna=False` gives NaN as soon as one member is NaN; `skipna=True` counts NaN members as zero. -/
theorem C10_nan (ions ps : List String) (h : Valid ions ps) :
    ((∃ s ∈ ps, o.n s = .nan) → numberDensity o ions false [pyJoin '+' ps] = .ok (.total .nan)) ∧
    (∀ n : String → ℝ, (∀ s ∈ ps, o.n s = .fin (n s) ∨ (o.n s = .nan ∧ n s = 0)) →
      numberDensity o ions true [pyJoin '+' ps] = .ok (.total (.fin (ps.map n).sum))) := by
  constructor
  · rintro ⟨s, hs, hn⟩
    unfold numberDensity nTot
    rw [query_join h]
    simp only [Bool.false_eq_true, if_false]
    rw [Fl.sumAll_nan]
    exact List.mem_map.mpr ⟨s, mem_pySorted.mpr hs, hn⟩
  · intro n hn
    have := C10_sum o ions ps h true (fun s => .fin (n s)) (fun s hs => by
      unfold numberDensity nTot
      rw [query_single h hs]
      simp only [if_true, List.map_cons, List.map_nil]
      rcases hn s hs with e | ⟨e, e0⟩
      · rw [e]; simp [Fl.add_zero']
      · rw [e, e0]; simp [Fl.zero_def])
    rw [this, Fl.sumAll_fin' ps _ n (fun _ _ => rfl)]

/-- C10: the order of the names is irrelevant. -/
theorem C10_order (ions ps qs : List String) (h : Valid ions ps) (hp : ps.Perm qs) (skipna : Bool) :
    numberDensity o ions skipna [pyJoin '+' ps] = numberDensity o ions skipna [pyJoin '+' qs] :=
  query_join_perm h hp _ _

/-- C10: with several arguments every species keeps its own column, in sorted order, nothing is summed. -/
theorem C10_columns (ions ps : List String) (h : Valid ions ps) (hl : ps.length ≠ 1) (skipna : Bool) :
    ∃ l, numberDensity o ions skipna ps = .ok (.each l) ∧
      l.map Prod.fst = pySorted ps ∧ ∀ q ∈ l, q.2 = o.n q.1 := by
  refine ⟨_, query_args h hl _ _, ?_, ?_⟩
  · simp [Function.comp_def]
  · intro q hq; obtain ⟨s, -, rfl⟩ := List.mem_map.mp hq; rfl

example : numberDensity exD.obs ["a", "p1"] true ["p1+a"] = .ok (.total (.fin 5)) := by
  have h := C10_measured exD.obs _ _ exValid true exD.n (fun _ _ => rfl)
  rw [show pyJoin '+' ["p1", "a"] = "p1+a" by decide +kernel] at h
  rw [h]; simp [exD]; norm_num

/-! ## C11 -/

/-- C11: mass density is the mass-number-weighted number density, summed over the species. -/
theorem C11_value (ions ps : List String) (h : Valid ions ps) (n : String → ℝ)
    (hn : ∀ s ∈ ps, o.n s = .fin (n s)) :
    massDensity K o ions [pyJoin '+' ps] = .ok (.total (.fin (ps.map fun s => n s * K.mInMp s).sum)) := by
  unfold massDensity rhoTot
  rw [query_join h, Fl.sumSkip_fin' _ _ (fun s => n s * K.mInMp s), sum_sorted]
  intro s hs; unfold rhoS; rw [hn s (mem_pySorted.mp hs), Fl.fin_mul]

/-- C11: for pure protons (mass one) the mass density is the number density, whatever the data. -/
theorem C11_protons (ions ps : List String) (h : Valid ions ps) (h1 : ∀ s ∈ ps, K.mInMp s = 1) :
    massDensity K o ions [pyJoin '+' ps] = numberDensity o ions true [pyJoin '+' ps] := by
  unfold massDensity numberDensity
  rw [query_join h, query_join h]
  unfold rhoTot nTot
  rw [if_pos rfl]
  congr 3
  apply List.map_congr_left
  intro s hs
  unfold rhoS
  rw [h1 s (mem_pySorted.mp hs)]
  cases o.n s with
  | nan => rfl
  | pinf => show Fl.infMul true 1 = _; simp [Fl.infMul]
  | ninf => show Fl.infMul false 1 = _; simp [Fl.infMul]
  | fin a => rw [Fl.fin_mul, mul_one]

/-- C11: order independence, whatever the data. -/
theorem C11_order (ions ps qs : List String) (h : Valid ions ps) (hp : ps.Perm qs) :
    massDensity K o ions [pyJoin '+' ps] = massDensity K o ions [pyJoin '+' qs] :=
  query_join_perm h hp _ _

/-- C11: additive over disjoint species sets, whatever the data. -/
theorem C11_additive (ions ps qs : List String) (h : Valid ions (ps ++ qs)) (hps : ps ≠ []) (hqs : qs ≠ [])
    (x y : Fl) (hx : massDensity K o ions [pyJoin '+' ps] = .ok (.total x))
    (hy : massDensity K o ions [pyJoin '+' qs] = .ok (.total y)) :
    massDensity K o ions [pyJoin '+' (ps ++ qs)] = .ok (.total (x + y)) := by
  have v1 : Valid ions ps := ⟨hps, (List.nodup_append.mp h.nodup).1, fun s hs => h.plus s (by simp [hs]),
    fun s hs => h.comma s (by simp [hs]), fun s hs => h.avail s (by simp [hs])⟩
  have v2 : Valid ions qs := ⟨hqs, (List.nodup_append.mp h.nodup).2.1, fun s hs => h.plus s (by simp [hs]),
    fun s hs => h.comma s (by simp [hs]), fun s hs => h.avail s (by simp [hs])⟩
  unfold massDensity rhoTot at *
  rw [query_join v1] at hx
  rw [query_join v2] at hy
  injection hx with hx; injection hx with hx
  injection hy with hy; injection hy with hy
  rw [query_join h, ← hx, ← hy, Fl.sumSkip_perm ((pySorted_perm (ps ++ qs)).map _), List.map_append,
    Fl.sumSkip_append, Fl.sumSkip_perm ((pySorted_perm ps).map _), Fl.sumSkip_perm ((pySorted_perm qs).map _)]

/-! ## C15 -/

/-- C15: pressure and temperature of a `+` string are the sums of the single-species values, in each component
and whatever the data. -/
theorem C15_additive (ions ps : List String) (h : Valid ions ps) (c : String) (x y : String → Fl)
    (hx : ∀ s ∈ ps, pth K o ions c [s] = .ok (.total (x s)))
    (hy : ∀ s ∈ ps, temperature K o ions c [s] = .ok (.total (y s))) :
    pth K o ions c [pyJoin '+' ps] = .ok (.total (Fl.sumAll (ps.map x))) ∧
    temperature K o ions c [pyJoin '+' ps] = .ok (.total (Fl.sumAll (ps.map y))) :=
  ⟨query_sum h _ _ x hx, query_sum h _ _ y hy⟩

/-- C15: the value for one species: `p = rho w^2 / 2` and `T = m w^2 / (2 k_B)` in SI units; both are
non-negative for a non-negative density. -/
theorem C15_value (ions : List String) (s : String) (h : Valid ions [s]) (d : RData) (hm : Measured o [s] d)
    (c : String) (hc : c ∈ ["par", "per", "scalar"]) :
    ∃ p t : ℝ, pth K o ions c [s] = .ok (.total (.fin p)) ∧ temperature K o ions c [s] = .ok (.total (.fin t)) ∧
      p * K.uPth = (d.n s * K.mInMp s * K.uRho) * (d.w s c * K.uV) ^ 2 / 2 ∧
      K.kbJ * (t * K.uT) = K.m s * (d.w s c * K.uV) ^ 2 / 2 ∧
      (0 ≤ d.n s → 0 ≤ p) ∧ 0 ≤ t := by
  have h1 := query_single h (List.mem_singleton.mpr rfl) (pthTot K o c) (pthS K o c)
  have h2 := query_single h (List.mem_singleton.mpr rfl) (tempTot K o c) (tempS K o c)
  refine ⟨pR K d c s, tR K d c s, ?_, ?_, ?_, ?_, ?_, ?_⟩
  · unfold pth; rw [h1, pthTot_fin hm hc]; simp
  · unfold temperature; rw [h2, tempTot_fin hm hc]; simp
  · unfold pR; have := K.uPth_pos.ne'; field_simp; ring
  · unfold tR; have := K.kbJ_pos.ne'; have := K.uT_pos.ne'; field_simp; ring
  · intro hn; unfold pR
    have := K.uPth_pos; have := K.mInMp_pos s; have := K.uRho_pos; positivity
  · unfold tR; have := K.kbJ_pos; have := K.uT_pos; have := K.m_pos s; positivity

/-- C15: in every plasma that can be constructed, at every row where density and both thermal speeds are
measured, `3 p_scalar = p_par + 2 p_per`, and the same for the temperature. -/
theorem C15_scalar {ι : Type} (new : Frame ι) (sp : List String) (hsp : Valid sp sp) (p : Plasma ι)
    (h : mkPlasma new sp = .ok p) (s : String) (hs : s ∈ sp) (i : ι) (n wpar wper : ℝ)
    (hn : (new.get ⟨"n", "", s⟩).map (· i) = some (.fin n))
    (hpar : (new.get ⟨"w", "par", s⟩).map (· i) = some (.fin wpar))
    (hper : (new.get ⟨"w", "per", s⟩).map (· i) = some (.fin wper)) :
    ∃ a b c x y z : ℝ,
      pth K (obsAt p i) sp "par" [s] = .ok (.total (.fin a)) ∧
      pth K (obsAt p i) sp "per" [s] = .ok (.total (.fin b)) ∧
      pth K (obsAt p i) sp "scalar" [s] = .ok (.total (.fin c)) ∧ 3 * c = a + 2 * b ∧
      temperature K (obsAt p i) sp "par" [s] = .ok (.total (.fin x)) ∧
      temperature K (obsAt p i) sp "per" [s] = .ok (.total (.fin y)) ∧
      temperature K (obsAt p i) sp "scalar" [s] = .ok (.total (.fin z)) ∧ 3 * z = x + 2 * y := by
  obtain ⟨w, hw, -, hwe, -⟩ := C06_scalar_thermal_speed new sp hsp.ne hsp.plus hsp.comma p h s hs i wpar wper
    hpar hper
  have hkeep : ∀ c ∈ [(⟨"n", "", s⟩ : Col), ⟨"w", "par", s⟩, ⟨"w", "per", s⟩], p.data.get c = new.get c := by
    intro c hc
    have := ((C05_stored_columns new sp hsp.ne hsp.plus hsp.comma p h).2 c).1
    simp only [List.mem_cons, List.not_mem_nil, or_false] at hc
    rcases hc with rfl | rfl | rfl <;> exact this (by simp [hs])
  have kn := hkeep ⟨"n", "", s⟩ (by simp)
  have kpar := hkeep ⟨"w", "par", s⟩ (by simp)
  have kper := hkeep ⟨"w", "per", s⟩ (by simp)
  have on : (obsAt p i).n s = .fin n := by unfold obsAt; simp only [kn, hn]; rfl
  have opar : (obsAt p i).w s "par" = .fin wpar := by unfold obsAt; simp only [kpar, hpar]; rfl
  have oper : (obsAt p i).w s "per" = .fin wper := by unfold obsAt; simp only [kper, hper]; rfl
  have osc : (obsAt p i).w s "scalar" = .fin w := by unfold obsAt; simp only [hw]; rfl
  have hP : ∀ c r, (obsAt p i).w s c = .fin r → pth K (obsAt p i) sp c [s] =
      .ok (.total (.fin (0.5 / K.uPth * ((r * K.uV) ^ 2 * (n * K.mInMp s * K.uRho))))) := by
    intro c r hr
    unfold pth; rw [query_single hsp hs]; unfold pthTot pthS rhoS
    simp [on, hr, Fl.add_zero']
  have hT : ∀ c r, (obsAt p i).w s c = .fin r → temperature K (obsAt p i) sp c [s] =
      .ok (.total (.fin (0.5 * K.m s / (K.kbJ * K.uT) * (r * K.uV) ^ 2))) := by
    intro c r hr
    unfold temperature; rw [query_single hsp hs]; unfold tempTot tempS
    simp [hr, Fl.add_zero']
  refine ⟨_, _, _, _, _, _, hP _ _ opar, hP _ _ oper, hP _ _ osc, ?_, hT _ _ opar, hT _ _ oper, hT _ _ osc, ?_⟩
  · have := K.uPth_pos.ne'; linear_combination (0.5 / K.uPth * (K.uV ^ 2 * (n * K.mInMp s * K.uRho))) * hwe
  · linear_combination (0.5 * K.m s / (K.kbJ * K.uT) * K.uV ^ 2) * hwe

/-! ## C16 -/

/-- C16: `beta = 2 mu0 p / B^2` in SI units, in each component, for one species or a sum. -/
theorem C16_value (ions ps : List String) (h : Valid ions ps) (d : RData) (hm : Measured o ps d)
    (hb : d.bx ^ 2 + d.by_ ^ 2 + d.bz ^ 2 ≠ 0) (c : String) (hc : c ∈ ["par", "per", "scalar"]) :
    ∃ p b : ℝ, pth K o ions c [pyJoin '+' ps] = .ok (.total (.fin p)) ∧
      beta K o ions c [pyJoin '+' ps] = .ok (.total (.fin b)) ∧
      b * ((d.bx ^ 2 + d.by_ ^ 2 + d.bz ^ 2) * K.uB ^ 2) = 2 * K.mu0 * (p * K.uPth) := by
  refine ⟨((pySorted ps).map (pR K d c)).sum, 2 * K.mu0 * (((pySorted ps).map (pR K d c)).sum * K.uPth) /
    (bsqR d * K.uB ^ 2), ?_, ?_, ?_⟩
  · unfold pth; rw [query_join h, pthTot_fin hm.sorted hc]
  · unfold beta; rw [query_join h, pthTot_fin hm.sorted hc, betaOf_fin hm hb]
  · have : bsqR d ≠ 0 := hb
    have := K.uB_pos.ne'
    change _ * (bsqR d * K.uB ^ 2) = _
    field_simp

/-- C16: `BField.pressure` is the magnetic pressure `B^2 / 2 mu0`, so beta is the ratio of the thermal to the
magnetic pressure, in any units. -/
theorem C16_magnetic_pressure (ions ps : List String) (h : Valid ions ps) (d : RData) (hm : Measured o ps d)
    (hb : d.bx ^ 2 + d.by_ ^ 2 + d.bz ^ 2 ≠ 0) (c : String) (hc : c ∈ ["par", "per", "scalar"]) :
    ∃ p b m : ℝ, pth K o ions c [pyJoin '+' ps] = .ok (.total (.fin p)) ∧
      beta K o ions c [pyJoin '+' ps] = .ok (.total (.fin b)) ∧
      bPressure K.uB K.mu0 K.uPth o.b = .fin m ∧ 0 < m ∧
      2 * K.mu0 * (m * K.uPth) = (d.bx ^ 2 + d.by_ ^ 2 + d.bz ^ 2) * K.uB ^ 2 ∧ b = p / m := by
  obtain ⟨p, b, h1, h2, h3⟩ := C16_value K o ions ps h d hm hb c hc
  have hbp : 0 < bsqR d := lt_of_le_of_ne (bsqR_nonneg d) (Ne.symm hb)
  have e1 := K.uB_pos
  have e2 := K.mu0_pos
  have e3 := K.uPth_pos
  have hmp : 0 < bsqR d * (K.uB ^ 2 / (2 * K.mu0 * K.uPth)) := by positivity
  refine ⟨p, b, bsqR d * (K.uB ^ 2 / (2 * K.mu0 * K.uPth)), h1, h2, ?_, hmp, ?_, ?_⟩
  · unfold bPressure; rw [bsq_fin hm, Fl.fin_mul]
  · change _ = bsqR d * K.uB ^ 2
    field_simp
  · change b * (bsqR d * K.uB ^ 2) = _ at h3
    rw [eq_div_iff hmp.ne']
    field_simp
    linarith

/-- C16: beta is additive over the species. -/
theorem C16_additive (ions ps : List String) (h : Valid ions ps) (d : RData) (hm : Measured o ps d)
    (hb : d.bx ^ 2 + d.by_ ^ 2 + d.bz ^ 2 ≠ 0) (c : String) (hc : c ∈ ["par", "per", "scalar"]) :
    ∃ b : String → ℝ, (∀ s ∈ ps, beta K o ions c [s] = .ok (.total (.fin (b s)))) ∧
      beta K o ions c [pyJoin '+' ps] = .ok (.total (.fin (ps.map b).sum)) := by
  refine ⟨fun s => pR K d c s * (2 * K.mu0 * K.uPth / (bsqR d * K.uB ^ 2)), fun s hs => ?_, ?_⟩
  · unfold beta
    rw [query_single h hs, pthTot_fin (hm.sub (qs := [s]) (by simpa using hs)) hc, betaOf_fin hm hb]
    simp only [List.map_cons, List.map_nil, List.sum_cons, List.sum_nil, add_zero]
    congr 3; ring
  · unfold beta
    rw [query_join h, pthTot_fin hm.sorted hc, betaOf_fin hm hb, list_sum_mul_right, sum_sorted]
    congr 3; ring

/-- C16: for one species `beta = (w / C_A)^2`; the units cancel. -/
theorem C16_speed_ratio (ions : List String) (s : String) (h : Valid ions [s]) (d : RData)
    (hm : Measured o [s] d) (hn : 0 < d.n s) (hb : d.bx ^ 2 + d.by_ ^ 2 + d.bz ^ 2 ≠ 0)
    (c : String) (hc : c ∈ ["par", "per", "scalar"]) :
    ∃ b v : ℝ, beta K o ions c [s] = .ok (.total (.fin b)) ∧ ca K o ions [s] = .ok (.total (.fin v)) ∧
      0 < v ∧ b = (d.w s c / v) ^ 2 := by
  have hbp : 0 < bsqR d := lt_of_le_of_ne (bsqR_nonneg d) (Ne.symm hb)
  have hr : 0 < d.n s * K.mInMp s := mul_pos hn (K.mInMp_pos s)
  have hk : 0 < K.uRho * K.mu0 := mul_pos K.uRho_pos K.mu0_pos
  have hmem : s ∈ [s] := List.mem_singleton.mpr rfl
  have hrp := Real.rpow_pos_of_pos hr (-(1 / 2))
  have hsb := Real.sqrt_pos.mpr hbp
  have hsk := Real.sqrt_pos.mpr hk
  refine ⟨2 * K.mu0 * (pR K d c s * K.uPth) / (bsqR d * K.uB ^ 2), (d.n s * K.mInMp s) ^ (-(1 / 2) : ℝ) * Real.sqrt (bsqR d) *
    (K.uB / (Real.sqrt (K.uRho * K.mu0) * K.uV)), ?_, ?_, ?_, ?_⟩
  · unfold beta
    rw [query_single h hmem, pthTot_fin hm hc, betaOf_fin hm hb]
    simp
  · unfold ca
    rw [query_single h hmem, rhoTot_fin hm]
    simp only [List.map_cons, List.map_nil, List.sum_cons, List.sum_nil, add_zero]
    unfold caOf
    rw [Fl.rpow_fin _ _ hr, bmag_fin hm, Fl.fin_mul, Fl.fin_mul]
  · have := K.uB_pos; have := K.uV_pos; positivity
  · have e1 : ((d.n s * K.mInMp s) ^ (-(1 / 2) : ℝ)) ^ 2 = (d.n s * K.mInMp s)⁻¹ := by
      rw [← Real.rpow_natCast, ← Real.rpow_mul hr.le]; norm_num [Real.rpow_neg_one]
    have e2 := Real.sq_sqrt hbp.le
    have e3 := Real.sq_sqrt hk.le
    have := K.uB_pos.ne'; have := K.uV_pos.ne'; have := K.uPth_pos.ne'; have := K.uRho_pos.ne'
    have := K.mu0_pos.ne'; have hn0 := hn.ne'; have hm0 := (K.mInMp_pos s).ne'
    rw [div_pow, mul_pow, mul_pow, div_pow, mul_pow, e1, e2, e3]
    unfold pR
    field_simp
    norm_num

/-- C16: a missing field component gives NaN in every component and for every species string. -/
theorem C16_nan (ions ps : List String) (h : Valid ions ps) (c : String)
    (hb : o.b.x = .nan ∨ o.b.y = .nan ∨ o.b.z = .nan) :
    beta K o ions c [pyJoin '+' ps] = .ok (.total .nan) := by
  unfold beta
  rw [query_join h]
  have hmag : o.b.mag = .nan := by
    unfold V3.mag
    rcases hb with e | e | e <;> simp [e]
  unfold betaOf
  rw [hmag]; simp

example (K : Const) : ∃ b : String → ℝ,
    (∀ s ∈ ["p1", "a"], beta K exD.obs ["a", "p1"] "par" [s] = .ok (.total (.fin (b s)))) ∧
      beta K exD.obs ["a", "p1"] "par" [pyJoin '+' ["p1", "a"]] = .ok (.total (.fin (["p1", "a"].map b).sum)) :=
  C16_additive K exD.obs _ _ exValid exD (exD.measured _) (by norm_num [exD]) "par" (by simp)

/-! ## C17 -/

/-- C17: the anisotropy of one species or a sum is `p_per / p_par` (parallel pressure positive). -/
theorem C17_value (ions ps : List String) (h : Valid ions ps) (a b : ℝ)
    (ha : pth K o ions "par" [pyJoin '+' ps] = .ok (.total (.fin a)))
    (hb : pth K o ions "per" [pyJoin '+' ps] = .ok (.total (.fin b))) (ha0 : a ≠ 0) :
    anisotropy K o ions [pyJoin '+' ps] = .ok (.total (.fin (b / a))) := by
  unfold pth at ha hb
  rw [query_join h] at ha hb
  unfold anisotropy
  rw [query_join h]
  injection ha with ha; injection ha with ha
  injection hb with hb; injection hb with hb
  rw [ha, hb]
  unfold aniOf
  rw [Fl.fin_div _ _ ha0]
  simp only [Fl.prodSkip_cons_fin, Fl.prodSkip_nil, Fl.one_def, Fl.fin_mul]
  congr 3; ring

/-- C17: for one species with positive density and thermal speeds the anisotropy is `(w_per / w_par)^2`: it does
not depend on the density, and compares with 1 as `w_per` with `w_par`. -/
theorem C17_single (ions : List String) (s : String) (h : Valid ions [s]) (d : RData) (hm : Measured o [s] d)
    (hn : 0 < d.n s) (h1 : 0 < d.w s "par") (h2 : 0 < d.w s "per") :
    ∃ a : ℝ, anisotropy K o ions [s] = .ok (.total (.fin a)) ∧ a = (d.w s "per" / d.w s "par") ^ 2 ∧
      (1 < a ↔ d.w s "par" < d.w s "per") ∧ (a = 1 ↔ d.w s "par" = d.w s "per") ∧
      (a < 1 ↔ d.w s "per" < d.w s "par") := by
  have hmem : s ∈ [s] := List.mem_singleton.mpr rfl
  have hp : ∀ c ∈ ["par", "per", "scalar"], pth K o ions c [pyJoin '+' [s]] =
      .ok (.total (.fin (pR K d c s))) := by
    intro c hc
    rw [pyJoin_singleton]
    unfold pth; rw [query_single h hmem, pthTot_fin hm hc]; simp
  have hpos : 0 < pR K d "par" s := by
    unfold pR
    have := K.uPth_pos; have := K.mInMp_pos s; have := K.uRho_pos; have := K.uV_pos; positivity
  have e : pR K d "per" s / pR K d "par" s = (d.w s "per" / d.w s "par") ^ 2 := by
    unfold pR
    have := K.uPth_pos.ne'; have := (K.mInMp_pos s).ne'; have := K.uRho_pos.ne'; have := K.uV_pos.ne'
    have := hn.ne'; have := h1.ne'
    field_simp
  have hv := C17_value K o ions [s] h _ _ (hp "par" (by simp)) (hp "per" (by simp)) hpos.ne'
  rw [pyJoin_singleton, e] at hv
  have hq : 0 < d.w s "per" / d.w s "par" := div_pos h2 h1
  refine ⟨_, hv, rfl, ?_, ?_, ?_⟩
  · rw [one_lt_sq_iff₀ hq.le, one_lt_div h1]
  · rw [pow_eq_one_iff_of_nonneg hq.le two_ne_zero, div_eq_one_iff_eq h1.ne', eq_comm]
  · rw [sq_lt_one_iff₀ hq.le, div_lt_one h1]

example (K : Const) : ∃ a : ℝ, anisotropy K exD.obs ["a", "p1"] ["p1"] = .ok (.total (.fin a)) ∧ 1 < a := by
  obtain ⟨a, h1, -, h2, -⟩ := C17_single K exD.obs ["a", "p1"] "p1" (exValid.single (by simp)) exD
    (exD.measured _) (by simp [exD]) (by simp [exD]) (by simp [exD])
  exact ⟨a, h1, h2.mpr (by simp [exD])⟩

/-! ## C20 -/

theorem ca_fin (ions ps : List String) (h : Valid ions ps) (d : RData) (hm : Measured o ps d)
    (hn : ∀ s ∈ ps, 0 < d.n s) :
    0 < (ps.map (rR K d)).sum ∧ ca K o ions [pyJoin '+' ps] = .ok (.total (.fin
      ((ps.map (rR K d)).sum ^ (-(1 / 2) : ℝ) * Real.sqrt (bsqR d) *
        (K.uB / (Real.sqrt (K.uRho * K.mu0) * K.uV))))) := by
  have hr : 0 < (ps.map (rR K d)).sum := list_sum_pos h.ne (fun s hs => rR_pos K (hn s hs))
  refine ⟨hr, ?_⟩
  unfold ca
  rw [query_join h, rhoTot_fin hm.sorted]
  rw [show ((pySorted ps).map fun s => d.n s * K.mInMp s).sum = (ps.map (rR K d)).sum from sum_sorted ps _]
  unfold caOf
  rw [Fl.rpow_fin _ _ hr, bmag_fin hm, Fl.fin_mul, Fl.fin_mul]

theorem rpow_neg_half_sq {r : ℝ} (hr : 0 < r) : (r ^ (-(1 / 2) : ℝ)) ^ 2 = r⁻¹ := by
  rw [← Real.rpow_natCast, ← Real.rpow_mul hr.le]; norm_num [Real.rpow_neg_one]

/-- C20: `C_A^2 mu0 rho = B^2` in SI units. -/
theorem C20_alfven (ions ps : List String) (h : Valid ions ps) (d : RData) (hm : Measured o ps d)
    (hn : ∀ s ∈ ps, 0 < d.n s) :
    ∃ c r : ℝ, ca K o ions [pyJoin '+' ps] = .ok (.total (.fin c)) ∧
      massDensity K o ions [pyJoin '+' ps] = .ok (.total (.fin r)) ∧ 0 ≤ c ∧ 0 < r ∧
      (c * K.uV) ^ 2 * K.mu0 * (r * K.uRho) = (d.bx ^ 2 + d.by_ ^ 2 + d.bz ^ 2) * K.uB ^ 2 := by
  obtain ⟨hr, hc⟩ := ca_fin K o ions ps h d hm hn
  have := K.uB_pos; have := K.uV_pos; have := K.uRho_pos; have := K.mu0_pos
  refine ⟨_, _, hc, ?_, by positivity, hr, ?_⟩
  · unfold massDensity; rw [query_join h, rhoTot_fin hm.sorted]; congr 3; exact sum_sorted ps _
  · have e2 := Real.sq_sqrt (bsqR_nonneg d)
    have hk : 0 < K.uRho * K.mu0 := by positivity
    have e3 := Real.sq_sqrt hk.le
    have hsk := (Real.sqrt_pos.mpr hk).ne'
    have hr0 := hr.ne'
    rw [mul_pow, mul_pow, mul_pow, rpow_neg_half_sq hr, div_pow, mul_pow, e2, e3]
    change _ = bsqR d * K.uB ^ 2
    field_simp

theorem cs_fin (ions ps : List String) (h : Valid ions ps) (d : RData) (hm : Measured o ps d)
    (hn : ∀ s ∈ ps, 0 < d.n s) :
    0 ≤ (ps.map (pR K d "scalar")).sum ∧ soundSpeed K o ions [pyJoin '+' ps] = .ok (.total (.fin
      (Real.sqrt ((ps.map (pR K d "scalar")).sum * K.uPth / ((ps.map (rR K d)).sum * K.uRho) * K.gamma) / K.uV))) := by
  have hr : 0 < (ps.map (rR K d)).sum := list_sum_pos h.ne (fun s hs => rR_pos K (hn s hs))
  have hp : 0 ≤ (ps.map (pR K d "scalar")).sum := list_sum_nonneg (fun s hs => by
    unfold pR; have := hn s hs; have := K.uPth_pos; have := K.mInMp_pos s; have := K.uRho_pos; positivity)
  refine ⟨hp, ?_⟩
  unfold soundSpeed
  rw [query_join h, rhoTot_fin hm.sorted, pthTot_fin hm.sorted (by simp)]
  rw [show ((pySorted ps).map fun s => d.n s * K.mInMp s).sum = (ps.map (rR K d)).sum from sum_sorted ps _,
    sum_sorted]
  unfold csOf
  have hru := (mul_pos hr K.uRho_pos).ne'
  have := K.uPth_pos; have := K.gamma_pos; have := K.uRho_pos
  rw [Fl.fin_mul, Fl.fin_mul, Fl.fin_div _ _ hru, Fl.fin_mul, Fl.sqrt_fin _ (by positivity),
    Fl.fin_div _ _ K.uV_pos.ne']

/-- C20: `cs^2 rho = gamma p` in SI units. -/
theorem C20_sound (ions ps : List String) (h : Valid ions ps) (d : RData) (hm : Measured o ps d)
    (hn : ∀ s ∈ ps, 0 < d.n s) :
    ∃ c r p : ℝ, soundSpeed K o ions [pyJoin '+' ps] = .ok (.total (.fin c)) ∧
      massDensity K o ions [pyJoin '+' ps] = .ok (.total (.fin r)) ∧
      pth K o ions "scalar" [pyJoin '+' ps] = .ok (.total (.fin p)) ∧ 0 ≤ c ∧
      (c * K.uV) ^ 2 * (r * K.uRho) = K.gamma * (p * K.uPth) := by
  obtain ⟨hp, hc⟩ := cs_fin K o ions ps h d hm hn
  have hr : 0 < (ps.map (rR K d)).sum := list_sum_pos h.ne (fun s hs => rR_pos K (hn s hs))
  have := K.uV_pos; have := K.uRho_pos; have := K.uPth_pos; have := K.gamma_pos
  refine ⟨_, (ps.map (rR K d)).sum, (ps.map (pR K d "scalar")).sum, hc, ?_, ?_, by positivity, ?_⟩
  · unfold massDensity; rw [query_join h, rhoTot_fin hm.sorted]; congr 3; exact sum_sorted ps _
  · unfold pth; rw [query_join h, pthTot_fin hm.sorted (by simp)]; congr 3; exact sum_sorted ps _
  · rw [div_mul_cancel₀ _ K.uV_pos.ne', Real.sq_sqrt (by positivity)]
    field_simp

/-- C20: consequently `cs^2 / C_A^2 = (gamma / 2) beta` for the same species. -/
theorem C20_ratio (ions ps : List String) (h : Valid ions ps) (d : RData) (hm : Measured o ps d)
    (hn : ∀ s ∈ ps, 0 < d.n s) (hb : d.bx ^ 2 + d.by_ ^ 2 + d.bz ^ 2 ≠ 0) :
    ∃ cs c b : ℝ, soundSpeed K o ions [pyJoin '+' ps] = .ok (.total (.fin cs)) ∧
      ca K o ions [pyJoin '+' ps] = .ok (.total (.fin c)) ∧
      beta K o ions "scalar" [pyJoin '+' ps] = .ok (.total (.fin b)) ∧ 0 < c ∧
      cs ^ 2 / c ^ 2 = K.gamma / 2 * b := by
  obtain ⟨c, r, hc, hr, hc0, hr0, e1⟩ := C20_alfven K o ions ps h d hm hn
  obtain ⟨s, r', p, hs, hr', hp, hs0, e2⟩ := C20_sound K o ions ps h d hm hn
  obtain ⟨p', b, hp', hbe, e3⟩ := C16_value K o ions ps h d hm hb "scalar" (by simp)
  rw [hr] at hr'; injection hr' with hr'; injection hr' with hr'; injection hr' with hr'
  rw [hp] at hp'; injection hp' with hp'; injection hp' with hp'; injection hp' with hp'
  subst hr' hp'
  have hbp : 0 < d.bx ^ 2 + d.by_ ^ 2 + d.bz ^ 2 := lt_of_le_of_ne (by positivity) (Ne.symm hb)
  have := K.uV_pos; have := K.uRho_pos; have := K.uPth_pos; have := K.mu0_pos; have := K.uB_pos
  have hcp : 0 < c := by
    rcases hc0.lt_or_eq with h | h
    · exact h
    · rw [← h] at e1; exfalso
      have : 0 < (d.bx ^ 2 + d.by_ ^ 2 + d.bz ^ 2) * K.uB ^ 2 := by positivity
      rw [← e1] at this; simp at this
  refine ⟨s, c, b, hs, hc, hbe, hcp, ?_⟩
  rw [div_eq_iff (by positivity)]
  have hne : K.uV ^ 2 * (r * K.uRho) ≠ 0 := by positivity
  apply mul_right_cancel₀ hne
  have hB : b * ((c * K.uV) ^ 2 * K.mu0 * (r * K.uRho)) = 2 * K.mu0 * (p * K.uPth) := by rw [e1]; exact e3
  have hm0 := K.mu0_pos.ne'
  have hB' : b * ((c * K.uV) ^ 2 * (r * K.uRho)) = 2 * (p * K.uPth) := by
    apply mul_right_cancel₀ hm0; linear_combination hB
  linear_combination e2 - K.gamma / 2 * hB'

/-- C20: adding a species with positive density strictly lowers the Alfven speed (non-zero field). -/
theorem C20_monotone (ions ps : List String) (s : String) (h : Valid ions (ps ++ [s])) (hps : ps ≠ []) (d : RData)
    (hm : Measured o (ps ++ [s]) d) (hn : ∀ t ∈ ps ++ [s], 0 < d.n t)
    (hb : d.bx ^ 2 + d.by_ ^ 2 + d.bz ^ 2 ≠ 0) :
    ∃ c c' : ℝ, ca K o ions [pyJoin '+' ps] = .ok (.total (.fin c)) ∧
      ca K o ions [pyJoin '+' (ps ++ [s])] = .ok (.total (.fin c')) ∧ c' < c := by
  have v1 : Valid ions ps := ⟨hps, (List.nodup_append.mp h.nodup).1, fun s hs => h.plus s (by simp [hs]),
    fun s hs => h.comma s (by simp [hs]), fun s hs => h.avail s (by simp [hs])⟩
  obtain ⟨h1, e1⟩ := ca_fin K o ions ps v1 d (hm.sub (fun t ht => by simp [ht])) (fun t ht => hn t (by simp [ht]))
  obtain ⟨h2, e2⟩ := ca_fin K o ions (ps ++ [s]) h d hm hn
  refine ⟨_, _, e1, e2, ?_⟩
  have hbp : 0 < bsqR d := lt_of_le_of_ne (bsqR_nonneg d) (Ne.symm hb)
  have hlt : (ps.map (rR K d)).sum < ((ps ++ [s]).map (rR K d)).sum := by
    rw [List.map_append, List.sum_append]
    have := rR_pos K (hn s (by simp))
    simp; exact this
  have hp := Real.rpow_lt_rpow_of_neg h1 hlt (z := -(1 / 2)) (by norm_num)
  have := K.uB_pos; have := K.uV_pos; have := K.uRho_pos; have := K.mu0_pos
  have hsb := Real.sqrt_pos.mpr hbp
  have hk : 0 < K.uB / (Real.sqrt (K.uRho * K.mu0) * K.uV) := by positivity
  exact mul_lt_mul_of_pos_right (mul_lt_mul_of_pos_right hp hsb) hk

example (K : Const) : ∃ c c' : ℝ, ca K exD.obs ["a", "p1"] ["p1"] = .ok (.total (.fin c)) ∧
    ca K exD.obs ["a", "p1"] [pyJoin '+' ["p1", "a"]] = .ok (.total (.fin c')) ∧ c' < c := by
  have := C20_monotone K exD.obs ["a", "p1"] ["p1"] "a" exValid (by simp) exD (exD.measured _)
    (by intro t _; simp only [exD]; split <;> norm_num) (by norm_num [exD])
  rwa [pyJoin_singleton] at this

/-! ## C21 -/

/-- C21: `afsq = 1 + (beta_per - beta_par) / 2`, for one species or a sum. -/
theorem C21_beta (ions ps : List String) (h : Valid ions ps) (d : RData) (hm : Measured o ps d)
    (hb : d.bx ^ 2 + d.by_ ^ 2 + d.bz ^ 2 ≠ 0) :
    ∃ b1 b2 : ℝ, beta K o ions "par" [pyJoin '+' ps] = .ok (.total (.fin b1)) ∧
      beta K o ions "per" [pyJoin '+' ps] = .ok (.total (.fin b2)) ∧
      afsq K o ions false [pyJoin '+' ps] = .ok (.total (.fin (1 + (b2 - b1) / 2))) := by
  unfold beta afsq
  simp only [Bool.false_eq_true, if_false]
  rw [query_join h, query_join h, query_join h, pthTot_fin hm.sorted (c := "par") (by simp),
    pthTot_fin hm.sorted (c := "per") (by simp), betaOf_fin hm hb, betaOf_fin hm hb]
  refine ⟨_, _, rfl, rfl, ?_⟩
  have hb' : bsqR d ≠ 0 := hb
  have := K.uB_pos.ne'
  unfold afsqOf
  rw [b_sqSum_fin hm]
  simp only [Fl.fin_mul, Fl.sumSkip_cons_fin, Fl.sumSkip_nil, Fl.zero_def, Fl.fin_add]
  rw [Fl.fin_div _ _ hb', Fl.fin_mul, Fl.fin_add]
  congr 3; field_simp; ring

/-- C21: `afsq(s0+s1+...) = 1 + sum_i (afsq(s_i) - 1)`. -/
theorem C21_sum (ions ps : List String) (h : Valid ions ps) (d : RData) (hm : Measured o ps d)
    (hb : d.bx ^ 2 + d.by_ ^ 2 + d.bz ^ 2 ≠ 0) :
    ∃ f : String → ℝ, (∀ s ∈ ps, afsq K o ions false [s] = .ok (.total (.fin (f s)))) ∧
      afsq K o ions false [pyJoin '+' ps] = .ok (.total (.fin (1 + (ps.map fun s => f s - 1).sum))) := by
  obtain ⟨x, hx, hX⟩ := C16_additive K o ions ps h d hm hb "par" (by simp)
  obtain ⟨y, hy, hY⟩ := C16_additive K o ions ps h d hm hb "per" (by simp)
  refine ⟨fun s => 1 + (y s - x s) / 2, fun s hs => ?_, ?_⟩
  · obtain ⟨b1, b2, h1, h2, h3⟩ := C21_beta K o ions [s] (h.single hs) d (hm.sub (by simpa using hs)) hb
    rw [pyJoin_singleton] at h1 h2 h3
    rw [hx s hs] at h1; rw [hy s hs] at h2
    injection h1 with h1; injection h1 with h1; injection h1 with h1
    injection h2 with h2; injection h2 with h2; injection h2 with h2
    rw [h3, ← h1, ← h2]
  · obtain ⟨b1, b2, h1, h2, h3⟩ := C21_beta K o ions ps h d hm hb
    rw [hX] at h1; rw [hY] at h2
    injection h1 with h1; injection h1 with h1; injection h1 with h1
    injection h2 with h2; injection h2 with h2; injection h2 with h2
    rw [h3, ← h1, ← h2]
    congr 4
    rw [show (fun s => 1 + (y s - x s) / 2 - 1) = fun s => (y s - x s) * (1 / 2) by funext s; ring,
      list_sum_mul_right, list_sum_sub]; ring

/-- C21: `afsq = 1` iff the total pressure is isotropic. -/
theorem C21_isotropic (ions ps : List String) (h : Valid ions ps) (d : RData) (hm : Measured o ps d)
    (hb : d.bx ^ 2 + d.by_ ^ 2 + d.bz ^ 2 ≠ 0) :
    ∃ a b f : ℝ, pth K o ions "par" [pyJoin '+' ps] = .ok (.total (.fin a)) ∧
      pth K o ions "per" [pyJoin '+' ps] = .ok (.total (.fin b)) ∧
      afsq K o ions false [pyJoin '+' ps] = .ok (.total (.fin f)) ∧ (f = 1 ↔ a = b) := by
  obtain ⟨a, x, ha, hx, e1⟩ := C16_value K o ions ps h d hm hb "par" (by simp)
  obtain ⟨b, y, hb', hy, e2⟩ := C16_value K o ions ps h d hm hb "per" (by simp)
  obtain ⟨b1, b2, h1, h2, h3⟩ := C21_beta K o ions ps h d hm hb
  rw [hx] at h1; rw [hy] at h2
  injection h1 with h1; injection h1 with h1; injection h1 with h1
  injection h2 with h2; injection h2 with h2; injection h2 with h2
  subst h1 h2
  refine ⟨a, b, _, ha, hb', h3, ?_⟩
  have hk : (d.bx ^ 2 + d.by_ ^ 2 + d.bz ^ 2) * K.uB ^ 2 ≠ 0 := mul_ne_zero hb (pow_ne_zero 2 K.uB_pos.ne')
  have hk2 : 2 * K.mu0 * K.uPth ≠ 0 := by have := K.mu0_pos; have := K.uPth_pos; positivity
  constructor
  · intro e
    have : y = x := by linarith
    subst this
    apply mul_right_cancel₀ hk2; linear_combination e2 - e1
  · rintro rfl
    have : y = x := by apply mul_right_cancel₀ hk; rw [e1, e2]
    rw [this]; ring

/-- C21: `caani = C_A sqrt(afsq)` (NaN where `afsq < 0`), for any number of arguments; it equals `C_A` when
`afsq = 1`. -/
theorem C21_caani (ions ps : List String) (h : Valid ions ps) (c f : ℝ)
    (hc : ca K o ions [pyJoin '+' ps] = .ok (.total (.fin c)))
    (hf : afsq K o ions false [pyJoin '+' ps] = .ok (.total (.fin f))) :
    caani K o ions false ps = caani K o ions false [pyJoin '+' ps] ∧
    (0 ≤ f → caani K o ions false ps = .ok (.fin (c * Real.sqrt f))) ∧
    (f < 0 → caani K o ions false ps = .ok .nan) ∧
    (f = 1 → caani K o ions false ps = .ok (.fin c)) := by
  have hs : Valid ions (pySorted ps) := h.perm (pySorted_perm ps).symm
  have key : ∀ args : List String, chkSpecies ions (args.map .str) = .ok (pySorted ps) →
      caani K o ions false args = .ok (.fin c * Fl.sqrt (.fin f)) := by
    intro args ha
    have h1 : ca K o ions [pyJoin '+' (pySorted ps)] = .ok (.total (.fin c)) := by
      rw [← hc]; exact query_join_perm hs (pySorted_perm ps) _ _
    have h2 : afsq K o ions false [pyJoin '+' (pySorted ps)] = .ok (.total (.fin f)) := by
      rw [← hf]; unfold afsq; simp only [Bool.false_eq_true, if_false]
      exact query_join_perm hs (pySorted_perm ps) _ _
    unfold caani
    simp only [ha, h1, h2]
  have k1 := key ps (chk_args h)
  have k2 := key [pyJoin '+' ps] (chk_join h)
  refine ⟨by rw [k1, k2], fun h0 => ?_, fun h0 => ?_, fun h0 => ?_⟩
  · rw [k1, Fl.sqrt_fin _ h0, Fl.fin_mul]
  · rw [k1]; simp [Fl.sqrt, h0]
  · rw [k1, h0, Fl.sqrt_fin _ zero_le_one, Fl.fin_mul, Real.sqrt_one, mul_one]

/-- C21: the unimplemented dynamic-pressure correction is refused, whatever the species. -/
theorem C21_pdynamic (ions args : List String) : afsq K o ions true args = .error .notImplemented := rfl

example (K : Const) : ∃ b1 b2 : ℝ, beta K exD.obs ["a", "p1"] "par" [pyJoin '+' ["p1", "a"]] = .ok (.total (.fin b1)) ∧
      beta K exD.obs ["a", "p1"] "per" [pyJoin '+' ["p1", "a"]] = .ok (.total (.fin b2)) ∧
      afsq K exD.obs ["a", "p1"] false [pyJoin '+' ["p1", "a"]] = .ok (.total (.fin (1 + (b2 - b1) / 2))) :=
  C21_beta K exD.obs _ _ exValid exD (exD.measured _) (by norm_num [exD])

/-! ## C28 -/

/-- C28: the specific entropy is `p rho^(-gamma)` in SI units. -/
theorem C28_value (ions ps : List String) (h : Valid ions ps) (r p : ℝ) (hr0 : 0 < r)
    (hr : massDensity K o ions [pyJoin '+' ps] = .ok (.total (.fin r)))
    (hp : pth K o ions "scalar" [pyJoin '+' ps] = .ok (.total (.fin p))) :
    ∃ S : ℝ, specificEntropy K o ions [pyJoin '+' ps] = .ok (.total (.fin S)) ∧
      S * K.uS = (p * K.uPth) * (r * K.uRho) ^ (-K.gamma) := by
  unfold massDensity at hr; unfold pth at hp
  rw [query_join h] at hr hp
  injection hr with hr; injection hr with hr
  injection hp with hp; injection hp with hp
  refine ⟨(p * K.uPth) * (r * K.uRho) ^ (-K.gamma) / K.uS, ?_, by have := K.uS_pos.ne'; field_simp⟩
  unfold specificEntropy
  rw [query_join h, hr, hp]
  unfold entropyOf
  rw [Fl.fin_mul, Fl.fin_mul, Fl.rpow_fin _ _ (mul_pos hr0 K.uRho_pos), Fl.fin_mul,
    Fl.fin_div _ _ K.uS_pos.ne']

/-- C28: adiabatic compression (`rho -> k rho`, `p -> k^gamma p`) leaves it unchanged. -/
theorem C28_adiabatic (o' : Obs) (ions ps : List String) (h : Valid ions ps) (r p k : ℝ) (hr0 : 0 < r) (hk : 0 < k)
    (hr : massDensity K o ions [pyJoin '+' ps] = .ok (.total (.fin r)))
    (hp : pth K o ions "scalar" [pyJoin '+' ps] = .ok (.total (.fin p)))
    (hr' : massDensity K o' ions [pyJoin '+' ps] = .ok (.total (.fin (k * r))))
    (hp' : pth K o' ions "scalar" [pyJoin '+' ps] = .ok (.total (.fin (k ^ K.gamma * p)))) :
    ∃ S : ℝ, specificEntropy K o ions [pyJoin '+' ps] = .ok (.total (.fin S)) ∧
      specificEntropy K o' ions [pyJoin '+' ps] = .ok (.total (.fin S)) := by
  obtain ⟨S, h1, e1⟩ := C28_value K o ions ps h r p hr0 hr hp
  obtain ⟨S', h2, e2⟩ := C28_value K o' ions ps h (k * r) (k ^ K.gamma * p) (mul_pos hk hr0) hr' hp'
  have : S' = S := by
    apply mul_right_cancel₀ K.uS_pos.ne'
    rw [e1, e2, mul_assoc k, Real.mul_rpow hk.le (mul_pos hr0 K.uRho_pos).le, Real.rpow_neg hk.le]
    have := (Real.rpow_pos_of_pos hk K.gamma).ne'
    field_simp
  exact ⟨S, h1, this ▸ h2⟩

example (K : Const) : ∃ S : ℝ, specificEntropy K exD.obs ["a", "p1"] [pyJoin '+' ["p1", "a"]] = .ok (.total (.fin S)) := by
  have hn : ∀ s ∈ ["p1", "a"], 0 < exD.n s := by intro t _; simp only [exD]; split <;> norm_num
  obtain ⟨_, r, p, -, h1, h2, -, -⟩ := C20_sound K exD.obs _ _ exValid exD (exD.measured _) hn
  obtain ⟨_, r', -, h1', -, h0, -⟩ := C20_alfven K exD.obs _ _ exValid exD (exD.measured _) hn
  rw [h1] at h1'; injection h1' with h1'; injection h1' with h1'; injection h1' with h1'
  obtain ⟨S, h3, -⟩ := C28_value K exD.obs _ _ exValid r p (h1' ▸ h0) h1 h2
  exact ⟨S, h3⟩

/-! ## C94 -/

/-- C94 (violated): with a single species string a missing density or thermal speed becomes a pressure of zero
(and a zero beta), although the per-species column of the same quantity is NaN; a missing thermal speed becomes
zero. -/
theorem C94_missing_becomes_zero (ions ps : List String) (h : Valid ions ps) (hl : 2 ≤ ps.length) (s : String)
    (hs : s ∈ ps) (c : String) (hmiss : o.n s = .nan ∨ o.w s c = .nan) :
    pth K o ions c [s] = .ok (.total (.fin 0)) ∧
    (∃ l, pth K o ions c ps = .ok (.each l) ∧ (s, Fl.nan) ∈ l) ∧
    (∀ d, Measured o [] d → d.bx ^ 2 + d.by_ ^ 2 + d.bz ^ 2 ≠ 0 →
      beta K o ions c [s] = .ok (.total (.fin 0))) ∧
    (o.w s c = .nan → thermalSpeed o ions c [s] = .ok (.total (.fin 0)) ∧
      temperature K o ions c [s] = .ok (.total (.fin 0))) := by
  have hp : pthS K o c s = .nan := by
    unfold pthS rhoS
    rcases hmiss with e | e <;> simp [e]
  have ht : pthTot K o c [s] = .fin 0 := by unfold pthTot; simp [hp, Fl.zero_def]
  refine ⟨?_, ?_, ?_, ?_⟩
  · unfold pth; rw [query_single h hs, ht]
  · refine ⟨_, query_args h (by omega) _ _, ?_⟩
    exact List.mem_map.mpr ⟨s, mem_pySorted.mpr hs, by rw [hp]⟩
  · intro d hm hb
    unfold beta
    rw [query_single h hs, ht, betaOf_fin hm hb]
    simp
  · intro e
    constructor
    · unfold thermalSpeed
      rw [if_neg (by simpa [hasChar] using h.plus s hs), query_single h hs]
      simp [e, Fl.zero_def]
    · unfold temperature
      rw [query_single h hs]
      unfold tempTot tempS
      simp [e, Fl.zero_def]

/-- C94 (violated): a missing parallel thermal speed makes the anisotropy `+inf` instead of NaN. -/
theorem C94_anisotropy_infinite (ions : List String) (s : String) (h : Valid ions [s]) (n w : ℝ) (hn : 0 < n)
    (hw : w ≠ 0) (h1 : o.n s = .fin n) (h2 : o.w s "par" = .nan) (h3 : o.w s "per" = .fin w) :
    anisotropy K o ions [s] = .ok (.total .pinf) := by
  unfold anisotropy
  rw [query_single h (List.mem_singleton.mpr rfl)]
  have hp : 0 < 0.5 / K.uPth * ((w * K.uV) ^ 2 * (n * K.mInMp s * K.uRho)) := by
    have := K.uPth_pos; have := K.mInMp_pos s; have := K.uRho_pos; have := K.uV_pos; positivity
  have e1 : pthTot K o "par" [s] = .fin 0 := by unfold pthTot pthS rhoS; simp [h1, h2, Fl.zero_def]
  have e2 : pthTot K o "per" [s] = .fin (0.5 / K.uPth * ((w * K.uV) ^ 2 * (n * K.mInMp s * K.uRho))) := by
    unfold pthTot pthS rhoS; simp [h1, h3, Fl.add_zero']
  rw [e1, e2]
  unfold aniOf
  have e3 : Fl.fin 1 / Fl.fin 0 = Fl.pinf := by
    show (if (0 : ℝ) = 0 then (if (0 : ℝ) < 1 then Fl.pinf else _) else _) = _
    simp
  rw [e3]
  have e4 : ∀ x : ℝ, Fl.prodSkip [Fl.pinf, Fl.fin x] = Fl.pinf * (Fl.fin x * Fl.fin 1) := by
    intro x
    show (if Fl.pinf.isNaN then _ else Fl.pinf * Fl.prodSkip [Fl.fin x]) = _
    rw [if_neg Fl.isNaN_pinf]; simp [Fl.one_def]
  rw [e4, Fl.fin_mul, mul_one]
  show Except.ok (Res.total (Fl.infMul true _)) = _
  simp [Fl.infMul, hp.ne', hp]

example (K : Const) : pth K { exD.obs with n := fun s => if s = "a" then .nan else .fin 4 } ["a", "p1"] "par" ["a"]
    = .ok (.total (.fin 0)) :=
  (C94_missing_becomes_zero K _ _ _ exValid (by simp) "a" (by simp) "par" (.inl rfl)).1

end SW
