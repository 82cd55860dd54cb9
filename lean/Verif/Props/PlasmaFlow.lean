import Verif.PlasmaPhys
import Verif.Props.PlasmaThermo

/-!
# Properties C12-C14, C18, C19, C22-C27 (flows, drift pressure, collisions, electrons, heat flux)
-/

namespace SW
open Classical

variable (K : Const) (o : Obs)

/-! ## C12 -/

/-- velocity of a sum of at least two measured species with positive densities -/
theorem velocity_fin (ions ps : List String) (h : Valid ions ps) (hl : 2 ≤ ps.length) (d : RData)
    (hm : Measured o ps d) (hn : ∀ s ∈ ps, 0 < d.n s) :
    velocity K o ions [pyJoin '+' ps] false =
      .ok (.total (V3.ofReal (comR K d ps d.vx) (comR K d ps d.vy) (comR K d ps d.vz))) := by
  have hr : 0 < (ps.map (rR K d)).sum := list_sum_pos h.ne (fun s hs => rR_pos K (hn s hs))
  rw [velocity_join h hl, vCom_fin hm.sorted (by rw [sum_sorted]; exact hr.ne')]
  simp only [comR_sorted]

theorem com_balance (ps : List String) (d : RData) (f : String → ℝ) (hr : 0 < (ps.map (rR K d)).sum) :
    (ps.map fun s => rR K d s * (f s - comR K d ps f)).sum = 0 := by
  rw [show (fun s => rR K d s * (f s - comR K d ps f)) = fun s => f s * rR K d s - rR K d s * comR K d ps f by
    funext s; ring, list_sum_sub, list_sum_mul_right]
  unfold comR
  field_simp
  ring

theorem com_between (ps : List String) (d : RData) (f : String → ℝ) (hn : ∀ s ∈ ps, 0 < d.n s)
    (hr : 0 < (ps.map (rR K d)).sum) (lo hi : ℝ) (hb : ∀ s ∈ ps, lo ≤ f s ∧ f s ≤ hi) :
    lo ≤ comR K d ps f ∧ comR K d ps f ≤ hi := by
  have h1 : 0 ≤ (ps.map fun s => f s * rR K d s - rR K d s * lo).sum := list_sum_nonneg (fun s hs => by
    have := rR_pos K (hn s hs); have := (hb s hs).1; nlinarith)
  have h2 : 0 ≤ (ps.map fun s => rR K d s * hi - f s * rR K d s).sum := list_sum_nonneg (fun s hs => by
    have := rR_pos K (hn s hs); have := (hb s hs).2; nlinarith)
  rw [list_sum_sub, list_sum_mul_right] at h1 h2
  unfold comR
  constructor
  · rw [le_div_iff₀ hr]; linarith
  · rw [div_le_iff₀ hr]; linarith

/-- C12: the centre-of-mass velocity carries the total momentum, `sum_i rho_i (v_i - v_com) = 0` in every
component, and lies componentwise between any bounds on the species velocities. -/
theorem C12_momentum (ions ps : List String) (h : Valid ions ps) (hl : 2 ≤ ps.length) (d : RData)
    (hm : Measured o ps d) (hn : ∀ s ∈ ps, 0 < d.n s) :
    ∃ x y z : ℝ, velocity K o ions [pyJoin '+' ps] false = .ok (.total (V3.ofReal x y z)) ∧
      (ps.map fun s => (d.n s * K.mInMp s) * (d.vx s - x)).sum = 0 ∧
      (ps.map fun s => (d.n s * K.mInMp s) * (d.vy s - y)).sum = 0 ∧
      (ps.map fun s => (d.n s * K.mInMp s) * (d.vz s - z)).sum = 0 ∧
      (∀ lo hi, (∀ s ∈ ps, lo ≤ d.vx s ∧ d.vx s ≤ hi) → lo ≤ x ∧ x ≤ hi) ∧
      (∀ lo hi, (∀ s ∈ ps, lo ≤ d.vy s ∧ d.vy s ≤ hi) → lo ≤ y ∧ y ≤ hi) ∧
      (∀ lo hi, (∀ s ∈ ps, lo ≤ d.vz s ∧ d.vz s ≤ hi) → lo ≤ z ∧ z ≤ hi) := by
  have hr : 0 < (ps.map (rR K d)).sum := list_sum_pos h.ne (fun s hs => rR_pos K (hn s hs))
  exact ⟨_, _, _, velocity_fin K o ions ps h hl d hm hn, com_balance K ps d d.vx hr, com_balance K ps d d.vy hr,
    com_balance K ps d d.vz hr, com_between K ps d d.vx hn hr, com_between K ps d d.vy hn hr,
    com_between K ps d d.vz hn hr⟩

/-- C12: for one species the velocity is that species' velocity, whatever the data. -/
theorem C12_single (ions : List String) (s : String) (h : Valid ions [s]) :
    velocity K o ions [s] false = .ok (.total (o.v s)) := velocity_single h (List.mem_singleton.mpr rfl)

/-- C12: `project_m2q` scales a single species' velocity by sqrt(mass / charge state) and is not available
for several species. -/
theorem C12_projected (ions : List String) (ps : List String) (h : Valid ions ps) :
    (∀ s ∈ ps, ∀ x y z : ℝ, o.v s = V3.ofReal x y z → 0 < K.chargeState s →
      velocity K o ions [s] true = .ok (.total (V3.ofReal (x * Real.sqrt (K.mInMp s / K.chargeState s))
        (y * Real.sqrt (K.mInMp s / K.chargeState s)) (z * Real.sqrt (K.mInMp s / K.chargeState s))))) ∧
    (2 ≤ ps.length → velocity K o ions [pyJoin '+' ps] true = .error .notImplemented ∧
      velocity K o ions ps true = .error .notImplemented) := by
  constructor
  · intro s hs x y z hv hq
    rw [velocity_single_proj h hs, hv]
    unfold m2q V3.scale
    have := K.mInMp_pos s
    rw [Fl.fin_div _ _ hq.ne', Fl.sqrt_fin _ (by positivity)]
    simp [V3.ofReal]
  · intro hl
    have hlen := sorted_length ps
    constructor
    · unfold velocity
      rw [show ([pyJoin '+' ps].map PyVal.str) = [.str (pyJoin '+' ps)] from rfl, chk_join h]
      rcases hs : pySorted ps with _ | ⟨a, _ | ⟨b, l⟩⟩
      · rw [hs] at hlen; simp at hlen; omega
      · rw [hs] at hlen; simp at hlen; omega
      · rfl
    · unfold velocity
      rw [chk_args h]
      rcases hs : pySorted ps with _ | ⟨a, _ | ⟨b, l⟩⟩
      · rw [hs] at hlen; simp at hlen; omega
      · rw [hs] at hlen; simp at hlen; omega
      · rfl

/-- C12: the order of the names is irrelevant, whatever the data. -/
theorem C12_order (ions ps qs : List String) (h : Valid ions ps) (hp : ps.Perm qs) :
    velocity K o ions [pyJoin '+' ps] false = velocity K o ions [pyJoin '+' qs] false := by
  have e : chkSpecies ions ([pyJoin '+' ps].map .str) = chkSpecies ions ([pyJoin '+' qs].map .str) :=
    (chk_join h).trans ((congrArg Except.ok (pySorted_eq_of_perm hp)).trans (chk_join (h.perm hp)).symm)
  unfold velocity
  rw [e]
  rfl

example (K : Const) : ∃ x y z : ℝ, velocity K exD.obs ["a", "p1"] [pyJoin '+' ["p1", "a"]] false =
    .ok (.total (V3.ofReal x y z)) ∧ 400 ≤ x ∧ x ≤ 450 := by
  obtain ⟨x, y, z, h, -, -, -, hx, -⟩ := C12_momentum K exD.obs _ _ exValid (by simp) exD (exD.measured _)
    (by intro t _; simp only [exD]; split <;> norm_num)
  exact ⟨x, y, z, h, hx 400 450 (by intro s _; simp only [exD]; split <;> norm_num)⟩

/-! ## C13 -/

/-- C13 (violated): species whose velocity component is missing lose their momentum but keep their mass. With
`g s` the measured component and `0` where it is missing, the reported component is `sum g rho / sum rho` over
all species. -/
theorem C13_general (ions ps : List String) (h : Valid ions ps) (hl : 2 ≤ ps.length) (n g : String → ℝ)
    (hn : ∀ s ∈ ps, 0 < n s) (hon : ∀ s ∈ ps, o.n s = .fin (n s))
    (hg : ∀ s ∈ ps, (o.v s).x = .fin (g s) ∨ ((o.v s).x = .nan ∧ g s = 0)) :
    ∃ v, velocity K o ions [pyJoin '+' ps] false = .ok (.total v) ∧
      v.x = .fin ((ps.map fun s => g s * (n s * K.mInMp s)).sum / (ps.map fun s => n s * K.mInMp s).sum) := by
  refine ⟨_, velocity_join h hl, ?_⟩
  unfold vCom
  have hr : 0 < (ps.map fun s => n s * K.mInMp s).sum :=
    list_sum_pos h.ne (fun s hs => mul_pos (hn s hs) (K.mInMp_pos s))
  have hden : Fl.sumSkip ((pySorted ps).map (rhoS K o)) = .fin (ps.map fun s => n s * K.mInMp s).sum := by
    rw [Fl.sumSkip_fin' _ _ (fun s => n s * K.mInMp s), sum_sorted]
    intro s hs; unfold rhoS; rw [hon s (mem_pySorted.mp hs), Fl.fin_mul]
  have hnum : Fl.sumSkip ((pySorted ps).map fun s => (o.v s).x * rhoS K o s) =
      .fin (ps.map fun s => g s * (n s * K.mInMp s)).sum := by
    rw [Fl.sumSkip_perm ((pySorted_perm ps).map _), Fl.sumSkip_eq_sumAll, List.map_map,
      Fl.sumAll_fin' _ _ (fun s => g s * (n s * K.mInMp s))]
    intro s hs
    simp only [Function.comp]
    unfold rhoS
    rw [hon s hs, Fl.fin_mul]
    rcases hg s hs with e | ⟨e, e0⟩
    · rw [e, Fl.fin_mul]; simp [Fl.add_zero']
    · rw [e, e0]; simp [Fl.zero_def]
  simp only []
  rw [hnum, hden, Fl.fin_div _ _ hr.ne']

/-- C13 (violated): two species, the second without velocity: the reported velocity is the first one's scaled
down by its mass fraction, neither NaN nor the velocity of the measured species. -/
theorem C13_biased (ions : List String) (a b : String) (h : Valid ions [a, b]) (n1 n2 v1 : ℝ) (h1 : 0 < n1)
    (h2 : 0 < n2) (ha : o.n a = .fin n1) (hb : o.n b = .fin n2) (hva : (o.v a).x = .fin v1) (hv0 : v1 ≠ 0)
    (hvb : (o.v b).x = .nan) :
    ∃ v c, velocity K o ions [pyJoin '+' [a, b]] false = .ok (.total v) ∧ v.x = .fin c ∧
      c = v1 * (n1 * K.mInMp a) / (n1 * K.mInMp a + n2 * K.mInMp b) ∧ c ≠ v1 := by
  have hab : a ≠ b := by have := h.nodup; simpa using this
  obtain ⟨v, hv, hx⟩ := C13_general K o ions [a, b] h (by simp) (fun s => if s = a then n1 else n2)
    (fun s => if s = a then v1 else 0)
    (by intro s _; show 0 < if s = a then n1 else n2; split <;> assumption)
    (by simp [ha, hb, hab.symm])
    (by simp [hva, hvb, hab.symm])
  refine ⟨v, _, hv, hx, ?_, ?_⟩
  · simp [hab.symm]
  · have p1 := mul_pos h1 (K.mInMp_pos a)
    have p2 := mul_pos h2 (K.mInMp_pos b)
    simp only [List.map_cons, List.map_nil, List.sum_cons, List.sum_nil, if_pos, if_neg hab.symm]
    intro e
    rw [div_eq_iff (by positivity)] at e
    have : v1 * (n2 * K.mInMp b) = 0 := by linear_combination -e
    rcases mul_eq_zero.mp this with h | h
    · exact hv0 h
    · exact p2.ne' h

example (K : Const) : ∃ v c, velocity K
      { exD.obs with v := fun s => if s = "a" then ⟨.nan, .nan, .nan⟩ else V3.ofReal 400 0 0 } ["a", "p1"]
      [pyJoin '+' ["p1", "a"]] false = .ok (.total v) ∧ v.x = .fin c ∧
      c = 400 * (4 * K.mInMp "p1") / (4 * K.mInMp "p1" + 1 * K.mInMp "a") ∧ c ≠ 400 :=
  C13_biased K _ _ "p1" "a" exValid 4 1 400 (by norm_num) (by norm_num) (by simp [RData.obs, exD])
    (by simp [RData.obs, exD]) (by simp [V3.ofReal]) (by norm_num) (by simp)

/-! ## C14 -/

/-- C14: differential flow is antisymmetric in every component, and its magnitude symmetric, for any two species
strings and any data (infinities and NaN included). -/
theorem C14_antisymmetric (ions : List String) (s0 s1 : String) (proj : Bool) (d : V3)
    (h : dv K o ions s0 s1 proj = .ok d) :
    ∃ d', dv K o ions s1 s0 proj = .ok d' ∧ d'.x = -d.x ∧ d'.y = -d.y ∧ d'.z = -d.z ∧ d'.mag = d.mag := by
  unfold dv at h ⊢
  by_cases e : s0 = s1
  · rw [if_pos e] at h; exact absurd h (by simp)
  rw [if_neg e] at h
  rw [if_neg (Ne.symm e)]
  rcases h0 : velocity K o ions [s0] proj with e0 | (v0 | l0) <;> rw [h0] at h <;>
    rcases h1 : velocity K o ions [s1] proj with e1 | (v1 | l1) <;> rw [h1] at h <;> simp only [] at h ⊢ <;>
    try (cases h; done)
  injection h with h
  refine ⟨_, rfl, ?_, ?_, ?_, ?_⟩
  · rw [← h]; exact (Fl.neg_add_rev _ _).symm
  · rw [← h]; exact (Fl.neg_add_rev _ _).symm
  · rw [← h]; exact (Fl.neg_add_rev _ _).symm
  · rw [← h]; unfold V3.mag V3.sub
    simp only [Fl.sq_sub_comm]

theorem Fl.sub_finite {x y : Fl} {r : ℝ} (h : x - y = .fin r) : ∃ a b, x = .fin a ∧ y = .fin b ∧ r = a - b := by
  cases x <;> cases y <;>
    first
    | (rw [Fl.fin_sub] at h; exact ⟨_, _, rfl, rfl, (Fl.fin_inj.mp h).symm⟩)
    | exact (Fl.noConfusion h : False).elim

/-- C14: `dv(a,b) + dv(b,c) = dv(a,c)` wherever the flows are finite, for any three different strings. -/
theorem C14_additive (ions : List String) (a b c : String) (proj : Bool) (hac : a ≠ c) (x y z x' y' z' : ℝ)
    (h1 : dv K o ions a b proj = .ok (V3.ofReal x y z)) (h2 : dv K o ions b c proj = .ok (V3.ofReal x' y' z')) :
    dv K o ions a c proj = .ok (V3.ofReal (x + x') (y + y') (z + z')) := by
  unfold dv at *
  by_cases e : a = b
  · rw [if_pos e] at h1; exact absurd h1 (by simp)
  by_cases e' : b = c
  · rw [if_pos e'] at h2; exact absurd h2 (by simp)
  rw [if_neg e] at h1
  rw [if_neg e'] at h2
  rw [if_neg hac]
  rcases ha : velocity K o ions [a] proj with ea | (va | la) <;> rw [ha] at h1 <;> simp only [] at h1 <;>
    try (cases h1; done)
  rcases hb : velocity K o ions [b] proj with eb | (vb | lb) <;> rw [hb] at h1 h2 <;> simp only [] at h1 h2 <;>
    try (cases h1; done)
  rcases hc : velocity K o ions [c] proj with ec | (vc | lc) <;> rw [hc] at h2 <;> simp only [] at h2 <;>
    try (cases h2; done)
  injection h1 with h1; injection h2 with h2
  unfold V3.sub V3.ofReal at h1 h2
  injection h1 with hx hy hz; injection h2 with hx' hy' hz'
  obtain ⟨a1, b1, e1, e2, e3⟩ := Fl.sub_finite hx
  obtain ⟨a2, b2, e4, e5, e6⟩ := Fl.sub_finite hx'
  obtain ⟨c1, d1, f1, f2, f3⟩ := Fl.sub_finite hy
  obtain ⟨c2, d2, f4, f5, f6⟩ := Fl.sub_finite hy'
  obtain ⟨p1, q1, g1, g2, g3⟩ := Fl.sub_finite hz
  obtain ⟨p2, q2, g4, g5, g6⟩ := Fl.sub_finite hz'
  rw [e2] at e4; rw [f2] at f4; rw [g2] at g4
  injection e4 with e4; injection f4 with f4; injection g4 with g4
  simp only []
  unfold V3.sub V3.ofReal
  rw [e1, e5, f1, f5, g1, g5]
  simp only [Fl.fin_sub]
  rw [show a1 - b2 = x + x' by rw [e3, e6, e4]; ring, show c1 - d2 = y + y' by rw [f3, f6, f4]; ring,
    show p1 - q2 = z + z' by rw [g3, g6, g4]; ring]

/-- C14: a string against itself is refused; the same species written in another order is not recognised and
gives zero. -/
theorem C14_self (ions ps qs : List String) (h : Valid ions ps) (hl : 2 ≤ ps.length) (hp : ps.Perm qs)
    (hne : ps ≠ qs) (d : RData) (hm : Measured o ps d) (hn : ∀ s ∈ ps, 0 < d.n s) (s : String) (proj : Bool) :
    dv K o ions s s proj = .error .notImplemented ∧
    dv K o ions (pyJoin '+' ps) (pyJoin '+' qs) false = .ok (V3.ofReal 0 0 0) := by
  constructor
  · unfold dv; rw [if_pos rfl]
  · have hj : pyJoin '+' ps ≠ pyJoin '+' qs := by
      intro e
      have h1 := pySplit_pyJoin '+' ps h.ne (fun p hp => by simpa [hasChar] using h.plus p hp)
      have h2 := pySplit_pyJoin '+' qs (h.perm hp).ne (fun p hp' => by simpa [hasChar] using (h.perm hp).plus p hp')
      rw [e, h2] at h1; exact hne h1.symm
    unfold dv
    rw [if_neg hj, ← C12_order K o ions ps qs h hp, velocity_fin K o ions ps h hl d hm hn]
    simp only []
    rw [V3.sub_ofReal]; simp

example (K : Const) : dv K exD.obs ["a", "p1"] (pyJoin '+' ["p1", "a"]) (pyJoin '+' ["a", "p1"]) false =
    .ok (V3.ofReal 0 0 0) :=
  (C14_self K exD.obs _ ["p1", "a"] ["a", "p1"] exValid (by simp) (List.Perm.swap _ _ _) (by simp) exD
    (exD.measured _) (by intro t _; simp only [exD]; split <;> norm_num) "a" false).2

/-! ## C18 -/

/-- squared drift of a species relative to the centre of mass -/
noncomputable def driftSq (K : Const) (d : RData) (ps : List String) (s : String) : ℝ :=
  (d.vx s - comR K d ps d.vx) ^ 2 + (d.vy s - comR K d ps d.vy) ^ 2 + (d.vz s - comR K d ps d.vz) ^ 2

theorem pdynamic_of (ions ps args : List String) (h : Valid ions ps) (hl : 2 ≤ ps.length) (d : RData)
    (hm : Measured o ps d) (hr : (ps.map (rR K d)).sum ≠ 0)
    (hargs : chkSpecies ions (args.map .str) = .ok (pySorted ps)) (hj : pyJoin '+' args = pyJoin '+' ps) :
    pdynamic K o ions args false = .ok (.fin
      ((ps.map fun s => driftSq K d ps s * rR K d s).sum * (0.5 * K.uRho * K.uV ^ 2 / K.uPth))) := by
  have hs : Valid ions (pySorted ps) := h.perm (pySorted_perm ps).symm
  have hlen : (pySorted ps).length ≠ 1 := by rw [sorted_length]; omega
  unfold pdynamic
  rw [hargs]
  simp only [if_neg hlen, Bool.not_false, if_true, hj]
  rw [resolve_args hs, pySorted_idem]
  simp only []
  rw [forEach_ok _ (fun s => V3.ofReal (d.vx s - comR K d ps d.vx) (d.vy s - comR K d ps d.vy)
      (d.vz s - comR K d ps d.vz))]
  · simp only [zip_map_self, List.map_map]
    rw [Fl.sumSkip_fin' _ _ (fun s => driftSq K d ps s * rR K d s), Fl.fin_mul, sum_sorted]
    intro s hs'
    simp only [Function.comp]
    rw [V3.sqSum_ofReal, rhoS_fin hm (mem_pySorted.mp hs'), Fl.fin_mul]; rfl
  · intro s hs'
    have hmem := mem_pySorted.mp hs'
    rw [dv_single_com h hl hmem, vCom_fin hm.sorted (by rw [sum_sorted]; exact hr)]
    simp only [comR_sorted]
    rw [hm.v s hmem, V3.sub_ofReal]

/-- the drift pressure of measured species, both ways of asking for it -/
theorem pdynamic_fin (ions ps : List String) (h : Valid ions ps) (hl : 2 ≤ ps.length) (d : RData)
    (hm : Measured o ps d) (hn : ∀ s ∈ ps, 0 < d.n s) :
    pdynamic K o ions [pyJoin '+' ps] false = .ok (.fin
      ((ps.map fun s => driftSq K d ps s * rR K d s).sum * (0.5 * K.uRho * K.uV ^ 2 / K.uPth))) ∧
    pdynamic K o ions ps false = pdynamic K o ions [pyJoin '+' ps] false := by
  have hr : 0 < (ps.map (rR K d)).sum := list_sum_pos h.ne (fun s hs => rR_pos K (hn s hs))
  have h1 := pdynamic_of K o ions ps [pyJoin '+' ps] h hl d hm hr.ne' (chk_join h) (pyJoin_singleton _ _)
  have h2 := pdynamic_of K o ions ps ps h hl d hm hr.ne' (chk_args h) rfl
  exact ⟨h1, by rw [h1, h2]⟩

/-- C18: `pdynamic` is half the sum of `rho_i |v_i - v_com|^2` (SI), where `v_com` is what `velocity` returns for
the same species. -/
theorem C18_value (ions ps : List String) (h : Valid ions ps) (hl : 2 ≤ ps.length) (d : RData)
    (hm : Measured o ps d) (hn : ∀ s ∈ ps, 0 < d.n s) :
    ∃ x y z q : ℝ, velocity K o ions [pyJoin '+' ps] false = .ok (.total (V3.ofReal x y z)) ∧
      pdynamic K o ions [pyJoin '+' ps] false = .ok (.fin q) ∧ pdynamic K o ions ps false = .ok (.fin q) ∧
      q * K.uPth = 1 / 2 * (ps.map fun s => (d.n s * K.mInMp s * K.uRho) *
        (((d.vx s - x) * K.uV) ^ 2 + ((d.vy s - y) * K.uV) ^ 2 + ((d.vz s - z) * K.uV) ^ 2)).sum := by
  obtain ⟨h1, h2⟩ := pdynamic_fin K o ions ps h hl d hm hn
  refine ⟨_, _, _, _, velocity_fin K o ions ps h hl d hm hn, h1, by rw [h2, h1], ?_⟩
  have := K.uPth_pos.ne'
  rw [show (fun s => (d.n s * K.mInMp s * K.uRho) * (((d.vx s - comR K d ps d.vx) * K.uV) ^ 2 +
      ((d.vy s - comR K d ps d.vy) * K.uV) ^ 2 + ((d.vz s - comR K d ps d.vz) * K.uV) ^ 2)) =
      fun s => driftSq K d ps s * rR K d s * (K.uRho * K.uV ^ 2) by funext s; unfold driftSq rR; ring,
    list_sum_mul_right]
  field_simp; ring

/-- C18: it is non-negative, and zero iff all species co-move. -/
theorem C18_zero_iff (ions ps : List String) (h : Valid ions ps) (hl : 2 ≤ ps.length) (d : RData)
    (hm : Measured o ps d) (hn : ∀ s ∈ ps, 0 < d.n s) :
    ∃ q : ℝ, pdynamic K o ions [pyJoin '+' ps] false = .ok (.fin q) ∧ 0 ≤ q ∧
      (q = 0 ↔ ∀ s ∈ ps, ∀ t ∈ ps, d.vx s = d.vx t ∧ d.vy s = d.vy t ∧ d.vz s = d.vz t) := by
  obtain ⟨h1, -⟩ := pdynamic_fin K o ions ps h hl d hm hn
  have hr : 0 < (ps.map (rR K d)).sum := list_sum_pos h.ne (fun s hs => rR_pos K (hn s hs))
  have hk : 0 < 0.5 * K.uRho * K.uV ^ 2 / K.uPth := by
    have := K.uRho_pos; have := K.uV_pos; have := K.uPth_pos; positivity
  have hnn : ∀ s ∈ ps, 0 ≤ driftSq K d ps s * rR K d s := fun s hs => by
    have := rR_pos K (hn s hs); unfold driftSq; positivity
  have hs0 := list_sum_nonneg hnn
  refine ⟨_, h1, by positivity, ?_⟩
  rw [mul_eq_zero, or_iff_left hk.ne', list_sum_eq_zero_iff hnn]
  have hd : ∀ s ∈ ps, (driftSq K d ps s * rR K d s = 0 ↔
      d.vx s = comR K d ps d.vx ∧ d.vy s = comR K d ps d.vy ∧ d.vz s = comR K d ps d.vz) := by
    intro s hs
    rw [mul_eq_zero, or_iff_left (rR_pos K (hn s hs)).ne']
    unfold driftSq
    constructor
    · intro e
      refine ⟨?_, ?_, ?_⟩ <;> rw [← sub_eq_zero, ← pow_eq_zero_iff (n := 2) two_ne_zero] <;>
        nlinarith [sq_nonneg (d.vx s - comR K d ps d.vx), sq_nonneg (d.vy s - comR K d ps d.vy),
          sq_nonneg (d.vz s - comR K d ps d.vz)]
    · rintro ⟨e1, e2, e3⟩; rw [e1, e2, e3]; ring
  constructor
  · intro e s hs t ht
    obtain ⟨a1, a2, a3⟩ := (hd s hs).mp (e s hs)
    obtain ⟨b1, b2, b3⟩ := (hd t ht).mp (e t ht)
    exact ⟨a1.trans b1.symm, a2.trans b2.symm, a3.trans b3.symm⟩
  · intro e s hs
    rw [hd s hs]
    have hc : ∀ f : String → ℝ, (∀ t ∈ ps, f s = f t) → f s = comR K d ps f := by
      intro f hf
      have hb := com_between K ps d f hn hr (f s) (f s) (fun t ht => by rw [← hf t ht]; exact ⟨le_rfl, le_rfl⟩)
      exact le_antisymm hb.1 hb.2
    exact ⟨hc _ (fun t ht => (e s hs t ht).1), hc _ (fun t ht => (e s hs t ht).2.1),
      hc _ (fun t ht => (e s hs t ht).2.2)⟩

theorem com_shift (ps : List String) (d : RData) (f g : String → ℝ) (u : ℝ) (hr : 0 < (ps.map (rR K d)).sum)
    (hg : ∀ s ∈ ps, g s = f s + u) : comR K d ps g = comR K d ps f + u := by
  unfold comR
  rw [show (ps.map fun s => g s * rR K d s) = ps.map fun s => f s * rR K d s + u * rR K d s from
    List.map_congr_left (fun s hs => by rw [hg s hs]; ring), list_sum_add, list_sum_mul_left]
  field_simp

/-- C18: invariance under a common velocity shift. -/
theorem C18_galilean (o' : Obs) (ions ps : List String) (h : Valid ions ps) (hl : 2 ≤ ps.length) (d d' : RData)
    (hm : Measured o ps d) (hm' : Measured o' ps d') (hn : ∀ s ∈ ps, 0 < d.n s) (ux uy uz : ℝ)
    (hsame : ∀ s ∈ ps, d'.n s = d.n s) (hx : ∀ s ∈ ps, d'.vx s = d.vx s + ux)
    (hy : ∀ s ∈ ps, d'.vy s = d.vy s + uy) (hz : ∀ s ∈ ps, d'.vz s = d.vz s + uz) :
    ∃ q : ℝ, pdynamic K o ions [pyJoin '+' ps] false = .ok (.fin q) ∧
      pdynamic K o' ions [pyJoin '+' ps] false = .ok (.fin q) := by
  obtain ⟨h1, -⟩ := pdynamic_fin K o ions ps h hl d hm hn
  obtain ⟨h2, -⟩ := pdynamic_fin K o' ions ps h hl d' hm' (fun s hs => by rw [hsame s hs]; exact hn s hs)
  have hr : 0 < (ps.map (rR K d)).sum := list_sum_pos h.ne (fun s hs => rR_pos K (hn s hs))
  have hrr : ∀ s ∈ ps, rR K d' s = rR K d s := fun s hs => by unfold rR; rw [hsame s hs]
  have hcom : ∀ f : String → ℝ, comR K d' ps f = comR K d ps f := by
    intro f; unfold comR
    rw [List.map_congr_left (fun s hs => by rw [hrr s hs]), List.map_congr_left hrr]
  refine ⟨_, h1, ?_⟩
  rw [h2]
  congr 3
  apply congrArg
  apply List.map_congr_left
  intro s hs
  rw [hrr s hs]
  unfold driftSq
  rw [hcom, hcom, hcom, com_shift K ps d d.vx d'.vx ux hr hx, com_shift K ps d d.vy d'.vy uy hr hy,
    com_shift K ps d d.vz d'.vz uz hr hz, hx s hs, hy s hs, hz s hs]
  ring

/-- C18: two species: `1/2 rho1 rho2 / (rho1 + rho2) |v1 - v2|^2` in SI units. -/
theorem C18_two (ions : List String) (a b : String) (h : Valid ions [a, b]) (d : RData)
    (hm : Measured o [a, b] d) (ha : 0 < d.n a) (hb : 0 < d.n b) :
    ∃ q : ℝ, pdynamic K o ions [a, b] false = .ok (.fin q) ∧
      q * K.uPth = 1 / 2 * ((d.n a * K.mInMp a) * (d.n b * K.mInMp b) /
        (d.n a * K.mInMp a + d.n b * K.mInMp b)) * K.uRho *
        (((d.vx a - d.vx b) ^ 2 + (d.vy a - d.vy b) ^ 2 + (d.vz a - d.vz b) ^ 2) * K.uV ^ 2) := by
  obtain ⟨h1, h2⟩ := pdynamic_fin K o ions [a, b] h (by simp) d hm (by simp [ha, hb])
  refine ⟨_, h2.trans h1, ?_⟩
  have := K.uPth_pos.ne'
  have p1 := mul_pos ha (K.mInMp_pos a)
  have p2 := mul_pos hb (K.mInMp_pos b)
  have hs : d.n a * K.mInMp a + d.n b * K.mInMp b ≠ 0 := by positivity
  simp only [driftSq, comR, rR, List.map_cons, List.map_nil, List.sum_cons, List.sum_nil, add_zero]
  field_simp
  ring

/-- C18: a single species is a ValueError, with and without projection. -/
theorem C18_single (ions : List String) (s : String) (h : Valid ions [s]) (proj : Bool) :
    pdynamic K o ions [s] proj = .error .valueError := by
  have hc := chk_args h
  unfold pdynamic
  rw [hc]
  simp [pySorted]

example (K : Const) : ∃ q : ℝ, pdynamic K exD.obs ["a", "p1"] [pyJoin '+' ["p1", "a"]] false = .ok (.fin q) ∧ 0 < q := by
  obtain ⟨q, h1, h2, h3⟩ := C18_zero_iff K exD.obs _ _ exValid (by simp) exD (exD.measured _)
    (by intro t _; simp only [exD]; split <;> norm_num)
  refine ⟨q, h1, lt_of_le_of_ne h2 (fun e => ?_)⟩
  have := (h3.mp e.symm "p1" (by simp) "a" (by simp)).1
  simp [exD] at this

/-! ## C19 -/

/-- C19 (violated): three or more species with the m/q projection hit an unbound local variable. -/
theorem C19_three_species_crash (ions ps : List String) (h : Valid ions ps) (hl : 3 ≤ ps.length) :
    pdynamic K o ions ps true = .error .unboundLocal ∧
    pdynamic K o ions [pyJoin '+' ps] true = .error .unboundLocal := by
  have h1 : (pySorted ps).length ≠ 1 := by rw [sorted_length]; omega
  have h2 : (pySorted ps).length ≠ 2 := by rw [sorted_length]; omega
  constructor
  · unfold pdynamic; rw [chk_args h]; simp [h1, h2]
  · have := chk_join h
    unfold pdynamic
    rw [show ([pyJoin '+' ps].map PyVal.str) = [.str (pyJoin '+' ps)] from rfl, this]; simp [h1, h2]

/-- C19: two species work: `1/2 mu |v1' - v2'|^2` with `v' = sqrt(m/q) v` (SI), for positive charge states. -/
theorem C19_two (ions : List String) (a b : String) (h : Valid ions [a, b]) (d : RData)
    (hm : Measured o [a, b] d) (ha : 0 < d.n a) (hb : 0 < d.n b) (hqa : 0 < K.chargeState a)
    (hqb : 0 < K.chargeState b) :
    ∃ q ma mb : ℝ, pdynamic K o ions [a, b] true = .ok (.fin q) ∧ 0 ≤ ma ∧ 0 ≤ mb ∧
      ma ^ 2 = K.mInMp a / K.chargeState a ∧ mb ^ 2 = K.mInMp b / K.chargeState b ∧
      q * K.uPth = 1 / 2 * ((d.n a * K.mInMp a) * (d.n b * K.mInMp b) /
        (d.n a * K.mInMp a + d.n b * K.mInMp b)) * K.uRho *
        (((ma * d.vx a - mb * d.vx b) ^ 2 + (ma * d.vy a - mb * d.vy b) ^ 2 +
          (ma * d.vz a - mb * d.vz b) ^ 2) * K.uV ^ 2) := by
  have hab : a ≠ b := by have := h.nodup; simpa using this
  have m2 : ∀ s, 0 < K.chargeState s → m2q K s = .fin (Real.sqrt (K.mInMp s / K.chargeState s)) := by
    intro s hs; unfold m2q
    rw [Fl.fin_div _ _ hs.ne', Fl.sqrt_fin _ (div_nonneg (K.mInMp_pos s).le hs.le)]
  have hna := (K.mInMp_pos a).le
  have hnb := (K.mInMp_pos b).le
  have key : ∀ x y, x ∈ [a, b] → y ∈ [a, b] → x ≠ y → 0 < K.chargeState x → 0 < K.chargeState y →
      dv K o ions x y true = .ok (V3.ofReal
      (d.vx x * Real.sqrt (K.mInMp x / K.chargeState x) - d.vx y * Real.sqrt (K.mInMp y / K.chargeState y))
      (d.vy x * Real.sqrt (K.mInMp x / K.chargeState x) - d.vy y * Real.sqrt (K.mInMp y / K.chargeState y))
      (d.vz x * Real.sqrt (K.mInMp x / K.chargeState x) - d.vz y * Real.sqrt (K.mInMp y / K.chargeState y))) := by
    intro x y hx hy hxy hqx hqy
    unfold dv
    rw [if_neg hxy, velocity_single_proj h hx, velocity_single_proj h hy]
    simp only []
    rw [m2 x hqx, m2 y hqy, hm.v x hx, hm.v y hy]
    simp only [V3.scale, V3.ofReal, Fl.fin_mul, V3.sub, Fl.fin_sub]
  have p1 := mul_pos ha (K.mInMp_pos a)
  have p2 := mul_pos hb (K.mInMp_pos b)
  have hs : d.n a * K.mInMp a + d.n b * K.mInMp b ≠ 0 := by positivity
  have hs' : d.n b * K.mInMp b + d.n a * K.mInMp a ≠ 0 := by positivity
  have hu := K.uPth_pos.ne'
  have val : ∀ x y, x ∈ [a, b] → y ∈ [a, b] → x ≠ y → 0 < K.chargeState x → 0 < K.chargeState y →
      d.n x * K.mInMp x + d.n y * K.mInMp y ≠ 0 → pySorted [a, b] = [x, y] → pdynamic K o ions [a, b] true = .ok (.fin (
        ((d.vx x * Real.sqrt (K.mInMp x / K.chargeState x) - d.vx y * Real.sqrt (K.mInMp y / K.chargeState y)) ^ 2 +
         (d.vy x * Real.sqrt (K.mInMp x / K.chargeState x) - d.vy y * Real.sqrt (K.mInMp y / K.chargeState y)) ^ 2 +
         (d.vz x * Real.sqrt (K.mInMp x / K.chargeState x) - d.vz y * Real.sqrt (K.mInMp y / K.chargeState y)) ^ 2) *
        ((d.n x * K.mInMp x) * (d.n y * K.mInMp y) / (d.n x * K.mInMp x + d.n y * K.mInMp y)) *
        (0.5 * K.uRho * K.uV ^ 2 / K.uPth))) := by
    intro x y hx hy hxy hqx hqy hne e
    unfold pdynamic
    rw [chk_args h, e]
    simp only [List.length_cons, List.length_nil, Bool.not_true, Bool.false_eq_true, if_false, zero_add,
      Nat.reduceAdd, OfNat.ofNat_ne_one, if_true, List.getD_cons_zero, List.getD_cons_succ]
    rw [key x y hx hy hxy hqx hqy]
    simp only []
    rw [V3.sqSum_ofReal, rhoS_fin hm hx, rhoS_fin hm hy]
    simp only [Fl.prodSkip_cons_fin, Fl.prodSkip_nil, Fl.sumSkip_cons_fin, Fl.sumSkip_nil, Fl.one_def,
      Fl.zero_def, Fl.fin_mul, Fl.fin_add, add_zero, mul_one]
    rw [Fl.fin_div _ _ hne, Fl.fin_mul, Fl.fin_mul]
  have hsort : pySorted [a, b] = [a, b] ∨ pySorted [a, b] = [b, a] := by
    unfold pySorted; rw [List.insertionSort_cons]
    simp only [List.insertionSort_cons, List.insertionSort_nil, List.orderedInsert]
    split <;> simp
  rcases hsort with e | e
  · refine ⟨_, Real.sqrt (K.mInMp a / K.chargeState a), Real.sqrt (K.mInMp b / K.chargeState b),
      val a b (by simp) (by simp) hab hqa hqb hs e, Real.sqrt_nonneg _, Real.sqrt_nonneg _,
      Real.sq_sqrt (by positivity), Real.sq_sqrt (by positivity), ?_⟩
    field_simp; ring
  · refine ⟨_, Real.sqrt (K.mInMp a / K.chargeState a), Real.sqrt (K.mInMp b / K.chargeState b),
      val b a (by simp) (by simp) hab.symm hqb hqa hs' e, Real.sqrt_nonneg _, Real.sqrt_nonneg _,
      Real.sq_sqrt (by positivity), Real.sq_sqrt (by positivity), ?_⟩
    rw [add_comm (d.n b * K.mInMp b)]
    field_simp; ring

example (K : Const) (o : Obs) : pdynamic K o ["a", "p1", "p2"] ["p1", "p2", "a"] true = .error .unboundLocal :=
  (C19_three_species_crash K o ["a", "p1", "p2"] ["p1", "p2", "a"]
    ⟨by simp, by decide, by decide, by decide, by decide⟩ (by simp)).1

end SW
