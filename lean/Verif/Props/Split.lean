import Verif.Props.PlasmaKinetic

/-!
# Properties C233, C234 (how a plasma is divided into species)

The specification is the relation `Divided`: one population `a` of the row `d` appears in the row `d'` as the two populations `a` and
`b`, which have the same mass, velocity and thermal speeds and share its density (one proton population written as core and beam), or
`b` is an empty population of any kind. Everything else is the same.
-/

namespace SW
open Classical

/-! ### Specification -/

/-- the row `d'` divides the population `a` of `d` into `a` and `b`; `rest` are the other species -/
structure Divided (K : Const) (d d' : RData) (a b : String) (rest : List String) : Prop where
  field : d'.bx = d.bx ∧ d'.by_ = d.by_ ∧ d'.bz = d.bz
  others : ∀ s ∈ rest, d'.n s = d.n s ∧ d'.vx s = d.vx s ∧ d'.vy s = d.vy s ∧ d'.vz s = d.vz s ∧ ∀ c, d'.w s c = d.w s c
  first : d'.vx a = d.vx a ∧ d'.vy a = d.vy a ∧ d'.vz a = d.vz a ∧ ∀ c, d'.w a c = d.w a c
  shared : d'.n a + d'.n b = d.n a
  second : d'.n b = 0 ∨ (K.mInMp b = K.mInMp a ∧ K.chargeState b = K.chargeState a ∧ K.m b = K.m a ∧
    d'.vx b = d.vx a ∧ d'.vy b = d.vy a ∧ d'.vz b = d.vz a ∧ ∀ c, d'.w b c = d.w a c)

/-! ### Helper lemmas -/

section
variable {K : Const} {o o' : Obs} {d d' : RData} {a b : String} {rest : List String}

theorem Divided.sum (F F' : String → ℝ) (h1 : F' a + F' b = F a) (h2 : ∀ s ∈ rest, F' s = F s) :
    ((a :: b :: rest).map F').sum = ((a :: rest).map F).sum := by
  rw [List.map_cons, List.map_cons, List.map_cons, List.sum_cons, List.sum_cons, List.sum_cons, List.map_congr_left h2]
  linarith

/-- any quantity carried by the mass has the same total -/
theorem Divided.mass (h : Divided K d d' a b rest) (g g' : String → ℝ) (ha : g' a = g a) (hr : ∀ s ∈ rest, g' s = g s)
    (hb : (d'.vx b = d.vx a ∧ d'.vy b = d.vy a ∧ d'.vz b = d.vz a ∧ ∀ c, d'.w b c = d.w a c) → g' b = g a) :
    ((a :: b :: rest).map fun s => g' s * rR K d' s).sum = ((a :: rest).map fun s => g s * rR K d s).sum := by
  apply Divided.sum
  · rcases h.second with e | ⟨e1, -, -, e2, e3, e4, e5⟩
    · have := h.shared; rw [e, add_zero] at this
      unfold rR; rw [e, this, ha]; ring
    · have := h.shared
      unfold rR; rw [e1, ha, hb ⟨e2, e3, e4, e5⟩, ← this]; ring
  · intro s hs; unfold rR; rw [(h.others s hs).1, hr s hs]

/-- any quantity carried by the charge has the same total -/
theorem Divided.charge (h : Divided K d d' a b rest) (g g' : String → ℝ) (ha : g' a = g a) (hr : ∀ s ∈ rest, g' s = g s)
    (hb : (d'.vx b = d.vx a ∧ d'.vy b = d.vy a ∧ d'.vz b = d.vz a) → g' b = g a) :
    ((a :: b :: rest).map fun s => K.chargeState s * d'.n s * g' s).sum =
      ((a :: rest).map fun s => K.chargeState s * d.n s * g s).sum := by
  apply Divided.sum
  · rcases h.second with e | ⟨-, e1, -, e2, e3, e4, -⟩
    · have := h.shared; rw [e, add_zero] at this
      rw [e, this, ha]; ring
    · have := h.shared
      rw [e1, ha, hb ⟨e2, e3, e4⟩, ← this]; ring
  · intro s hs; rw [(h.others s hs).1, hr s hs]

theorem Divided.rho (h : Divided K d d' a b rest) : ((a :: b :: rest).map (rR K d')).sum = ((a :: rest).map (rR K d)).sum := by
  have := h.mass (fun _ => 1) (fun _ => 1) rfl (fun _ _ => rfl) (fun _ => rfl)
  simpa using this

theorem Divided.com (h : Divided K d d' a b rest) :
    comR K d' (a :: b :: rest) d'.vx = comR K d (a :: rest) d.vx ∧ comR K d' (a :: b :: rest) d'.vy = comR K d (a :: rest) d.vy ∧
    comR K d' (a :: b :: rest) d'.vz = comR K d (a :: rest) d.vz := by
  unfold comR
  rw [h.rho]
  refine ⟨?_, ?_, ?_⟩
  · rw [h.mass d.vx d'.vx h.first.1 (fun s hs => (h.others s hs).2.1) (fun e => e.1)]
  · rw [h.mass d.vy d'.vy h.first.2.1 (fun s hs => (h.others s hs).2.2.1) (fun e => e.2.1)]
  · rw [h.mass d.vz d'.vz h.first.2.2.1 (fun s hs => (h.others s hs).2.2.2.1) (fun e => e.2.2.1)]

theorem Divided.press (h : Divided K d d' a b rest) (c : String) :
    ((a :: b :: rest).map (pR K d' c)).sum = ((a :: rest).map (pR K d c)).sum := by
  have := h.mass (fun s => 0.5 / K.uPth * ((d.w s c * K.uV) ^ 2 * K.uRho)) (fun s => 0.5 / K.uPth * ((d'.w s c * K.uV) ^ 2 * K.uRho))
    (by rw [h.first.2.2.2]) (fun s hs => by rw [(h.others s hs).2.2.2.2]) (fun e => by rw [e.2.2.2])
  have e : ∀ (D : RData), (fun s => 0.5 / K.uPth * ((D.w s c * K.uV) ^ 2 * K.uRho) * rR K D s) = pR K D c := by
    intro D; funext s; unfold pR rR; ring
  rw [e d, e d'] at this
  exact this

end

variable (K : Const) (o o' : Obs)

/-- C233: the totals of a plasma do not depend on how a population is divided into species, nor on empty species: number and mass
density, thermal pressure, plasma beta, anisotropy, sound and Alfven speed, anisotropy factor, anisotropic Alfven speed and specific
entropy of `"a+b+…"` are those of `"a+…"` before the division. -/
theorem C233_totals (ions ions' : List String) (a b : String) (rest : List String) (h : Valid ions (a :: rest))
    (h' : Valid ions' (a :: b :: rest)) (d d' : RData) (hm : Measured o (a :: rest) d) (hm' : Measured o' (a :: b :: rest) d')
    (hd : Divided K d d' a b rest) :
    (∀ skipna, numberDensity o' ions' skipna [pyJoin '+' (a :: b :: rest)] = numberDensity o ions skipna [pyJoin '+' (a :: rest)]) ∧
    massDensity K o' ions' [pyJoin '+' (a :: b :: rest)] = massDensity K o ions [pyJoin '+' (a :: rest)] ∧
    (∀ c ∈ ["par", "per", "scalar"],
      pth K o' ions' c [pyJoin '+' (a :: b :: rest)] = pth K o ions c [pyJoin '+' (a :: rest)] ∧
      beta K o' ions' c [pyJoin '+' (a :: b :: rest)] = beta K o ions c [pyJoin '+' (a :: rest)]) ∧
    anisotropy K o' ions' [pyJoin '+' (a :: b :: rest)] = anisotropy K o ions [pyJoin '+' (a :: rest)] ∧
    soundSpeed K o' ions' [pyJoin '+' (a :: b :: rest)] = soundSpeed K o ions [pyJoin '+' (a :: rest)] ∧
    ca K o' ions' [pyJoin '+' (a :: b :: rest)] = ca K o ions [pyJoin '+' (a :: rest)] ∧
    afsq K o' ions' false [pyJoin '+' (a :: b :: rest)] = afsq K o ions false [pyJoin '+' (a :: rest)] ∧
    caani K o' ions' false [pyJoin '+' (a :: b :: rest)] = caani K o ions false [pyJoin '+' (a :: rest)] ∧
    specificEntropy K o' ions' [pyJoin '+' (a :: b :: rest)] = specificEntropy K o ions [pyJoin '+' (a :: rest)] := by
  have hb : o'.b = o.b := by rw [hm.b, hm'.b, hd.field.1, hd.field.2.1, hd.field.2.2]
  have hrho : rhoTot K o' (pySorted (a :: b :: rest)) = rhoTot K o (pySorted (a :: rest)) := by
    rw [rhoTot_fin hm'.sorted, rhoTot_fin hm.sorted, sum_sorted, sum_sorted]
    exact congrArg Fl.fin hd.rho
  have hp : ∀ c ∈ ["par", "per", "scalar"], pthTot K o' c (pySorted (a :: b :: rest)) = pthTot K o c (pySorted (a :: rest)) := by
    intro c hc
    rw [pthTot_fin hm'.sorted hc, pthTot_fin hm.sorted hc, sum_sorted, sum_sorted, hd.press c]
  have hbeta : ∀ p, betaOf K o' p = betaOf K o p := by intro p; unfold betaOf; rw [hb]
  have hca : ∀ r, caOf K o' r = caOf K o r := by intro r; unfold caOf; rw [hb]
  have haf : ∀ x y, afsqOf K o' x y = afsqOf K o x y := by intro x y; unfold afsqOf; rw [hb]
  have hs : Valid ions (pySorted (a :: rest)) := h.perm (pySorted_perm _).symm
  have hs' : Valid ions' (pySorted (a :: b :: rest)) := h'.perm (pySorted_perm _).symm
  refine ⟨?_, ?_, ?_, ?_, ?_, ?_, ?_, ?_, ?_⟩
  · intro skipna
    rw [C10_measured o' ions' _ h' skipna d'.n hm'.n, C10_measured o ions _ h skipna d.n hm.n,
      Divided.sum d.n d'.n hd.shared (fun s hs => (hd.others s hs).1)]
  · unfold massDensity; rw [query_join h, query_join h', hrho]
  · intro c hc
    constructor
    · unfold pth; rw [query_join h, query_join h', hp c hc]
    · unfold beta; rw [query_join h, query_join h', hp c hc, hbeta]
  · unfold anisotropy; rw [query_join h, query_join h', hp _ (by simp), hp _ (by simp)]
  · unfold soundSpeed; rw [query_join h, query_join h', hp _ (by simp), hrho]
  · unfold ca; rw [query_join h, query_join h', hrho, hca]
  · unfold afsq; simp only [Bool.false_eq_true, if_false]; rw [query_join h, query_join h', hp _ (by simp), hp _ (by simp), haf]
  · unfold caani ca afsq
    rw [show ([pyJoin '+' (a :: b :: rest)].map PyVal.str) = [.str (pyJoin '+' (a :: b :: rest))] from rfl, chk_join h',
      show ([pyJoin '+' (a :: rest)].map PyVal.str) = [.str (pyJoin '+' (a :: rest))] from rfl, chk_join h]
    simp only [Bool.false_eq_true, if_false]
    rw [query_join hs, query_join hs', query_join hs, query_join hs', pySorted_idem, pySorted_idem, hrho, hca,
      hp _ (by simp), hp _ (by simp), haf]
  · unfold specificEntropy; rw [query_join h, query_join h', hp _ (by simp), hrho]

/-- C233: the bulk velocity is the same, and so are the drift pressure and the heat flux when there are other species; a population
divided in two has no drift pressure and no heat flux (undivided it is refused). -/
theorem C233_flows (ions ions' : List String) (a b : String) (rest : List String) (h : Valid ions (a :: rest))
    (h' : Valid ions' (a :: b :: rest)) (d d' : RData) (hm : Measured o (a :: rest) d) (hm' : Measured o' (a :: b :: rest) d')
    (hd : Divided K d d' a b rest) (hr : ((a :: rest).map fun s => d.n s * K.mInMp s).sum ≠ 0) :
    velocity K o' ions' [pyJoin '+' (a :: b :: rest)] false = velocity K o ions [pyJoin '+' (a :: rest)] false ∧
    (rest ≠ [] → pdynamic K o' ions' [pyJoin '+' (a :: b :: rest)] false = pdynamic K o ions [pyJoin '+' (a :: rest)] false) ∧
    (rest = [] → pdynamic K o' ions' [pyJoin '+' (a :: b :: rest)] false = .ok (.fin 0) ∧
      pdynamic K o ions [pyJoin '+' (a :: rest)] false = .error .valueError) ∧
    ((d.bx, d.by_, d.bz) ≠ (0, 0, 0) →
      (rest ≠ [] → heatFlux K o' ions' [pyJoin '+' (a :: b :: rest)] = heatFlux K o ions [pyJoin '+' (a :: rest)]) ∧
      (rest = [] → heatFlux K o' ions' [pyJoin '+' (a :: b :: rest)] = .ok (.total (.fin 0)) ∧
        heatFlux K o ions [pyJoin '+' (a :: rest)] = .error .valueError)) := by
  have hr' : ((a :: b :: rest).map (rR K d')).sum ≠ 0 := by rw [hd.rho]; exact hr
  have hl' : 2 ≤ (a :: b :: rest).length := by simp
  obtain ⟨cx, cy, cz⟩ := hd.com
  have hv' : velocity K o' ions' [pyJoin '+' (a :: b :: rest)] false = .ok (.total (V3.ofReal (comR K d (a :: rest) d.vx)
      (comR K d (a :: rest) d.vy) (comR K d (a :: rest) d.vz))) := by
    rw [velocity_join h' hl', vCom_fin hm'.sorted (by rw [sum_sorted]; exact hr')]
    simp only [comR_sorted, cx, cy, cz]
  have hpd' := pdynamic_of K o' ions' (a :: b :: rest) [pyJoin '+' (a :: b :: rest)] h' hl' d' hm' hr' (chk_join h') (pyJoin_singleton _ _)
  have hdrift : ((a :: b :: rest).map fun s => driftSq K d' (a :: b :: rest) s * rR K d' s).sum =
      ((a :: rest).map fun s => driftSq K d (a :: rest) s * rR K d s).sum := by
    apply hd.mass
    · unfold driftSq; rw [cx, cy, cz, hd.first.1, hd.first.2.1, hd.first.2.2.1]
    · intro s hs
      obtain ⟨-, e1, e2, e3, -⟩ := hd.others s hs
      unfold driftSq; rw [cx, cy, cz, e1, e2, e3]
    · rintro ⟨e1, e2, e3, -⟩
      unfold driftSq; rw [cx, cy, cz, e1, e2, e3]
  have one : rest = [] → ∀ f : String → ℝ, comR K d (a :: rest) f = f a := by
    intro e f; subst e
    have : rR K d a ≠ 0 := by simpa [rR] using hr
    unfold comR; simp [this]
  refine ⟨?_, ?_, ?_, ?_⟩
  · rw [hv']
    by_cases e : rest = []
    · rw [one e, one e, one e]; subst e
      rw [pyJoin_singleton, velocity_single h (List.mem_singleton.mpr rfl), hm.v a (by simp)]
    · have hl : 2 ≤ (a :: rest).length := by
        have := List.length_pos_iff.mpr e; simp only [List.length_cons]; omega
      rw [velocity_join h hl, vCom_fin hm.sorted (by rw [sum_sorted]; exact hr)]
      simp only [comR_sorted]
  · intro e
    have hl : 2 ≤ (a :: rest).length := by
      have := List.length_pos_iff.mpr e; simp only [List.length_cons]; omega
    rw [hpd', pdynamic_of K o ions (a :: rest) [pyJoin '+' (a :: rest)] h hl d hm hr (chk_join h) (pyJoin_singleton _ _), hdrift]
  · intro e
    constructor
    · rw [hpd', hdrift]
      subst e
      have e0 : driftSq K d [a] a = 0 := by unfold driftSq; rw [one rfl, one rfl, one rfl]; ring
      simp [e0]
    · subst e
      rw [pyJoin_singleton]
      exact C18_single K o ions a h false
  · intro hB
    have hB' : (d'.bx, d'.by_, d'.bz) ≠ (0, 0, 0) := by rw [hd.field.1, hd.field.2.1, hd.field.2.2]; exact hB
    obtain ⟨q', hq', e'⟩ := heatFlux_r K o' ions' (a :: b :: rest) [pyJoin '+' (a :: b :: rest)] h' hl' d' hm' hr' hB' (chk_join h')
    rw [if_pos (List.length_singleton)] at e'
    obtain ⟨u, hu⟩ : ∃ u : (ℝ × ℝ × ℝ) → ℝ, u = fun v => ((v.1 - comR K d (a :: rest) d.vx) * d.bx +
      (v.2.1 - comR K d (a :: rest) d.vy) * d.by_ + (v.2.2 - comR K d (a :: rest) d.vz) * d.bz) /
      Real.sqrt (V3.nsq d.bx d.by_ d.bz) := ⟨_, rfl⟩
    obtain ⟨G, hG⟩ : ∃ G : (ℝ × ℝ × ℝ) → ℝ → ℝ, G = fun v w => (K.uRho * K.uV ^ 3 / K.uQpar) * (u v ^ 3 + 3 / 2 * u v * w ^ 2) := ⟨_, rfl⟩
    have hsum : ((a :: b :: rest).map q').sum =
        ((a :: rest).map fun s => G (d.vx s, d.vy s, d.vz s) (d.w s "par") * rR K d s).sum := by
      rw [← hd.mass (fun s => G (d.vx s, d.vy s, d.vz s) (d.w s "par")) (fun s => G (d'.vx s, d'.vy s, d'.vz s) (d'.w s "par"))]
      · congr 1
        apply List.map_congr_left
        intro s hs
        obtain ⟨x, hx, hxq⟩ := hq' s hs
        rw [hxq, hx, cx, cy, cz, hd.field.1, hd.field.2.1, hd.field.2.2, hG, hu]
        unfold rR
        simp only []
        ring
      · rw [hd.first.1, hd.first.2.1, hd.first.2.2.1, hd.first.2.2.2]
      · intro s hs
        obtain ⟨-, e1, e2, e3, e4⟩ := hd.others s hs
        rw [e1, e2, e3, e4]
      · rintro ⟨e1, e2, e3, e4⟩; rw [e1, e2, e3, e4]
    constructor
    · intro e
      have hl : 2 ≤ (a :: rest).length := by
        have := List.length_pos_iff.mpr e; simp only [List.length_cons]; omega
      obtain ⟨q, hq, e2⟩ := heatFlux_r K o ions (a :: rest) [pyJoin '+' (a :: rest)] h hl d hm hr hB (chk_join h)
      rw [if_pos (List.length_singleton)] at e2
      rw [e', e2, hsum]
      congr 4
      apply List.map_congr_left
      intro s hs
      obtain ⟨x, hx, hxq⟩ := hq s hs
      rw [hxq, hx, hG, hu]
      unfold rR
      simp only []
      ring
    · intro e
      constructor
      · rw [e', hsum]
        subst e
        have e0 : u (d.vx a, d.vy a, d.vz a) = 0 := by rw [hu]; simp only []; rw [one rfl, one rfl, one rfl]; ring
        have : G (d.vx a, d.vy a, d.vz a) (d.w a "par") = 0 := by rw [hG]; simp only [e0]; ring
        simp [this]
      · subst e; rw [pyJoin_singleton]; exact C26_single K o ions a h

/-- C233 (violated): the temperature of a sum of species is the sum of their temperatures, so dividing a population adds the
temperature of the new part (doubles it for a divided population), even if the new part is empty. -/
theorem C233_temperature (ions ions' : List String) (a b : String) (rest : List String) (h : Valid ions (a :: rest))
    (h' : Valid ions' (a :: b :: rest)) (d d' : RData) (hm : Measured o (a :: rest) d) (hm' : Measured o' (a :: b :: rest) d')
    (hd : Divided K d d' a b rest) (c : String) (hc : c ∈ ["par", "per", "scalar"]) :
    ∃ t tb : ℝ, temperature K o ions c [pyJoin '+' (a :: rest)] = .ok (.total (.fin t)) ∧
      temperature K o' ions' c [b] = .ok (.total (.fin tb)) ∧
      temperature K o' ions' c [pyJoin '+' (a :: b :: rest)] = .ok (.total (.fin (t + tb))) ∧
      (d'.w b c ≠ 0 → 0 < tb) := by
  refine ⟨((a :: rest).map (tR K d c)).sum, tR K d' c b, ?_, ?_, ?_, ?_⟩
  · unfold temperature; rw [query_join h, tempTot_fin hm.sorted hc, sum_sorted]
  · unfold temperature
    rw [query_single h' (s := b) (by simp), tempTot_fin (hm'.sub (qs := [b]) (by simp)) hc]; simp
  · unfold temperature
    rw [query_join h', tempTot_fin hm'.sorted hc, sum_sorted, Divided.sum (a := a) (b := b) (rest := rest)
      (fun s => if s = a then tR K d c a + tR K d' c b else tR K d c s) (fun s => tR K d' c s)]
    · simp only [List.map_cons, List.sum_cons, if_true]
      have : ∀ s ∈ rest, (if s = a then tR K d c a + tR K d' c b else tR K d c s) = tR K d c s := by
        intro s hs
        rw [if_neg]; rintro rfl
        exact (List.nodup_cons.mp h.nodup).1 hs
      rw [List.map_congr_left this]
      congr 3
      ring
    · rw [if_pos rfl]; unfold tR; rw [hd.first.2.2.2]
    · intro s hs
      rw [if_neg (by rintro rfl; exact (List.nodup_cons.mp h.nodup).1 hs)]
      unfold tR; rw [(hd.others s hs).2.2.2.2]
  · intro hw
    unfold tR
    have := K.m_pos b; have := K.kbJ_pos; have := K.uT_pos; have := K.uV_pos
    have : d'.w b c * K.uV ≠ 0 := mul_ne_zero hw this.ne'
    positivity

/-- C234: the electrons estimated for the divided plasma have the same density and velocity; their thermal speed is the same too
unless the divided population is the one that sets the temperature: then its square changes in proportion to the density left in it. -/
theorem C234_electrons (a b : String) (rest : List String) (tkw : String) (hok : protonOf (a :: rest) = .ok tkw)
    (hok' : protonOf (a :: b :: rest) = .ok tkw) (hmem : tkw ∈ a :: rest) (d d' : RData) (hm : Measured o (a :: rest) d)
    (hm' : Measured o' (a :: b :: rest) d') (hd : Divided K d d' a b rest)
    (hq : 0 < ((a :: rest).map fun s => K.chargeState s * d.n s).sum) (hn : 0 ≤ d.n tkw) (hn' : 0 ≤ d'.n tkw) :
    ∃ (e e' : Electrons) (w w' : ℝ), estimateElectrons K o (a :: rest) = .ok e ∧ estimateElectrons K o' (a :: b :: rest) = .ok e' ∧
      e'.n = e.n ∧ e'.v = e.v ∧ e.w = .fin w ∧ e'.w = .fin w' ∧ (tkw ≠ a → w' = w) ∧
      (tkw = a → w' ^ 2 * d.n a = w ^ 2 * d'.n a) := by
  have hQ : ((a :: b :: rest).map fun s => K.chargeState s * d'.n s).sum = ((a :: rest).map fun s => K.chargeState s * d.n s).sum := by
    have := hd.charge (fun _ => 1) (fun _ => 1) rfl (fun _ _ => rfl) (fun _ => rfl)
    simpa using this
  obtain ⟨e, ne, vx, vy, vz, w, h1, h2, h3, h4, h5, h6, h7, h8, h9, h10⟩ :=
    C25_neutral K o (a :: rest) tkw hok d (by simp) hmem hm hq.ne' (div_nonneg hn hq.le)
  obtain ⟨e', ne', vx', vy', vz', w', h1', h2', h3', h4', h5', h6', h7', h8', h9', h10'⟩ :=
    C25_neutral K o' (a :: b :: rest) tkw hok' d' (by simp)
      (by rcases List.mem_cons.mp hmem with e | e <;> simp [e]) hm'
      (by rw [hQ]; exact hq.ne') (by rw [hQ]; exact div_nonneg hn' hq.le)
  have hne : ne' = ne := by rw [h6, h6', hQ]
  have hne0 : ne ≠ 0 := by rw [h6]; exact hq.ne'
  have ex : vx' = vx := by
    apply mul_left_cancel₀ hne0
    rw [h7, ← hne, h7']
    exact hd.charge d.vx d'.vx hd.first.1 (fun s hs => (hd.others s hs).2.1) (fun e => e.1)
  have ey : vy' = vy := by
    apply mul_left_cancel₀ hne0
    rw [h8, ← hne, h8']
    exact hd.charge d.vy d'.vy hd.first.2.1 (fun s hs => (hd.others s hs).2.2.1) (fun e => e.2.1)
  have ez : vz' = vz := by
    apply mul_left_cancel₀ hne0
    rw [h9, ← hne, h9']
    exact hd.charge d.vz d'.vz hd.first.2.2.1 (fun s hs => (hd.others s hs).2.2.2.1) (fun e => e.2.2)
  have hme := K.mInMp_pos "e"
  refine ⟨e, e', w, w', h1, h1', by rw [h2, h2', hne], by rw [h3, h3', ex, ey, ez], h4, h4', ?_, ?_⟩
  · intro hta
    have hr : tkw ∈ rest := by rcases List.mem_cons.mp hmem with e | e; exact absurd e hta; exact e
    obtain ⟨en, -, -, -, ew⟩ := hd.others tkw hr
    rw [en, ew, hne, ← h10] at h10'
    have : w' ^ 2 = w ^ 2 := by
      have hk : ne * K.mInMp "e" / 2 ≠ 0 := by positivity
      apply mul_left_cancel₀ hk; linarith
    exact (pow_left_inj₀ h5' h5 two_ne_zero).mp this
  · intro hta
    subst hta
    rw [hd.first.2.2.2, hne] at h10'
    have hk : ne * K.mInMp "e" / 2 ≠ 0 := by positivity
    apply mul_left_cancel₀ hk
    calc ne * K.mInMp "e" / 2 * (w' ^ 2 * d.n tkw) = (ne * K.mInMp "e" * w' ^ 2 / 2) * d.n tkw := by ring
      _ = (d'.n tkw * d.w tkw "scalar" ^ 2 / 2) * d.n tkw := by rw [h10']
      _ = (d.n tkw * d.w tkw "scalar" ^ 2 / 2) * d'.n tkw := by ring
      _ = (ne * K.mInMp "e" * w ^ 2 / 2) * d'.n tkw := by rw [h10]
      _ = _ := by ring

/-! ### Non-vacuity: the protons of `exD` divided into core and beam, and an empty species -/

/-- the protons divided into 3 parts core "p1" and 1 part beam "p2" -/
noncomputable def exHalf : RData := { exD with n := fun s => if s = "a" then 1 else if s = "p1" then 3 else 1 }

theorem exHalf_divided : Divided exK exD exHalf "p1" "p2" ["a"] :=
  ⟨⟨rfl, rfl, rfl⟩, by simp [exHalf, exD], by simp [exHalf, exD], by simp [exHalf, exD]; norm_num,
   Or.inr (by simp [exHalf, exD, exK])⟩

theorem exHalf_valid : Valid ["a", "p1", "p2"] ["p1", "p2", "a"] := ⟨by simp, by decide, by decide, by decide, by decide⟩

example : massDensity exK exHalf.obs ["a", "p1", "p2"] [pyJoin '+' ["p1", "p2", "a"]] =
    massDensity exK exD.obs ["a", "p1"] [pyJoin '+' ["p1", "a"]] :=
  (C233_totals exK exD.obs exHalf.obs _ _ "p1" "p2" ["a"] exValid exHalf_valid exD exHalf (exD.measured _) (exHalf.measured _)
    exHalf_divided).2.1

example : pdynamic exK exHalf.obs ["a", "p1", "p2"] [pyJoin '+' ["p1", "p2", "a"]] false =
    pdynamic exK exD.obs ["a", "p1"] [pyJoin '+' ["p1", "a"]] false :=
  (C233_flows exK exD.obs exHalf.obs _ _ "p1" "p2" ["a"] exValid exHalf_valid exD exHalf (exD.measured _) (exHalf.measured _)
    exHalf_divided (by simp [exD, exK] <;> norm_num)).2.1 (by simp)

/-- an empty population of heavy ions, with a velocity of its own -/
noncomputable def exEmpty : RData :=
  { exD with n := fun s => if s = "a" then 1 else if s = "p1" then 4 else 0, vx := fun s => if s = "a" then 450 else if s = "p1" then 400 else 999 }

example : velocity exK exEmpty.obs ["a", "o", "p1"] [pyJoin '+' ["p1", "o", "a"]] false =
    velocity exK exD.obs ["a", "p1"] [pyJoin '+' ["p1", "a"]] false :=
  (C233_flows exK exD.obs exEmpty.obs _ _ "p1" "o" ["a"] exValid ⟨by simp, by decide, by decide, by decide, by decide⟩ exD exEmpty
    (exD.measured _) (exEmpty.measured _)
    ⟨⟨rfl, rfl, rfl⟩, by simp [exEmpty, exD], by simp [exEmpty, exD], by simp [exEmpty, exD], Or.inl (by simp [exEmpty])⟩
    (by simp [exD, exK] <;> norm_num)).1

example : ∃ (e e' : Electrons) (w w' : ℝ), estimateElectrons exK exD.obs ["p1", "a"] = .ok e ∧
    estimateElectrons exK exHalf.obs ["p1", "p2", "a"] = .ok e' ∧ e'.n = e.n ∧ e'.v = e.v ∧ e.w = .fin w ∧ e'.w = .fin w' ∧
    w' ^ 2 * 4 = w ^ 2 * 3 := by
  obtain ⟨e, e', w, w', h1, h2, h3, h4, h5, h6, -, h7⟩ := C234_electrons exK exD.obs exHalf.obs "p1" "p2" ["a"] "p1" (by decide) (by decide)
    (by simp) exD exHalf (exD.measured _) (exHalf.measured _) exHalf_divided (by simp [exD, exK] <;> norm_num) (by simp [exD]) (by simp [exHalf])
  refine ⟨e, e', w, w', h1, h2, h3, h4, h5, h6, ?_⟩
  have := h7 rfl
  simpa [exD, exHalf] using this

end SW
