import Verif.ConstTab
import Verif.Props.PlasmaKinetic

/-!
# C208: species without tabulated constants
-/

namespace SW
noncomputable section
open Classical

variable {known : String → Bool} {K : Const} {o : Obs}

theorem forEach_look_ok {α : Type} (f : String → α) (l : List String) (h : ∀ s ∈ l, known s = true) :
    forEach (fun s => look known s (f s)) l = .ok (l.map f) :=
  forEach_ok _ f l fun s hs => by unfold look; rw [if_pos (h s hs)]

theorem forEach_look_err {α : Type} (f : String → α) (l : List String) (h : ∃ s ∈ l, known s = false) :
    forEach (fun s => look known s (f s)) l = .error .keyError := by
  induction l with
  | nil => simp at h
  | cons a l ih =>
    rw [forEach]
    by_cases ha : known a = true
    · obtain ⟨s, hs, hk⟩ := h
      have hl : ∃ s ∈ l, known s = false := by
        rcases List.mem_cons.mp hs with rfl | hs
        · rw [ha] at hk; simp at hk
        · exact ⟨s, hs, hk⟩
      rw [ih hl]; unfold look; rw [if_pos ha]
    · unfold look; rw [if_neg ha]

/-- the resolved species are those of the query -/
theorem queryT_ok {α β : Type} {ions args : List String} (f : String → α) (tot : List α → β) (one : α → β)
    (h : ∀ sl, resolve ions args = .ok sl → ∀ s ∈ sl, known s = true) :
    queryT ions args (fun s => look known s (f s)) tot one = query ions args (fun sl => tot (sl.map f)) (fun s => one (f s)) := by
  unfold queryT query
  rcases hr : resolve ions args with e | sl
  · rfl
  · simp only []
    rw [forEach_look_ok f sl (h sl hr)]
    simp only [List.map_map, zip_map_self, Function.comp_def]

theorem queryT_err {α β : Type} {ions args sl : List String} (f : String → α) (tot : List α → β) (one : α → β)
    (hr : resolve ions args = .ok sl) (h : ∃ s ∈ sl, known s = false) :
    queryT ions args (fun s => look known s (f s)) tot one = .error .keyError := by
  unfold queryT
  rw [hr]; simp only []
  rw [forEach_look_err f sl h]

/-- the two ways of asking about the species `ps`: one '+'-joined string, or one argument each -/
def Asks (args ps : List String) : Prop := args = [pyJoin '+' ps] ∨ args = ps

theorem Asks.resolve {ions args ps : List String} (hv : Valid ions ps) (h : Asks args ps) : resolve ions args = .ok (pySorted ps) := by
  rcases h with rfl | rfl
  · exact resolve_join hv
  · exact resolve_args hv

theorem Asks.chk {ions args ps : List String} (hv : Valid ions ps) (h : Asks args ps) :
    chkSpecies ions (args.map .str) = .ok (pySorted ps) := by
  rcases h with rfl | rfl
  · exact chk_join hv
  · exact chk_args hv

theorem Valid.sorted {ions ps : List String} (hv : Valid ions ps) : Valid ions (pySorted ps) := hv.perm (pySorted_perm ps).symm

/-! ## the tables -/

/-- C208: the five tables of constants (mass in proton masses, charge, charge state, mass, mass in atomic units) have rows for exactly the
same ten names. -/
theorem C208_tables (c : Uc.Codata) (s : String) :
    (s ∈ (Uc.mInMp c).map Prod.fst ↔ s ∈ tabulated) ∧ (s ∈ (Uc.charges c).map Prod.fst ↔ s ∈ tabulated) ∧
    (s ∈ Uc.chargeStates.map Prod.fst ↔ s ∈ tabulated) ∧ (s ∈ (Uc.masses c).map Prod.fst ↔ s ∈ tabulated) ∧
    (s ∈ (Uc.mAmu c).map Prod.fst ↔ s ∈ tabulated) := by
  simp only [Uc.mInMp, Uc.charges, Uc.chargeStates, Uc.masses, Uc.mAmu, tabulated, List.map_cons, List.map_nil, List.mem_cons,
    List.not_mem_nil, or_false]
  refine ⟨trivial, ?_, ?_, ?_, ?_⟩ <;> constructor <;> intro h <;> aesop

/-! ## queries about tabulated species -/

/-- C208: as long as the species asked for are tabulated, the look-ups never fail and each method is the one with total constants;
other species of the plasma do not matter. -/
theorem C208_local (known : String → Bool) (K : Const) (o : Obs) {ions args ps : List String} (hv : Valid ions ps) (ha : Asks args ps)
    (hk : ∀ s ∈ ps, known s = true) (c : String) (pdyn : Bool) :
    massDensityT known K o ions args = massDensity K o ions args ∧ pthT known K o ions c args = pth K o ions c args ∧
    temperatureT known K o ions c args = temperature K o ions c args ∧ betaT known K o ions c args = beta K o ions c args ∧
    anisotropyT known K o ions args = anisotropy K o ions args ∧ soundSpeedT known K o ions args = soundSpeed K o ions args ∧
    caT known K o ions args = ca K o ions args ∧ afsqT known K o ions pdyn args = afsq K o ions pdyn args ∧
    specificEntropyT known K o ions args = specificEntropy K o ions args := by
  have hr : ∀ sl, resolve ions args = .ok sl → ∀ s ∈ sl, known s = true := by
    intro sl h s hs
    rw [ha.resolve hv] at h
    cases h
    exact hk s (mem_pySorted.mp hs)
  refine ⟨queryT_ok _ _ _ hr, queryT_ok _ _ _ hr, queryT_ok _ _ _ hr, queryT_ok _ _ _ hr, ?_, ?_, queryT_ok _ _ _ hr, ?_, ?_⟩
  · unfold anisotropyT anisotropy
    rw [queryT_ok _ _ _ hr]
    simp only [List.map_map, Function.comp_def, pair]; rfl
  · unfold soundSpeedT soundSpeed
    rw [queryT_ok _ _ _ hr]
    simp only [List.map_map, Function.comp_def, pair]; rfl
  · unfold afsqT afsq
    rw [queryT_ok _ _ _ hr]
    simp only [List.map_map, Function.comp_def, pair]; rfl
  · unfold specificEntropyT specificEntropy
    rw [queryT_ok _ _ _ hr]
    simp only [List.map_map, Function.comp_def, pair]; rfl

/-- C208: … and if one of the species asked for is not tabulated they raise KeyError, whatever the data. -/
theorem C208_keyError (known : String → Bool) (K : Const) (o : Obs) {ions args ps : List String} (hv : Valid ions ps) (ha : Asks args ps)
    (hk : ∃ s ∈ ps, known s = false) (c : String) :
    massDensityT known K o ions args = .error .keyError ∧ pthT known K o ions c args = .error .keyError ∧
    temperatureT known K o ions c args = .error .keyError ∧ betaT known K o ions c args = .error .keyError ∧
    anisotropyT known K o ions args = .error .keyError ∧ soundSpeedT known K o ions args = .error .keyError ∧
    caT known K o ions args = .error .keyError ∧ afsqT known K o ions false args = .error .keyError ∧
    specificEntropyT known K o ions args = .error .keyError := by
  have hr := ha.resolve hv
  have h : ∃ s ∈ pySorted ps, known s = false := by
    obtain ⟨s, hs, hk⟩ := hk
    exact ⟨s, mem_pySorted.mpr hs, hk⟩
  exact ⟨queryT_err _ _ _ hr h, queryT_err _ _ _ hr h, queryT_err _ _ _ hr h, queryT_err _ _ _ hr h, queryT_err _ _ _ hr h,
    queryT_err _ _ _ hr h, queryT_err _ _ _ hr h, by unfold afsqT; rw [if_neg (by simp)]; exact queryT_err _ _ _ hr h,
    queryT_err _ _ _ hr h⟩

/-! ## velocities -/

/-- C208: the velocity of one species, the drift between two, and the velocities of several species given as separate arguments need no
constants: they work for every species name. -/
theorem C208_free (known : String → Bool) (K : Const) (o : Obs) {ions ps : List String} (hv : Valid ions ps) :
    (∀ s ∈ ps, velocityT known K o ions [s] false = .ok (.total (o.v s))) ∧
    (∀ a ∈ ps, ∀ b ∈ ps, a ≠ b → dvT known K o ions a b false = .ok (V3.sub (o.v a) (o.v b))) ∧
    (2 ≤ ps.length → velocityT known K o ions ps false = .ok (.each ((pySorted ps).map fun s => (s, o.v s)))) := by
  have h1 : ∀ s ∈ ps, velocityT known K o ions [s] false = .ok (.total (o.v s)) := by
    intro s hs
    have hc := chk_join (hv.single hs)
    rw [pyJoin_singleton] at hc
    unfold velocityT
    rw [show ([s].map PyVal.str) = [.str s] from rfl, hc, show pySorted [s] = [s] from rfl]
    simp [hv.avail s hs]
  refine ⟨h1, ?_, ?_⟩
  · intro a ha b hb hab
    unfold dvT
    rw [if_neg hab, h1 a ha, h1 b hb]
  · intro hl
    have hc := chk_args hv
    unfold velocityT
    rw [hc]
    rcases hs : pySorted ps with _ | ⟨a, _ | ⟨b, l⟩⟩
    · have := sorted_length ps; rw [hs] at this; simp at this; omega
    · have := sorted_length ps; rw [hs] at this; simp at this; omega
    · have hany : ((a :: b :: l).any fun s => !ions.contains s) = false := by
        rw [List.any_eq_false]
        intro s hms
        rw [← hs] at hms
        simpa using hv.avail s (mem_pySorted.mp hms)
      simp only [hany, Bool.false_eq_true, if_false]
      rw [if_neg (by omega)]

theorem velocityT_join {ions ps : List String} (hv : Valid ions ps) (hl : 2 ≤ ps.length) :
    velocityT known K o ions [pyJoin '+' ps] false =
      if ∀ s ∈ ps, known s = true then .ok (.total (vCom K o (pySorted ps))) else .error .keyError := by
  have hc := chk_join hv
  unfold velocityT
  rw [show ([pyJoin '+' ps].map PyVal.str) = [.str (pyJoin '+' ps)] from rfl, hc]
  have hd := List.dedup_eq_self.mpr ((pySorted_perm ps).nodup_iff.mpr hv.nodup)
  rcases hs : pySorted ps with _ | ⟨a, _ | ⟨b, l⟩⟩
  · have := sorted_length ps; rw [hs] at this; simp at this; omega
  · have := sorted_length ps; rw [hs] at this; simp at this; omega
  · have hany : ((a :: b :: l).any fun s => !ions.contains s) = false := by
      rw [List.any_eq_false]
      intro s hms
      rw [← hs] at hms
      simpa using hv.avail s (mem_pySorted.mp hms)
    simp only [hany]
    rw [← hs, hd]
    by_cases hk : ∀ s ∈ ps, known s = true
    · rw [forEach_look_ok _ _ fun s h => hk s (mem_pySorted.mp h), if_pos hk]; simp
    · rw [forEach_look_err _ _ ?_, if_neg hk]
      · simp
      · push Not at hk
        obtain ⟨s, hs, hk⟩ := hk
        exact ⟨s, mem_pySorted.mpr hs, by simpa using hk⟩

/-- C208: the centre-of-mass velocity of several species, and the drift of one of them relative to it, raise KeyError exactly when one of
those species is not tabulated. -/
theorem C208_com (known : String → Bool) (K : Const) (o : Obs) {ions ps : List String} (hv : Valid ions ps) (hl : 2 ≤ ps.length) :
    ((∀ s ∈ ps, known s = true) → velocityT known K o ions [pyJoin '+' ps] false = velocity K o ions [pyJoin '+' ps] false ∧
      ∀ s ∈ ps, dvT known K o ions s (pyJoin '+' ps) false = dv K o ions s (pyJoin '+' ps) false) ∧
    ((∃ s ∈ ps, known s = false) → velocityT known K o ions [pyJoin '+' ps] false = .error .keyError ∧
      ∀ s ∈ ps, dvT known K o ions s (pyJoin '+' ps) false = .error .keyError) := by
  have h1 := (C208_free known K o hv).1
  constructor
  · intro hk
    have e := velocityT_join (known := known) (K := K) (o := o) hv hl
    rw [if_pos hk] at e
    refine ⟨by rw [e, velocity_join hv hl], fun s hs => ?_⟩
    rw [dv_single_com hv hl hs]
    unfold dvT
    rw [if_neg (plain_ne_join hv hl hs), h1 s hs, e]
  · rintro ⟨u, hu, hk⟩
    have e := velocityT_join (known := known) (K := K) (o := o) hv hl
    rw [if_neg (fun h => by rw [h u hu] at hk; simp at hk)] at e
    refine ⟨e, fun s hs => ?_⟩
    unfold dvT
    rw [if_neg (plain_ne_join hv hl hs), h1 s hs, e]

/-- C208: the m/q-projected velocity of a species raises KeyError exactly when it is not tabulated. -/
theorem C208_proj (known : String → Bool) (K : Const) (o : Obs) {ions ps : List String} (hv : Valid ions ps) (s : String) (hs : s ∈ ps) :
    velocityT known K o ions [s] true = if known s then velocity K o ions [s] true else .error .keyError := by
  have hc := chk_join (hv.single hs)
  rw [pyJoin_singleton] at hc
  rw [velocity_single_proj hv hs]
  unfold velocityT
  rw [show ([s].map PyVal.str) = [.str s] from rfl, hc, show pySorted [s] = [s] from rfl]
  unfold look
  by_cases hk : known s = true <;> simp [hv.avail s hs, hk]

/-! ## collisions, drift energy, electrons -/

theorem dvT_proj {ions ps : List String} (hv : Valid ions ps) {a b : String} (ha : a ∈ ps) (hb : b ∈ ps) (hab : a ≠ b) :
    dvT known K o ions a b true = if known a = true ∧ known b = true then dv K o ions a b true else .error .keyError := by
  unfold dvT dv
  rw [if_neg hab, if_neg hab, C208_proj known K o hv a ha, C208_proj known K o hv b hb]
  by_cases h1 : known a = true <;> by_cases h2 : known b = true <;>
    simp [h1, h2, velocity_single_proj hv ha, velocity_single_proj hv hb]

/-- C208: Coulomb logarithm, collision frequency and distribution-function ratio of two species: KeyError exactly when one of the two
is not tabulated; the other species of the plasma do not matter. -/
theorem C208_pairs (known : String → Bool) (K : Const) (o : Obs) {ions : List String} {a b : String} (hv : Valid ions [a, b]) (both : Bool) :
    (known a = true → known b = true → lnlambdaT known K o ions a b = lnlambda K o ions a b ∧
      nucT known K o ions a b both = nuc K o ions a b both ∧ vdfRatioT known K o ions a b = vdfRatio K o ions a b) ∧
    (known a = false ∨ known b = false → lnlambdaT known K o ions a b = .error .keyError ∧
      nucT known K o ions a b both = .error .keyError ∧ vdfRatioT known K o ions a b = .error .keyError) := by
  obtain ⟨va, vb, hab⟩ := pair_valid hv
  have ht := twoSpecies_ok va vb
  have hd : dvT known K o ions a b false = dv K o ions a b false := by
    rw [(C208_free known K o hv).2.1 a (by simp) b (by simp) hab, dv_pair hv (by simp) (by simp) hab]
  have hp := dvT_proj (known := known) (K := K) (o := o) hv (a := a) (b := b) (by simp) (by simp) hab
  constructor
  · intro h1 h2
    have hl : lnlambdaT known K o ions a b = lnlambda K o ions a b := by
      unfold lnlambdaT lnlambda look; rw [ht]; simp [h1, h2]
    refine ⟨hl, ?_, ?_⟩
    · unfold nucT nuc
      rw [ht]
      simp only []
      rw [hl, hd]
      unfold lnlambda
      rw [ht]
      rcases dv K o ions a b false with e | d <;> rfl
    · unfold vdfRatioT vdfRatio
      rw [ht]
      simp only []
      rw [hp, if_pos ⟨h1, h2⟩]
      rcases dv K o ions a b true with e | d <;> rfl
  · intro h
    have hl : lnlambdaT known K o ions a b = .error .keyError := by
      unfold lnlambdaT look; rw [ht]
      by_cases h1 : known a = true
      · have h2 : known b = false := by rcases h with h | h <;> simp_all
        simp [h1, h2]
      · simp [h1]
    refine ⟨hl, ?_, ?_⟩
    · unfold nucT
      rw [ht]
      simp only []
      rw [hl]
    · unfold vdfRatioT
      rw [ht]
      simp only []
      rw [hp, if_neg (by rintro ⟨h1, h2⟩; rcases h with h | h <;> simp_all)]

/-- C208 (violated locality): the Coulomb number of two tabulated species raises KeyError as soon as ANY species of the plasma is not
tabulated, although their collision frequency is fine; if all are tabulated it is the one with total constants. -/
theorem C208_nc (known : String → Bool) (K : Const) (o : Obs) {ions : List String} (hall : Valid ions ions) {a b : String}
    (hv : Valid ions [a, b]) (r : Fl) (both : Bool) :
    ((∀ s ∈ ions, known s = true) → ncT known K o ions (some r) a b both = nc K o ions (some r) a b both) ∧
    ((∃ s ∈ ions, known s = false) → ncT known K o ions (some r) a b both = .error .keyError) := by
  obtain ⟨va, vb, hab⟩ := pair_valid hv
  have ht := twoSpecies_ok va vb
  have hl : 2 ≤ ions.length := by
    have := (List.subperm_of_subset hv.nodup (fun s hs => hv.avail s hs)).length_le
    simpa using this
  obtain ⟨c1, c2⟩ := C208_com known K o hall hl
  constructor
  · intro hk
    unfold ncT nc
    rw [ht]
    simp only []
    rw [(c1 hk).1, ((C208_pairs known K o hv both).1 (hk a (hv.avail a (by simp))) (hk b (hv.avail b (by simp)))).2.1, velocity_join hall hl]
    simp only []
    rcases nuc K o ions a b both with e | d <;> rfl
  · intro hk
    unfold ncT
    rw [ht]
    simp only []
    rw [(c2 hk).1]

/-- C208 (violated locality): estimating electrons looks up all species of the plasma. -/
theorem C208_electrons (known : String → Bool) (K : Const) (o : Obs) (species : List String) :
    ((∀ s ∈ species, known s = true) → estimateElectronsT known K o species = estimateElectrons K o species) ∧
    ((∃ s ∈ species, known s = false) →
      (∀ e, estimateElectrons K o species = .error e → estimateElectronsT known K o species = .error e) ∧
      ∀ x, estimateElectrons K o species = .ok x → estimateElectronsT known K o species = .error .keyError) := by
  unfold estimateElectronsT estimateElectrons
  constructor
  · intro h
    rcases protonOf species with e | t
    · rfl
    · simp only []
      rw [forEach_look_ok _ _ h]
  · intro h
    rcases protonOf species with e | t
    · exact ⟨fun _ h => h, fun _ h => by simp at h⟩
    · simp only []
      rw [forEach_look_err _ _ h]
      exact ⟨fun _ h => by simp at h, fun _ _ => rfl⟩

theorem forEach_congr {α : Type} (f g : String → Except PyErr α) (l : List String) (h : ∀ s ∈ l, f s = g s) :
    forEach f l = forEach g l := by
  induction l with
  | nil => rfl
  | cons a l ih => rw [forEach, forEach, h a (by simp), ih fun s hs => h s (by simp [hs])]

theorem zip_map_map {α β : Type} (f : String → α) (l : List String) (ds : List β) (g : α × β → Fl) :
    ((l.map f).zip ds).map g = (l.zip ds).map fun p => g (f p.1, p.2) := by
  induction l generalizing ds with
  | nil => rfl
  | cons a l ih =>
    rcases ds with _ | ⟨d, ds⟩
    · rfl
    · simp [ih]

theorem Asks.join {args ps : List String} (h : Asks args ps) : pyJoin '+' args = pyJoin '+' ps := by
  rcases h with rfl | rfl
  · exact pyJoin_singleton _ _
  · rfl

/-- C208: drift (dynamic) pressure, heat flux and anisotropic Alfvén speed: KeyError exactly when one of the species asked for is not
tabulated. -/
theorem C208_sums (known : String → Bool) (K : Const) (o : Obs) {ions args ps : List String} (hv : Valid ions ps) (ha : Asks args ps)
    (hl : 2 ≤ ps.length) :
    ((∀ s ∈ ps, known s = true) → pdynamicT known K o ions args false = pdynamic K o ions args false ∧
      heatFluxT known K o ions args = heatFlux K o ions args ∧ caaniT known K o ions false args = caani K o ions false args) ∧
    ((∃ s ∈ ps, known s = false) → pdynamicT known K o ions args false = .error .keyError ∧
      heatFluxT known K o ions args = .error .keyError ∧ caaniT known K o ions false args = .error .keyError) := by
  have hc := ha.chk hv
  have hn := sorted_length ps
  have hvs := hv.sorted
  have hls : 2 ≤ (pySorted ps).length := by omega
  have hr : resolve ions (pySorted ps) = .ok (pySorted ps) := by
    have := resolve_args hvs
    rwa [pySorted_idem] at this
  have hks : (∀ s ∈ ps, known s = true) → ∀ s ∈ pySorted ps, known s = true := fun h s hs => h s (mem_pySorted.mp hs)
  have hks' : (∃ s ∈ ps, known s = false) → ∃ s ∈ pySorted ps, known s = false :=
    fun ⟨s, hs, h⟩ => ⟨s, mem_pySorted.mpr hs, h⟩
  constructor
  · intro hk
    refine ⟨?_, ?_, ?_⟩
    · unfold pdynamicT pdynamic
      rw [hc]
      simp only []
      have h1 : ¬ (pySorted ps).length = 1 := by omega
      rw [if_neg h1, if_neg h1]
      simp only [Bool.not_false, if_true]
      rw [hr]
      simp only []
      rw [forEach_look_ok _ _ (hks hk), ha.join,
        forEach_congr _ (fun s => dv K o ions s (pyJoin '+' ps) false) _ fun s hs =>
          ((C208_com known K o hv hl).1 hk).2 s (mem_pySorted.mp hs)]
      rcases forEach (fun s => dv K o ions s (pyJoin '+' ps) false) (pySorted ps) with e | ds
      · rfl
      · simp only [zip_map_map]
    · unfold heatFluxT heatFlux
      rw [hc]
      simp only []
      rw [if_neg (by omega), if_neg (by omega), (C208_local known K o hvs (Or.inr rfl) (hks hk) "par" false).1, hr]
      have hm : ∃ q, massDensity K o ions (pySorted ps) = .ok q := by
        unfold massDensity query
        rw [hr]
        simp only []
        rw [if_neg (by omega)]
        exact ⟨_, rfl⟩
      obtain ⟨q, hq⟩ := hm
      rw [hq, forEach_congr _ (fun s => dv K o ions s (pyJoin '+' (pySorted ps)) false) _ fun s hs =>
          ((C208_com known K o hvs hls).1 (hks hk)).2 s hs]
      rcases forEach (fun s => dv K o ions s (pyJoin '+' (pySorted ps)) false) (pySorted ps) with e | ds
      · rfl
      · rfl
    · unfold caaniT caani
      rw [hc]
      simp only []
      have e := C208_local known K o hvs (args := [pyJoin '+' (pySorted ps)]) (Or.inl rfl) (hks hk) "par" false
      rw [e.2.2.2.2.2.2.1, e.2.2.2.2.2.2.2.1]
      rcases ca K o ions [pyJoin '+' (pySorted ps)] with e | (c | c)
      · rfl
      · simp only []
        rcases afsq K o ions false [pyJoin '+' (pySorted ps)] with e | (c | c) <;> rfl
      · rfl
  · intro hk
    refine ⟨?_, ?_, ?_⟩
    · unfold pdynamicT
      rw [hc]
      simp only []
      rw [if_neg (by omega)]
      simp only [Bool.not_false, if_true]
      rw [hr]
      simp only []
      rw [forEach_look_err _ _ (hks' hk)]
    · unfold heatFluxT
      rw [hc]
      simp only []
      rw [if_neg (by omega), (C208_keyError known K o hvs (Or.inr rfl) (hks' hk) "par").1]
    · unfold caaniT
      rw [hc]
      simp only []
      rw [(C208_keyError known K o hvs (args := [pyJoin '+' (pySorted ps)]) (Or.inl rfl) (hks' hk) "par").2.2.2.2.2.2.1]

/-- C208: the m/q-projected drift pressure of two species: KeyError exactly when one of them is not tabulated. -/
theorem C208_pdynamic_proj (known : String → Bool) (K : Const) (o : Obs) {ions args : List String} {a b : String} (hv : Valid ions [a, b])
    (ha : Asks args [a, b]) :
    (known a = true → known b = true → pdynamicT known K o ions args true = pdynamic K o ions args true) ∧
    (known a = false ∨ known b = false → pdynamicT known K o ions args true = .error .keyError) := by
  have hc := ha.chk hv
  have hperm := pySorted_perm [a, b]
  rcases hs : pySorted [a, b] with _ | ⟨x, _ | ⟨y, _ | ⟨z, l⟩⟩⟩
  · rw [hs] at hperm; simpa using hperm.length_eq
  · rw [hs] at hperm; simpa using hperm.length_eq
  · rw [hs] at hperm hc
    have hx : x ∈ [a, b] := hperm.subset (by simp)
    have hy : y ∈ [a, b] := hperm.subset (by simp)
    have hxy : x ≠ y := by
      have := hperm.nodup_iff.mpr hv.nodup
      simpa using this
    have hp := dvT_proj (known := known) (K := K) (o := o) hv hx hy hxy
    have hall : (known a = true ∧ known b = true) ↔ (known x = true ∧ known y = true) := by
      constructor
      · rintro ⟨h1, h2⟩
        simp only [List.mem_cons, List.not_mem_nil, or_false] at hx hy
        constructor
        · rcases hx with rfl | rfl <;> assumption
        · rcases hy with rfl | rfl <;> assumption
      · rintro ⟨h1, h2⟩
        have ha' : a ∈ [x, y] := hperm.symm.subset (by simp)
        have hb' : b ∈ [x, y] := hperm.symm.subset (by simp)
        simp only [List.mem_cons, List.not_mem_nil, or_false] at ha' hb'
        constructor
        · rcases ha' with rfl | rfl <;> assumption
        · rcases hb' with rfl | rfl <;> assumption
    constructor
    · intro h1 h2
      obtain ⟨k1, k2⟩ := hall.mp ⟨h1, h2⟩
      rw [if_pos ⟨k1, k2⟩] at hp
      unfold pdynamicT pdynamic
      rw [hc]
      simp only [List.length_cons, List.length_nil, List.getD_cons_zero, List.getD_cons_succ]
      rw [hp, forEach_look_ok _ _ (by simp [k1, k2])]
      rcases dv K o ions x y true with e | d <;> rfl
    · intro h
      have hn : ¬ (known x = true ∧ known y = true) := by
        rw [← hall]; rintro ⟨h1, h2⟩; rcases h with h | h <;> simp_all
      rw [if_neg hn] at hp
      unfold pdynamicT
      rw [hc]
      simp only [List.length_cons, List.length_nil, List.getD_cons_zero, List.getD_cons_succ]
      rw [hp]
      rfl
  · rw [hs] at hperm; have := hperm.length_eq; simp at this

/-! ## an example: oxygen next to protons -/

/-- whether a name is in the shipped tables -/
def inTables (s : String) : Bool := tabulated.contains s

theorem ex_valid : Valid ["a", "o6", "p1"] ["a", "o6", "p1"] :=
  ⟨by simp, by decide, by decide, by decide, by simp⟩

theorem ex_valid' : Valid ["a", "o6", "p1"] ["a", "p1"] :=
  ⟨by simp, by decide, by decide, by decide, by simp⟩

/-- a plasma of alphas, protons and O6+: the collision frequency of alphas and protons works, their Coulomb number does not -/
example : (∃ nu, nucT inTables exK exD.obs ["a", "o6", "p1"] "a" "p1" true = .ok nu) ∧
    ncT inTables exK exD.obs ["a", "o6", "p1"] (some (.fin 1)) "a" "p1" true = .error .keyError := by
  refine ⟨?_, ?_⟩
  · rw [((C208_pairs inTables exK exD.obs ex_valid' true).1 (by decide) (by decide)).2.1]
    unfold nuc
    rw [twoSpecies_ok (pair_valid ex_valid').1 (pair_valid ex_valid').2.1]
    simp only []
    rw [dv_pair ex_valid' (by simp) (by simp) (by decide)]
    exact ⟨_, rfl⟩
  · exact (C208_nc inTables exK exD.obs ex_valid ex_valid' _ _).2 ⟨"o6", by simp, by decide⟩

/-- its mass density raises KeyError, the number density and drifts do not -/
example : massDensityT inTables exK exD.obs ["a", "o6", "p1"] ["o6"] = .error .keyError ∧
    (∃ d, dvT inTables exK exD.obs ["a", "o6", "p1"] "a" "o6" false = .ok d) ∧
    estimateElectronsT inTables exK exD.obs ["a", "o6", "p1"] = .error .keyError := by
  refine ⟨(C208_keyError inTables exK exD.obs (ex_valid.single (s := "o6") (by simp)) (Or.inr rfl) ⟨"o6", by simp, by decide⟩ "par").1,
    ⟨_, (C208_free inTables exK exD.obs ex_valid).2.1 "a" (by simp) "o6" (by simp) (by decide)⟩, ?_⟩
  exact ((C208_electrons inTables exK exD.obs _).2 ⟨"o6", by simp, by decide⟩).2 _ rfl
end
end SW
