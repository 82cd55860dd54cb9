import Verif.TurbPlasma
import Verif.Props.Turbulence
import Verif.Props.PlasmaFlow

/-!
# Property C195: turbulence built from a plasma

`pyJoin '+' ps` is the string `"s0+s1+..."`; `pyJoin ',' [p, q]` is `"p,q"`. `delta W mp t x i` is the fluctuation of the
series `x` at row `i` about its rolling mean (C39).
-/

namespace SW
open Classical

variable (K : Const) (o : ℕ → Obs)

/-- The rows of the fluctuations of a vector series. -/
noncomputable def Fluct (W : Window) (mp : ℕ) (t : ℕ → ℤ) (v : ℕ → V3) (i : ℕ) : V3 :=
  ⟨delta W mp t (fun j => (v j).x) i, delta W mp t (fun j => (v j).y) i, delta W mp t (fun j => (v j).z) i⟩

/-- The field in Alfven units: `b / sqrt(rho)`, times the unit factor `units.b / (sqrt(units.rho mu0) units.v)`. -/
noncomputable def AlfvenField (b : V3) (rho : Fl) : V3 :=
  ⟨b.x / Fl.sqrt rho * .fin (K.uB / (Real.sqrt (K.uRho * K.mu0) * K.uV)),
   b.y / Fl.sqrt rho * .fin (K.uB / (Real.sqrt (K.uRho * K.mu0) * K.uV)),
   b.z / Fl.sqrt rho * .fin (K.uB / (Real.sqrt (K.uRho * K.mu0) * K.uV))⟩

theorem split_count (u : String) : (pySplit ',' u).length = u.toList.count ',' + 1 := by
  unfold pySplit
  rw [List.length_map]
  generalize u.toList = l
  induction l with
  | nil => rfl
  | cons c l ih =>
    unfold Chars.split
    by_cases hcc : c = ','
    · subst hcc; simp [ih]
    · rw [if_neg hcc]
      have hne := Chars.split_ne_nil ',' l
      rcases hsp : Chars.split ',' l with _ | ⟨p, ps⟩
      · exact absurd hsp hne
      · rw [hsp] at ih
        simp only [List.length_cons] at ih ⊢
        rw [List.count_cons_of_ne hcc]; omega

theorem no_comma {ions ps : List String} (h : Valid ions ps) : hasChar ',' (pyJoin '+' ps) = false := by
  rw [← Bool.not_eq_true, hasChar_pyJoin '+' ',' (by decide)]
  rintro ⟨s, hs, hc⟩
  exact h.comma s hs (hasChar_iff.mp hc)

theorem split_plus {ions ps : List String} (h : Valid ions ps) : pySplit '+' (pyJoin '+' ps) = ps :=
  pySplit_pyJoin '+' ps h.ne (fun p hp => by simpa [hasChar] using h.plus p hp)

theorem rowsOf_total {α : Type} (d : α) (f : ℕ → Except PyErr (Res α)) (a : ℕ → α)
    (h : ∀ i, f i = .ok (.total (a i))) : rowsOf d f = .ok a := by
  unfold rowsOf
  rw [h 0]
  simp only []
  congr 1
  funext i
  rw [h i]

theorem windowCheck_ok {W : Window} {mp : ℕ} (h : ∀ n, W = .rows n → mp ≤ n) : windowCheck W mp = .ok () := by
  unfold windowCheck
  cases W with
  | offset w => rfl
  | rows n => simp only [if_neg (not_lt.mpr (h n rfl))]

theorem Valid.sorted' {ions ps : List String} (h : Valid ions ps) : Valid ions (pySorted ps) :=
  h.perm (pySorted_perm ps).symm

/-- C195: one group of species: the object holds the fluctuations of the velocity of that group (the centre-of-mass
velocity for several species) and of the field in Alfven units of the group's mass density; no polarity; the species
string is the sorted one. -/
theorem C195_single (ions ps : List String) (h : Valid ions ps) (t : ℕ → ℤ) (W : Window) (mp : ℕ)
    (hW : ∀ n, W = .rows n → mp ≤ n) (v : ℕ → V3) (r : ℕ → Fl) (hv : ∀ i, velocity K (o i) ions [pyJoin '+' ps] false = .ok (.total (v i)))
    (hr : ∀ i, massDensity K (o i) ions [pyJoin '+' ps] = .ok (.total (r i))) :
    ∃ T, buildTurb K o ions true t (pyJoin '+' ps) W mp = .ok T ∧
      T.species = pyJoin '+' (pySorted ps) ∧ T.polarity = none ∧
      (∀ i, T.v i = Fluct W mp t v i) ∧
      ∀ i, T.b i = Fluct W mp t (fun j => AlfvenField K (o j).b (r j)) i := by
  have hs : pySplit ',' (pyJoin '+' ps) = [pyJoin '+' ps] := pySplit_self _ _ (no_comma h)
  have hc : ¬ 1 < (pyJoin '+' ps).toList.count ',' := by
    have := split_count (pyJoin '+' ps); rw [hs] at this; simp at this; omega
  have hi : turbInputs K o ions (pyJoin '+' ps) = .ok (v, r) := by
    unfold turbInputs
    rw [hs]
    simp only []
    rw [chk_join h]
    simp only []
    rw [rowsOf_total _ _ v hv]
    simp only []
    rw [rowsOf_total _ _ r hr]
  have ht : turbSpecies (some (pyJoin '+' ps)) = .ok (pyJoin '+' (pySorted ps)) := by
    unfold turbSpecies
    simp only []
    rw [if_neg hc, hs]
    simp only [List.map_cons, List.map_nil]
    rw [split_plus h, pyJoin_singleton]
  unfold buildTurb
  rw [hi]
  simp only []
  rw [ht]
  simp only [if_true]
  unfold turbSet
  rw [ht, windowCheck_ok hW]
  exact ⟨_, rfl, rfl, rfl, fun i => rfl, fun i => rfl⟩

theorem dv_sorted (x : Obs) (ions ps qs : List String) (hp : Valid ions ps) (hq : Valid ions qs)
    (hne : ¬ ps.Perm qs) :
    dv K x ions (pyJoin '+' (pySorted ps)) (pyJoin '+' (pySorted qs)) false =
      dv K x ions (pyJoin '+' ps) (pyJoin '+' qs) false := by
  have h1 : pyJoin '+' (pySorted ps) ≠ pyJoin '+' (pySorted qs) := by
    intro e
    have := split_plus hp.sorted'
    rw [e, split_plus hq.sorted'] at this
    exact hne ((pySorted_perm ps).symm.trans (this ▸ pySorted_perm qs))
  have h2 : pyJoin '+' ps ≠ pyJoin '+' qs := by
    intro e
    have := split_plus hp
    rw [e, split_plus hq] at this
    exact hne (this ▸ List.Perm.refl _)
  unfold dv
  rw [if_neg h1, if_neg h2, ← C12_order K x ions ps _ hp (pySorted_perm ps).symm,
    ← C12_order K x ions qs _ hq (pySorted_perm qs).symm]

theorem pair_inputs (ions ps qs : List String) (hp : Valid ions ps) (hq : Valid ions qs) (v : ℕ → V3) (r : ℕ → Fl)
    (hv : ∀ i, dv K (o i) ions (pyJoin '+' ps) (pyJoin '+' qs) false = .ok (v i)) (hne : ¬ ps.Perm qs)
    (hr : ∀ i, massDensity K (o i) ions [pyJoin '+' qs] = .ok (.total (r i))) :
    turbInputs K o ions (pyJoin ',' [pyJoin '+' ps, pyJoin '+' qs]) = .ok (v, r) := by
  have hs : pySplit ',' (pyJoin ',' [pyJoin '+' ps, pyJoin '+' qs]) = [pyJoin '+' ps, pyJoin '+' qs] :=
    pySplit_pyJoin ',' _ (by simp) (by
      intro p hm; simp only [List.mem_cons, List.not_mem_nil, or_false] at hm
      rcases hm with rfl | rfl
      · exact no_comma hp
      · exact no_comma hq)
  unfold turbInputs
  rw [hs]
  simp only []
  rw [chk_join hp]
  simp only []
  rw [chk_join hq]
  simp only []
  rw [rowsOf_total _ _ v (fun i => by rw [dv_sorted K (o i) ions ps qs hp hq hne, hv i]; rfl)]
  simp only []
  rw [rowsOf_total _ _ r (fun i => by
    rw [← hr i]; exact (query_join_perm hq (pySorted_perm qs).symm _ _).symm)]

/-- C195: two groups `"p,q"`: the velocity is the differential flow of the first group relative to the second, the
density that of the second group; the species string keeps the sides and sorts each. -/
theorem C195_pair (ions ps qs : List String) (hp : Valid ions ps) (hq : Valid ions qs) (hne : ¬ ps.Perm qs)
    (t : ℕ → ℤ) (W : Window) (mp : ℕ) (hW : ∀ n, W = .rows n → mp ≤ n) (v : ℕ → V3) (r : ℕ → Fl)
    (hv : ∀ i, dv K (o i) ions (pyJoin '+' ps) (pyJoin '+' qs) false = .ok (v i))
    (hr : ∀ i, massDensity K (o i) ions [pyJoin '+' qs] = .ok (.total (r i))) :
    ∃ T, buildTurb K o ions true t (pyJoin ',' [pyJoin '+' ps, pyJoin '+' qs]) W mp = .ok T ∧
      T.species = pyJoin ',' [pyJoin '+' (pySorted ps), pyJoin '+' (pySorted qs)] ∧ T.polarity = none ∧
      (∀ i, T.v i = Fluct W mp t v i) ∧
      ∀ i, T.b i = Fluct W mp t (fun j => AlfvenField K (o j).b (r j)) i := by
  have hs : pySplit ',' (pyJoin ',' [pyJoin '+' ps, pyJoin '+' qs]) = [pyJoin '+' ps, pyJoin '+' qs] :=
    pySplit_pyJoin ',' _ (by simp) (by
      intro p hm; simp only [List.mem_cons, List.not_mem_nil, or_false] at hm
      rcases hm with rfl | rfl
      · exact no_comma hp
      · exact no_comma hq)
  obtain ⟨S, hS⟩ : ∃ S, S = pyJoin ',' [pyJoin '+' ps, pyJoin '+' qs] := ⟨_, rfl⟩
  have hi := pair_inputs K o ions ps qs hp hq v r hv hne hr
  rw [← hS] at hs hi ⊢
  have hc : ¬ 1 < S.toList.count ',' := by
    have := split_count S; rw [hs] at this; simp at this; omega
  have ht : turbSpecies (some S) = .ok (pyJoin ',' [pyJoin '+' (pySorted ps), pyJoin '+' (pySorted qs)]) := by
    unfold turbSpecies
    simp only []
    rw [if_neg hc, hs]
    simp only [List.map_cons, List.map_nil]
    rw [split_plus hp, split_plus hq]
  unfold buildTurb
  rw [hi]
  simp only []
  rw [ht]
  simp only [if_true]
  unfold turbSet
  rw [ht, windowCheck_ok hW]
  exact ⟨_, rfl, rfl, rfl, fun i => rfl, fun i => rfl⟩

/-- C195: the same group on both sides is refused, in whatever order it is written (unlike `dv`, C14). -/
theorem C195_self (ions ps qs : List String) (hp : Valid ions ps) (hpq : ps.Perm qs) (isTime : Bool) (t : ℕ → ℤ)
    (W : Window) (mp : ℕ) :
    buildTurb K o ions isTime t (pyJoin ',' [pyJoin '+' ps, pyJoin '+' qs]) W mp = .error .notImplemented := by
  have hq := hp.perm hpq
  have hs : pySplit ',' (pyJoin ',' [pyJoin '+' ps, pyJoin '+' qs]) = [pyJoin '+' ps, pyJoin '+' qs] :=
    pySplit_pyJoin ',' _ (by simp) (by
      intro p hm; simp only [List.mem_cons, List.not_mem_nil, or_false] at hm
      rcases hm with rfl | rfl
      · exact no_comma hp
      · exact no_comma hq)
  have : turbInputs K o ions (pyJoin ',' [pyJoin '+' ps, pyJoin '+' qs]) = .error .notImplemented := by
    unfold turbInputs
    rw [hs]
    simp only []
    rw [chk_join hp]
    simp only []
    rw [chk_join hq]
    simp only []
    rw [pySorted_eq_of_perm hpq]
    have e : rowsOf (⟨.nan, .nan, .nan⟩ : V3) (fun i => asRes (dv K (o i) ions (pyJoin '+' (pySorted qs))
        (pyJoin '+' (pySorted qs)) false)) = .error .notImplemented := by
      unfold rowsOf dv
      simp [asRes]
    rw [e]
  unfold buildTurb
  rw [this]

/-- C195: more than one comma is refused. -/
theorem C195_commas (ions : List String) (isTime : Bool) (t : ℕ → ℤ) (species : String) (W : Window) (mp : ℕ)
    (h : 2 ≤ species.toList.count ',') : buildTurb K o ions isTime t species W mp = .error .valueError := by
  have hl := split_count species
  have : turbInputs K o ions species = .error .valueError := by
    unfold turbInputs
    rcases hs : pySplit ',' species with _ | ⟨a, _ | ⟨b, _ | ⟨c, l⟩⟩⟩
    · rfl
    · rw [hs] at hl; simp only [List.length_cons, List.length_nil] at hl; omega
    · rw [hs] at hl; simp only [List.length_cons, List.length_nil] at hl; omega
    · rfl
  unfold buildTurb
  rw [this]

theorem chk_unknown (ions : List String) (a s : String) (hs : s ∈ pySplit '+' a) (h0 : s ≠ "") (hn : s ∉ ions)
    (hc : hasChar ',' a = false) : chkSpecies ions [.str a] = .error .valueError := by
  unfold chkSpecies
  have e : conform [.str a] = .ok (pySorted (pySplit '+' a)) := by
    unfold conform; simp [allStr, hc]
  rw [e]
  simp only [bind, Except.bind]
  rw [flatMap_split_id _ (fun p hp => pySplit_no_sep '+' a p (mem_pySorted.mp hp))]
  rw [if_pos]
  · rfl
  · rw [List.any_eq_true]
    refine ⟨s, List.mem_filter.mpr ⟨mem_pySorted.mpr hs, ?_⟩, by simpa using h0⟩
    simpa using hn

/-- C195: a species the plasma does not have, on either side, is refused with `ValueError`. -/
theorem C195_unknown (ions : List String) (isTime : Bool) (t : ℕ → ℤ) (species g s : String) (W : Window) (mp : ℕ)
    (hg : g ∈ pySplit ',' species) (hs : s ∈ pySplit '+' g) (h0 : s ≠ "") (hn : s ∉ ions) :
    buildTurb K o ions isTime t species W mp = .error .valueError := by
  have hno := pySplit_no_sep ',' species
  have : turbInputs K o ions species = .error .valueError := by
    unfold turbInputs
    rcases hsp : pySplit ',' species with _ | ⟨a, _ | ⟨b, _ | ⟨c, l⟩⟩⟩
    · rfl
    · rw [hsp] at hg hno
      simp only [List.mem_cons, List.not_mem_nil, or_false] at hg
      subst hg
      simp only []
      rw [chk_unknown ions g s hs h0 hn (hno g (by simp))]
    · rw [hsp] at hg hno
      simp only [List.mem_cons, List.not_mem_nil, or_false] at hg
      simp only []
      rcases hg with rfl | rfl
      · rw [chk_unknown ions g s hs h0 hn (hno g (by simp))]
      · have hb := chk_unknown ions g s hs h0 hn (hno g (by simp))
        rw [hb]
        have ha : ∀ e, chkSpecies ions [.str a] = .error e → e = .valueError := by
          intro e he
          unfold chkSpecies at he
          have hca := hno a (by simp)
          have e' : conform [.str a] = .ok (pySorted (pySplit '+' a)) := by
            unfold conform; simp [allStr, hca]
          rw [e'] at he
          simp only [bind, Except.bind] at he
          split at he
          · injection he with he; exact he.symm
          · cases he
        rcases hx : chkSpecies ions [.str a] with e | l
        · simp only []; rw [ha e hx]
        · rfl
    · rfl
  unfold buildTurb
  rw [this]

/-- C195: whatever is accepted over times is a `TypeError` when the plasma's index is not made of times. -/
theorem C195_index (ions : List String) (t : ℕ → ℤ) (species : String) (W : Window) (mp : ℕ) (T : Turb)
    (h : buildTurb K o ions true t species W mp = .ok T) :
    buildTurb K o ions false t species W mp = .error .typeError := by
  unfold buildTurb at h ⊢
  rcases hi : turbInputs K o ions species with e | ⟨v, r⟩ <;> rw [hi] at h <;> simp only [] at h ⊢
  · cases h
  · rcases hs : turbSpecies (some species) with e | sp <;> rw [hs] at h <;> simp only [] at h ⊢
    · cases h
    · simp

/-- The mass density of a group of measured species. -/
theorem mass_fin (x : Obs) (ions ps : List String) (h : Valid ions ps) (d : RData) (hm : Measured x ps d) :
    massDensity K x ions [pyJoin '+' ps] = .ok (.total (.fin (ps.map (rR K d)).sum)) := by
  unfold massDensity; rw [query_join h, rhoTot_fin hm.sorted]; congr 3; exact sum_sorted ps _

/-- The velocity of a group of measured species, one or several. -/
theorem vel_fin (x : Obs) (ions ps : List String) (h : Valid ions ps) (d : RData) (hm : Measured x ps d)
    (hn : ∀ s ∈ ps, 0 < d.n s) :
    velocity K x ions [pyJoin '+' ps] false =
      .ok (.total (V3.ofReal (comR K d ps d.vx) (comR K d ps d.vy) (comR K d ps d.vz))) := by
  by_cases hl : 2 ≤ ps.length
  · exact velocity_fin K x ions ps h hl d hm hn
  · obtain ⟨s, rfl⟩ : ∃ s, ps = [s] := by
      have := h.ne
      rcases ps with _ | ⟨a, _ | ⟨b, l⟩⟩
      · exact absurd rfl this
      · exact ⟨a, rfl⟩
      · simp at hl
    have hr := rR_pos K (hn s (by simp))
    rw [pyJoin_singleton, velocity_single h (by simp), hm.v s (by simp)]
    unfold comR
    simp only [List.map_cons, List.map_nil, List.sum_cons, List.sum_nil, add_zero]
    rw [mul_div_cancel_right₀ _ hr.ne', mul_div_cancel_right₀ _ hr.ne', mul_div_cancel_right₀ _ hr.ne']

/-- Two series of rows that differ only by a velocity common to all species, which may change from row to row. -/
structure Boosted (ps : List String) (d d' : ℕ → RData) (ux uy uz : ℕ → ℝ) : Prop where
  n : ∀ i, ∀ s ∈ ps, (d' i).n s = (d i).n s
  x : ∀ i, ∀ s ∈ ps, (d' i).vx s = (d i).vx s + ux i
  y : ∀ i, ∀ s ∈ ps, (d' i).vy s = (d i).vy s + uy i
  z : ∀ i, ∀ s ∈ ps, (d' i).vz s = (d i).vz s + uz i
  b : ∀ i, (d' i).bx = (d i).bx ∧ (d' i).by_ = (d i).by_ ∧ (d' i).bz = (d i).bz

theorem Boosted.mono {ps qs : List String} {d d' : ℕ → RData} {ux uy uz : ℕ → ℝ} (h : Boosted ps d d' ux uy uz)
    (hs : ∀ s ∈ qs, s ∈ ps) : Boosted qs d d' ux uy uz :=
  ⟨fun i s m => h.n i s (hs s m), fun i s m => h.x i s (hs s m), fun i s m => h.y i s (hs s m),
   fun i s m => h.z i s (hs s m), h.b⟩

theorem boost_com {ps : List String} {d d' : ℕ → RData} {ux uy uz : ℕ → ℝ} (h : Boosted ps d d' ux uy uz)
    (i : ℕ) (hn : ∀ s ∈ ps, 0 < (d i).n s) (hne : ps ≠ []) :
    comR K (d' i) ps (d' i).vx = comR K (d i) ps (d i).vx + ux i ∧
    comR K (d' i) ps (d' i).vy = comR K (d i) ps (d i).vy + uy i ∧
    comR K (d' i) ps (d' i).vz = comR K (d i) ps (d i).vz + uz i ∧
    (ps.map (rR K (d' i))).sum = (ps.map (rR K (d i))).sum := by
  have hr : 0 < (ps.map (rR K (d i))).sum := list_sum_pos hne (fun s hs => rR_pos K (hn s hs))
  have hrr : ∀ s ∈ ps, rR K (d' i) s = rR K (d i) s := fun s hs => by unfold rR; rw [h.n i s hs]
  have hcom : ∀ f : String → ℝ, comR K (d' i) ps f = comR K (d i) ps f := by
    intro f; unfold comR
    rw [List.map_congr_left (fun s hs => by rw [hrr s hs]), List.map_congr_left hrr]
  refine ⟨?_, ?_, ?_, by rw [List.map_congr_left hrr]⟩
  · rw [hcom, com_shift K ps (d i) _ _ (ux i) hr (h.x i)]
  · rw [hcom, com_shift K ps (d i) _ _ (uy i) hr (h.y i)]
  · rw [hcom, com_shift K ps (d i) _ _ (uz i) hr (h.z i)]

theorem dv_fin (x : Obs) (ions ps qs : List String) (hp : Valid ions ps) (hq : Valid ions qs) (hne : ¬ ps.Perm qs)
    (d : RData) (hmp : Measured x ps d) (hmq : Measured x qs d) (hnp : ∀ s ∈ ps, 0 < d.n s)
    (hnq : ∀ s ∈ qs, 0 < d.n s) :
    dv K x ions (pyJoin '+' ps) (pyJoin '+' qs) false =
      .ok (V3.ofReal (comR K d ps d.vx - comR K d qs d.vx) (comR K d ps d.vy - comR K d qs d.vy)
        (comR K d ps d.vz - comR K d qs d.vz)) := by
  have h2 : pyJoin '+' ps ≠ pyJoin '+' qs := by
    intro e
    have := split_plus hp
    rw [e, split_plus hq] at this
    exact hne (this ▸ List.Perm.refl _)
  unfold dv
  rw [if_neg h2, vel_fin K x ions ps hp d hmp hnp]
  simp only []
  rw [vel_fin K x ions qs hq d hmq hnq]
  simp only []
  rw [V3.sub_ofReal]

/-- C195: the turbulence of two groups does not see a velocity common to all species, even one that changes from row to
row: the fluctuations of flow and field are unchanged. -/
theorem C195_boost_pair (o' : ℕ → Obs) (ions ps qs : List String) (hp : Valid ions ps) (hq : Valid ions qs)
    (hne : ¬ ps.Perm qs) (t : ℕ → ℤ) (W : Window) (mp : ℕ) (hW : ∀ n, W = .rows n → mp ≤ n) (d d' : ℕ → RData) (ux uy uz : ℕ → ℝ)
    (hm : ∀ i, Measured (o i) (ps ++ qs) (d i)) (hm' : ∀ i, Measured (o' i) (ps ++ qs) (d' i))
    (hb : Boosted (ps ++ qs) d d' ux uy uz) (hn : ∀ i, ∀ s ∈ ps ++ qs, 0 < (d i).n s) :
    ∃ T T', buildTurb K o ions true t (pyJoin ',' [pyJoin '+' ps, pyJoin '+' qs]) W mp = .ok T ∧
      buildTurb K o' ions true t (pyJoin ',' [pyJoin '+' ps, pyJoin '+' qs]) W mp = .ok T' ∧
      ∀ i, T'.v i = T.v i ∧ T'.b i = T.b i := by
  have sp : ∀ s ∈ ps, s ∈ ps ++ qs := fun s h => List.mem_append_left _ h
  have sq : ∀ s ∈ qs, s ∈ ps ++ qs := fun s h => List.mem_append_right _ h
  have hn' : ∀ i, ∀ s ∈ ps ++ qs, 0 < (d' i).n s := fun i s h => by rw [hb.n i s h]; exact hn i s h
  have e1 := fun i => dv_fin K (o i) ions ps qs hp hq hne (d i) ((hm i).sub sp) ((hm i).sub sq)
    (fun s h => hn i s (sp s h)) (fun s h => hn i s (sq s h))
  have e2 := fun i => dv_fin K (o' i) ions ps qs hp hq hne (d' i) ((hm' i).sub sp) ((hm' i).sub sq)
    (fun s h => hn' i s (sp s h)) (fun s h => hn' i s (sq s h))
  have f1 := fun i => mass_fin K (o i) ions qs hq (d i) ((hm i).sub sq)
  have f2 := fun i => mass_fin K (o' i) ions qs hq (d' i) ((hm' i).sub sq)
  obtain ⟨T, hT, -, -, hv, hbT⟩ := C195_pair K o ions ps qs hp hq hne t W mp hW _ _ e1 f1
  obtain ⟨T', hT', -, -, hv', hbT'⟩ := C195_pair K o' ions ps qs hp hq hne t W mp hW _ _ e2 f2
  refine ⟨T, T', hT, hT', fun i => ⟨?_, ?_⟩⟩
  · rw [hv, hv']
    refine congrFun (congrArg (Fluct W mp t) (funext fun j => ?_)) i
    obtain ⟨a1, a2, a3, -⟩ := boost_com K (hb.mono sp) j (fun s h => hn j s (sp s h)) hp.ne
    obtain ⟨b1, b2, b3, -⟩ := boost_com K (hb.mono sq) j (fun s h => hn j s (sq s h)) hq.ne
    rw [a1, a2, a3, b1, b2, b3, add_sub_add_right_eq_sub, add_sub_add_right_eq_sub, add_sub_add_right_eq_sub]
  · rw [hbT, hbT']
    refine congrFun (congrArg (Fluct W mp t) (funext fun j => ?_)) i
    obtain ⟨-, -, -, r⟩ := boost_com K (hb.mono sq) j (fun s h => hn j s (sq s h)) hq.ne
    obtain ⟨c1, c2, c3⟩ := hb.b j
    rw [r, (hm j).b, (hm' j).b, c1, c2, c3]

/-- C195: the turbulence of one group does not see a constant velocity common to all species. -/
theorem C195_boost_single (o' : ℕ → Obs) (ions ps : List String) (hp : Valid ions ps)
    (t : ℕ → ℤ) (W : Window) (mp : ℕ) (hW : ∀ n, W = .rows n → mp ≤ n) (d d' : ℕ → RData) (ux uy uz : ℝ)
    (hm : ∀ i, Measured (o i) ps (d i)) (hm' : ∀ i, Measured (o' i) ps (d' i))
    (hb : Boosted ps d d' (fun _ => ux) (fun _ => uy) (fun _ => uz)) (hn : ∀ i, ∀ s ∈ ps, 0 < (d i).n s) :
    ∃ T T', buildTurb K o ions true t (pyJoin '+' ps) W mp = .ok T ∧
      buildTurb K o' ions true t (pyJoin '+' ps) W mp = .ok T' ∧
      ∀ i, T'.v i = T.v i ∧ T'.b i = T.b i := by
  have hn' : ∀ i, ∀ s ∈ ps, 0 < (d' i).n s := fun i s h => by rw [hb.n i s h]; exact hn i s h
  obtain ⟨T, hT, -, -, hv, hbT⟩ := C195_single K o ions ps hp t W mp hW _ _
    (fun i => vel_fin K (o i) ions ps hp (d i) (hm i) (hn i)) (fun i => mass_fin K (o i) ions ps hp (d i) (hm i))
  obtain ⟨T', hT', -, -, hv', hbT'⟩ := C195_single K o' ions ps hp t W mp hW _ _
    (fun i => vel_fin K (o' i) ions ps hp (d' i) (hm' i) (hn' i)) (fun i => mass_fin K (o' i) ions ps hp (d' i) (hm' i))
  refine ⟨T, T', hT, hT', fun i => ⟨?_, ?_⟩⟩
  · have sh : ∀ (f : ℕ → ℝ) (u : ℝ), delta W mp t (fun j => .fin (f j + u)) i = delta W mp t (fun j => .fin (f j)) i := by
      intro f u
      rcases C39_shift W mp t (fun j => .fin (f j)) i u with h | h | h
      · simpa only [Fl.fin_add] using h
      · cases h
      · cases h
    rw [hv, hv']
    unfold Fluct
    have c := fun j => boost_com K hb j (hn j) hp.ne
    simp only [V3.ofReal, (c _).1, (c _).2.1, (c _).2.2.1, sh]
  · rw [hbT, hbT']
    refine congrFun (congrArg (Fluct W mp t) (funext fun j => ?_)) i
    obtain ⟨-, -, -, r⟩ := boost_com K hb j (hn j) hp.ne
    obtain ⟨c1, c2, c3⟩ := hb.b j
    rw [r, (hm j).b, (hm' j).b, c1, c2, c3]

/-- C195: the field handed over in Alfven units has the plasma's Alfven speed as magnitude and the direction of the
field. -/
theorem C195_alfven (x : Obs) (ions ps : List String) (hp : Valid ions ps) (d : RData) (hm : Measured x ps d)
    (hn : ∀ s ∈ ps, 0 < d.n s) (r : Fl) (hr : massDensity K x ions [pyJoin '+' ps] = .ok (.total r)) :
    ca K x ions [pyJoin '+' ps] = .ok (.total (AlfvenField K x.b r).mag) ∧
    ∃ k : ℝ, 0 < k ∧ AlfvenField K x.b r = V3.ofReal (k * d.bx) (k * d.by_) (k * d.bz) := by
  obtain ⟨hr0, hc⟩ := ca_fin K x ions ps hp d hm hn
  rw [mass_fin K x ions ps hp d hm] at hr
  injection hr with hr; injection hr with hr
  subst hr
  generalize (ps.map (rR K d)).sum = R at hr0 hc ⊢
  have hs := Real.sqrt_pos.mpr hr0
  obtain ⟨q, hq, hq0⟩ : ∃ q, q = K.uB / (Real.sqrt (K.uRho * K.mu0) * K.uV) ∧ 0 < q := by
    have := K.uB_pos; have := K.uV_pos; have := K.uRho_pos; have := K.mu0_pos
    exact ⟨_, rfl, by positivity⟩
  have e : AlfvenField K x.b (.fin R) = V3.ofReal (q / Real.sqrt R * d.bx) (q / Real.sqrt R * d.by_) (q / Real.sqrt R * d.bz) := by
    unfold AlfvenField V3.ofReal
    rw [← hq, hm.b, Fl.sqrt_fin _ hr0.le]
    simp only [V3.ofReal, Fl.fin_div _ _ hs.ne', Fl.fin_mul]
    congr 2 <;> ring
  refine ⟨?_, q / Real.sqrt R, by positivity, e⟩
  rw [e, V3.mag_ofReal, hc, ← hq]
  congr 3
  have h1 : (q / Real.sqrt R * d.bx) ^ 2 + (q / Real.sqrt R * d.by_) ^ 2 + (q / Real.sqrt R * d.bz) ^ 2 =
      (q / Real.sqrt R) ^ 2 * bsqR d := by unfold bsqR; ring
  rw [h1, Real.sqrt_mul (sq_nonneg _), Real.sqrt_sq (by positivity), Real.rpow_neg hr0.le, ← Real.sqrt_eq_rpow]
  ring

/-! ### Concrete cases -/

example (K : Const) (t : ℕ → ℤ) :
    ∃ T, buildTurb K (fun _ => exD.obs) ["a", "p1"] true t (pyJoin ',' [pyJoin '+' ["p1"], pyJoin '+' ["p1", "a"]])
      (.offset 60) 3 = .ok T ∧ T.polarity = none := by
  obtain ⟨T, h, -, hp, -⟩ := C195_pair K (fun _ => exD.obs) ["a", "p1"] ["p1"] ["p1", "a"] (exValid.single (by simp)) exValid
    (fun h => by have := h.length_eq; simp at this) t (.offset 60) 3 (fun n h => by cases h) _ _
    (fun _ => dv_fin K exD.obs _ _ _ (exValid.single (by simp)) exValid (fun h => by have := h.length_eq; simp at this)
      exD (exD.measured _) (exD.measured _) (by intro t _; simp only [exD]; split <;> norm_num)
      (by intro t _; simp only [exD]; split <;> norm_num))
    (fun _ => mass_fin K exD.obs _ _ exValid exD (exD.measured _))
  exact ⟨T, h, hp⟩

example (K : Const) (t : ℕ → ℤ) :
    ∃ T, buildTurb K (fun _ => exD.obs) ["a", "p1"] true t (pyJoin '+' ["p1", "a"]) (.offset 60) 3 = .ok T ∧
      buildTurb K (fun _ => exD.obs) ["a", "p1"] false t (pyJoin '+' ["p1", "a"]) (.offset 60) 3 = .error .typeError := by
  obtain ⟨T, h, -⟩ := C195_single K (fun _ => exD.obs) ["a", "p1"] ["p1", "a"] exValid t (.offset 60) 3 (fun n h => by cases h) _ _
    (fun _ => vel_fin K exD.obs _ _ exValid exD (exD.measured _) (by intro t _; simp only [exD]; split <;> norm_num))
    (fun _ => mass_fin K exD.obs _ _ exValid exD (exD.measured _))
  exact ⟨T, h, C195_index K _ _ _ _ _ _ T h⟩

/-- the example plasma seen from a frame that speeds up along x: row `i` moves by `i` -/
noncomputable def exBoost (i : ℕ) : RData := { exD with vx := fun s => exD.vx s + i }

example (K : Const) (t : ℕ → ℤ) :
    ∃ T T', buildTurb K (fun _ => exD.obs) ["a", "p1"] true t (pyJoin ',' [pyJoin '+' ["p1"], pyJoin '+' ["a"]])
        (.rows 4) 2 = .ok T ∧
      buildTurb K (fun i => (exBoost i).obs) ["a", "p1"] true t (pyJoin ',' [pyJoin '+' ["p1"], pyJoin '+' ["a"]])
        (.rows 4) 2 = .ok T' ∧ ∀ i, T'.v i = T.v i ∧ T'.b i = T.b i :=
  C195_boost_pair K _ _ _ ["p1"] ["a"] (exValid.single (by simp)) (exValid.single (by simp))
    (fun h => by have := h.subset (List.mem_cons_self); simp at this) t (.rows 4) 2 (fun n h => by cases h; decide) (fun _ => exD) exBoost
    (fun i => i) (fun _ => 0) (fun _ => 0)
    (fun _ => exD.measured _) (fun i => (exBoost i).measured _)
    ⟨fun _ _ _ => rfl, fun _ _ _ => rfl, fun _ s _ => by simp [exBoost], fun _ s _ => by simp [exBoost],
      fun _ => ⟨rfl, rfl, rfl⟩⟩
    (by intro _ t _; simp only [exD]; split <;> norm_num)

example (K : Const) (o : ℕ → Obs) (t : ℕ → ℤ) :
    buildTurb K o ["a", "p1"] true t (pyJoin ',' [pyJoin '+' ["p1", "a"], pyJoin '+' ["a", "p1"]]) (.rows 4) 2 =
      .error .notImplemented :=
  C195_self K o _ _ _ exValid (List.Perm.swap _ _ _) true t _ _

example (K : Const) (o : ℕ → Obs) (t : ℕ → ℤ) :
    buildTurb K o ["a", "p1"] true t "a,p1,p2" (.rows 4) 2 = .error .valueError ∧
    buildTurb K o ["a", "p1"] true t "a,p1+x" (.rows 4) 2 = .error .valueError :=
  ⟨C195_commas K o _ _ _ _ _ _ (by decide), C195_unknown K o _ _ _ _ "p1+x" "x" _ _ (by decide) (by decide) (by decide) (by decide)⟩

/-- C195: default window of 15 minutes, at least 5 measurements. -/
theorem C195_defaults (ions : List String) (isTime : Bool) (t : ℕ → ℤ) (s : String) :
    buildTurb K o ions isTime t s = buildTurb K o ions isTime t s (.offset (15 * 60 * 1000000000)) 5 := by
  norm_num

end SW
