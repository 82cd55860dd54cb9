import Verif.PlasmaIO

/-!
# Properties C03-C09, C91, C92 (plasma construction, stored data, dropping species, saving, attaching)
-/

namespace SW
open _root_.SW.Frame
variable {ι : Type}

/-- A concrete two-species data set used for the non-vacuity examples. -/
def exLabels : List Col :=
  [⟨"b", "x", ""⟩, ⟨"b", "y", ""⟩, ⟨"b", "z", ""⟩, ⟨"q", "", "a"⟩] ++ ionRequired "a" ++ ionRequired "p1"

noncomputable def exFrame : Frame Bool :=
  exLabels.map fun c => (c, fun i => if c.c = "per" then Fl.fin 2 else if i then Fl.fin 1 else Fl.nan)

theorem exFrame_cols : exFrame.cols = exLabels := by simp [exFrame, cols, Function.comp_def]

theorem exFrame_ok : DataOk ["a", "p1"] exFrame := by
  unfold DataOk; rw [exFrame_cols]; decide

theorem exFrame_mk : ∃ p, mkPlasma exFrame ["p1", "a"] = .ok p ∧ p.species = ["a", "p1"] := by
  refine ⟨_, (mkPlasma_ok_iff exFrame ["p1", "a"] (by simp) (by decide) (by decide) _).mpr
    ⟨?_, rfl⟩, by decide⟩
  unfold DataOk; rw [exFrame_cols]; decide

/-! ## C03 -/

/-- C03: no species is a ValueError, a `+` an assertion failure, whatever the data. -/
theorem C03_rejected (new : Frame ι) (sp : List String) :
    (sp = [] → mkPlasma new sp = .error .valueError) ∧
    (sp ≠ [] → (∃ s ∈ sp, '+' ∈ s.toList) → mkPlasma new sp = .error .assertionError) := by
  constructor
  · rintro rfl; rfl
  · rintro hne ⟨s, hs, hp⟩
    have hx : cleanSpecies sp = .error .assertionError := by
      unfold cleanSpecies
      rw [if_neg (by simpa using hne), if_pos]
      exact List.any_eq_true.mpr ⟨s, hs, by simpa [hasChar] using hp⟩
    simp [mkPlasma, hx]

/-- C03: with well-formed names construction succeeds iff the data contain, for each species, density, three
velocity and two thermal-speed components, and the three field components; the species are then the given
names, sorted. -/
theorem C03_accepted (new : Frame ι) (sp : List String) (hne : sp ≠ [])
    (hp : ∀ s ∈ sp, '+' ∉ s.toList) (hc : ∀ s ∈ sp, ',' ∉ s.toList) :
    ((∃ p, mkPlasma new sp = .ok p) ↔
      ((∀ s ∈ sp, (⟨"n", "", s⟩ : Col) ∈ new.cols ∧
          (∀ k ∈ ["x", "y", "z"], (⟨"v", k, s⟩ : Col) ∈ new.cols) ∧
          (∀ k ∈ ["par", "per"], (⟨"w", k, s⟩ : Col) ∈ new.cols)) ∧
        ∀ k ∈ ["x", "y", "z"], (⟨"b", k, ""⟩ : Col) ∈ new.cols)) ∧
    ∀ p, mkPlasma new sp = .ok p → p.species.Perm sp ∧ p.species.Pairwise (· ≤ ·) := by
  have hp' : ∀ s ∈ sp, hasChar '+' s = false := fun s hs => by simpa [hasChar] using hp s hs
  have hc' : ∀ s ∈ sp, hasChar ',' s = false := fun s hs => by simpa [hasChar] using hc s hs
  refine ⟨⟨?_, ?_⟩, ?_⟩
  · rintro ⟨p, h⟩
    obtain ⟨⟨h1, h2⟩, -⟩ := (mkPlasma_ok_iff new sp hne hp' hc' p).mp h
    refine ⟨fun s hs => ?_, h2⟩
    have := h1 s hs
    simp only [ionRequired, List.forall_mem_cons] at this ⊢
    simp only [List.not_mem_nil, false_implies, implies_true, and_true]
    exact ⟨this.1, ⟨this.2.1, this.2.2.1, this.2.2.2.1⟩, this.2.2.2.2.1, this.2.2.2.2.2.1⟩
  · rintro ⟨h1, h2⟩
    refine ⟨_, (mkPlasma_ok_iff new sp hne hp' hc' _).mpr ⟨⟨fun s hs => ?_, h2⟩, rfl⟩⟩
    obtain ⟨a, b, c⟩ := h1 s hs
    simp only [ionRequired, List.forall_mem_cons] at b c ⊢
    exact ⟨a, b.1, b.2.1, b.2.2.1, c.1, c.2.1, by simp⟩
  · intro p h
    obtain ⟨-, rfl⟩ := (mkPlasma_ok_iff new sp hne hp' hc' p).mp h
    exact ⟨pySorted_perm _, pySorted_pairwise _⟩

/-- C03, violated part: the comma-separated form `Plasma(data, "a,p1")` that `_set_ions` provides for never
works: construction fails for every data set (the data were already reduced to a species literally called
"a,p1" when the string is split). -/
theorem C03_comma_form_fails (new : Frame ι) (ps : List String) (hps : ∀ p ∈ ps, ',' ∉ p.toList)
    (h2 : 2 ≤ ps.length) (q : String) (hq : q ∈ ps) (hqe : q ≠ "") :
    ∀ p, mkPlasma new [pyJoin ',' ps] ≠ .ok p := by
  intro p h
  have hps' : ∀ p ∈ ps, hasChar ',' p = false := fun s hs => by simpa [hasChar] using hps s hs
  have hne : ps ≠ [] := by rintro rfl; simp at h2
  unfold mkPlasma at h
  split at h
  · cases h
  · rename_i s0 hs0
    have hs0' : s0 = [pyJoin ',' ps] := by
      unfold cleanSpecies at hs0
      simp only [List.isEmpty_cons, Bool.false_eq_true, if_false] at hs0
      split at hs0
      · cases hs0
      · injection hs0 with hs0; rw [← hs0]; rfl
    subst hs0'
    split at h
    · cases h
    · rename_i d hd
      obtain ⟨rfl, -⟩ := setData_ok_b hd
      split at h
      · cases h
      · rename_i s1 hs1
        have hs1' : s1 = ps := by
          unfold setIonsSpecies at hs1
          split at hs1
          · cases hs1
          · injection hs1 with hs1; rw [← hs1]; exact pySplit_pyJoin _ _ hne hps'
        subst hs1'
        split at h
        · cases h
        · rename_i u hu
          have := ionCheck_ok.mp (ionChecks_ok.mp hu q hq) ⟨"n", "", q⟩ (by simp [ionRequired])
          rw [← get_isSome, get_buildData] at this
          have hnk : keepCol [pyJoin ',' s1] ⟨"n", "", q⟩ = false := by
            have hqj : q ≠ pyJoin ',' s1 := by
              intro e
              have hs := pySplit_pyJoin ',' s1 hne hps'
              rw [← e, pySplit_self _ _ (hps' q hq)] at hs
              rw [← hs] at h2; simp at h2
            simp [keepCol, plasmaM, plasmaC, hqj, hqe]
          rw [if_neg (by simp [hnk]), if_neg (by simp)] at this
          cases this

example : ∀ p, mkPlasma exFrame ["a,p1"] ≠ .ok p :=
  C03_comma_form_fails exFrame ["a", "p1"] (by decide) (by decide) "a" (by decide) (by decide)

/-! ## C05-C07: the stored columns -/

/-- C05: reading any label of a constructed plasma: plasma quantities of its species (or of no species) have
exactly the supplied values, the scalar thermal speed is the only addition, nothing else is stored, and no
label is stored twice. -/
theorem C05_stored_columns (new : Frame ι) (sp : List String) (hne : sp ≠ [])
    (hp : ∀ s ∈ sp, '+' ∉ s.toList) (hc : ∀ s ∈ sp, ',' ∉ s.toList) (p : Plasma ι)
    (h : mkPlasma new sp = .ok p) :
    p.data.cols.Nodup ∧
    ∀ c : Col,
      (c.m ∈ ["b", "n", "v", "w"] ∧ c.c ∈ ["", "x", "y", "z", "per", "par"] ∧ (c.s ∈ sp ∨ c.s = "") →
        p.data.get c = new.get c) ∧
      (¬ (c.m ∈ ["b", "n", "v", "w"] ∧ c.c ∈ ["", "x", "y", "z", "per", "par"] ∧ (c.s ∈ sp ∨ c.s = "")) →
        ((p.data.get c).isSome ↔ c.m = "w" ∧ c.c = "scalar" ∧ (c.s ∈ sp ∨ c.s = "") ∧
          ((⟨"w", "par", c.s⟩ : Col) ∈ new.cols ∨ (⟨"w", "per", c.s⟩ : Col) ∈ new.cols))) := by
  obtain ⟨-, rfl⟩ := (mkPlasma_ok_iff new sp hne (fun s hs => by simpa [hasChar] using hp s hs)
    (fun s hs => by simpa [hasChar] using hc s hs) p).mp h
  refine ⟨nodup_buildData _ _, fun c => ?_⟩
  have hk : keepCol (pySorted sp) c = true ↔
      (c.m ∈ ["b", "n", "v", "w"] ∧ c.c ∈ ["", "x", "y", "z", "per", "par"] ∧ (c.s ∈ sp ∨ c.s = "")) := by
    simp only [keepCol, plasmaM, plasmaC, Bool.and_eq_true, List.contains_iff_mem, List.mem_append,
      List.mem_singleton, mem_pySorted, and_assoc]
  simp only
  rw [← hk, get_buildData]
  refine ⟨fun h => by rw [if_pos h], fun h => ?_⟩
  rw [if_neg h]
  simp only [mem_pySorted]
  split
  · rename_i hh; simp [hh]
  · rename_i hh; simp [hh]

/-- The scalar column of a constructed plasma is computed from the supplied parallel and perpendicular ones. -/
theorem scalar_of_built (new : Frame ι) (sp : List String) (hne : sp ≠ [])
    (hp : ∀ s ∈ sp, '+' ∉ s.toList) (hc : ∀ s ∈ sp, ',' ∉ s.toList) (p : Plasma ι)
    (h : mkPlasma new sp = .ok p) (s : String) (hs : s ∈ sp) :
    ∃ a b, new.get ⟨"w", "par", s⟩ = some a ∧ new.get ⟨"w", "per", s⟩ = some b ∧
      p.data.get ⟨"w", "scalar", s⟩ = some (scalarW (some a) (some b)) := by
  obtain ⟨hok, rfl⟩ := (mkPlasma_ok_iff new sp hne (fun s hs => by simpa [hasChar] using hp s hs)
    (fun s hs => by simpa [hasChar] using hc s hs) p).mp h
  have h1 := hok.1 s hs ⟨"w", "par", s⟩ (by simp [ionRequired])
  have h2 := hok.1 s hs ⟨"w", "per", s⟩ (by simp [ionRequired])
  obtain ⟨a, ha⟩ := Option.isSome_iff_exists.mp (get_isSome.mpr h1)
  obtain ⟨b, hb⟩ := Option.isSome_iff_exists.mp (get_isSome.mpr h2)
  refine ⟨a, b, ha, hb, ?_⟩
  simp only
  rw [get_buildData, if_neg (by rw [keepCol_scalar]; simp),
    if_pos ⟨rfl, rfl, Or.inl (mem_pySorted.mpr hs), Or.inl h1⟩]
  simp only [ha, hb]

theorem scalarW_fin (a b : ι → Fl) (i : ι) (x y : ℝ) (hx : a i = .fin x) (hy : b i = .fin y) :
    scalarW (some a) (some b) i = .fin (Real.sqrt ((x ^ 2 + 2 * y ^ 2) / 3)) := by
  unfold scalarW wCoeff
  simp only [Option.toList_some, List.map_cons, List.map_nil, List.cons_append, List.nil_append, hx, hy,
    Fl.sq_fin, Fl.fin_mul, Fl.sumSkip_cons_fin, Fl.sumSkip_nil, Fl.zero_def, Fl.fin_add]
  rw [if_neg (by decide), if_pos trivial, Fl.sqrt_fin _ (by positivity)]
  congr 2; ring

/-- C06: with both components measured the scalar thermal speed is `sqrt((w_par² + 2 w_per²)/3)`; for
non-negative speeds it lies between the two and equals both iff they agree. -/
theorem C06_scalar_thermal_speed (new : Frame ι) (sp : List String) (hne : sp ≠ [])
    (hp : ∀ s ∈ sp, '+' ∉ s.toList) (hc : ∀ s ∈ sp, ',' ∉ s.toList) (p : Plasma ι)
    (h : mkPlasma new sp = .ok p) (s : String) (hs : s ∈ sp) (i : ι) (wpar wper : ℝ)
    (hpar : (new.get ⟨"w", "par", s⟩).map (· i) = some (.fin wpar))
    (hper : (new.get ⟨"w", "per", s⟩).map (· i) = some (.fin wper)) :
    ∃ w : ℝ, (p.data.get ⟨"w", "scalar", s⟩).map (· i) = some (.fin w) ∧
      0 ≤ w ∧ 3 * w ^ 2 = wpar ^ 2 + 2 * wper ^ 2 ∧
      (0 ≤ wpar → 0 ≤ wper → min wpar wper ≤ w ∧ w ≤ max wpar wper ∧ (w = wpar ↔ wpar = wper) ∧
        (w = wper ↔ wpar = wper)) := by
  obtain ⟨a, b, ha, hb, hsc⟩ := scalar_of_built new sp hne hp hc p h s hs
  rw [ha] at hpar; rw [hb] at hper
  simp only [Option.map_some, Option.some.injEq] at hpar hper
  have hnn : 0 ≤ (wpar ^ 2 + 2 * wper ^ 2) / 3 := by positivity
  have hsq := Real.sq_sqrt hnn
  have h0 := Real.sqrt_nonneg ((wpar ^ 2 + 2 * wper ^ 2) / 3)
  refine ⟨Real.sqrt ((wpar ^ 2 + 2 * wper ^ 2) / 3), ?_, h0, by rw [hsq]; ring, ?_⟩
  · rw [hsc, Option.map_some, scalarW_fin a b i wpar wper hpar hper]
  · intro h1 h2
    set w := Real.sqrt ((wpar ^ 2 + 2 * wper ^ 2) / 3) with hw
    have hsq' : 3 * w ^ 2 = wpar ^ 2 + 2 * wper ^ 2 := by rw [hsq]; ring
    refine ⟨?_, ?_, ?_, ?_⟩
    · rcases le_total wpar wper with hle | hle
      · rw [min_eq_left hle]; exact Real.le_sqrt_of_sq_le (by nlinarith)
      · rw [min_eq_right hle]; exact Real.le_sqrt_of_sq_le (by nlinarith)
    · rcases le_total wpar wper with hle | hle
      · rw [max_eq_right hle, hw]; exact Real.sqrt_le_iff.mpr ⟨h2, by nlinarith⟩
      · rw [max_eq_left hle, hw]; exact Real.sqrt_le_iff.mpr ⟨h1, by nlinarith⟩
    · constructor
      · intro e; rw [e] at hsq'
        have : wpar ^ 2 = wper ^ 2 := by linarith
        exact (pow_left_inj₀ h1 h2 (by norm_num)).mp this
      · intro e; rw [← e] at hsq'
        have : w ^ 2 = wpar ^ 2 := by linarith
        exact (pow_left_inj₀ h0 h1 (by norm_num)).mp this
    · constructor
      · intro e; rw [e] at hsq'
        have : wpar ^ 2 = wper ^ 2 := by linarith
        exact (pow_left_inj₀ h1 h2 (by norm_num)).mp this
      · intro e; rw [e] at hsq'
        have : w ^ 2 = wper ^ 2 := by linarith
        exact (pow_left_inj₀ h0 h2 (by norm_num)).mp this

/-- C07 (violation): a missing parallel component yields the finite `sqrt(2/3)·|w_per|`, a missing
perpendicular one `sqrt(1/3)·|w_par|`, and two missing components yield `0`: never NaN. -/
theorem C07_missing_component_fabricates (new : Frame ι) (sp : List String) (hne : sp ≠ [])
    (hp : ∀ s ∈ sp, '+' ∉ s.toList) (hc : ∀ s ∈ sp, ',' ∉ s.toList) (p : Plasma ι)
    (h : mkPlasma new sp = .ok p) (s : String) (hs : s ∈ sp) (i : ι) :
    (∀ w : ℝ, (new.get ⟨"w", "par", s⟩).map (· i) = some .nan →
      (new.get ⟨"w", "per", s⟩).map (· i) = some (.fin w) →
      (p.data.get ⟨"w", "scalar", s⟩).map (· i) = some (.fin (Real.sqrt (2 / 3) * |w|))) ∧
    (∀ w : ℝ, (new.get ⟨"w", "par", s⟩).map (· i) = some (.fin w) →
      (new.get ⟨"w", "per", s⟩).map (· i) = some .nan →
      (p.data.get ⟨"w", "scalar", s⟩).map (· i) = some (.fin (Real.sqrt (1 / 3) * |w|))) ∧
    ((new.get ⟨"w", "par", s⟩).map (· i) = some .nan →
      (new.get ⟨"w", "per", s⟩).map (· i) = some .nan →
      (p.data.get ⟨"w", "scalar", s⟩).map (· i) = some (.fin 0)) := by
  obtain ⟨a, b, ha, hb, hsc⟩ := scalar_of_built new sp hne hp hc p h s hs
  rw [ha, hb, hsc]
  simp only [Option.map_some, Option.some.injEq]
  unfold scalarW wCoeff
  simp only [Option.toList_some, List.map_cons, List.map_nil, List.cons_append, List.nil_append]
  have key : ∀ k w : ℝ, 0 ≤ k → Real.sqrt (w ^ 2 * k) = Real.sqrt k * |w| := by
    intro k w hk
    rw [mul_comm, Real.sqrt_mul hk, Real.sqrt_sq_eq_abs]
  refine ⟨?_, ?_, ?_⟩
  · intro w e1 e2
    rw [e1, e2, if_pos trivial]
    simp only [Fl.sq_nan, Fl.nan_mul, Fl.sumSkip_cons_nan, Fl.sq_fin, Fl.fin_mul, Fl.sumSkip_cons_fin,
      Fl.sumSkip_nil, Fl.zero_def, Fl.fin_add, add_zero]
    rw [Fl.sqrt_fin _ (by positivity), key _ _ (by norm_num)]
  · intro w e1 e2
    rw [e1, e2, if_neg (by decide)]
    simp only [Fl.sq_nan, Fl.nan_mul, Fl.sumSkip_cons_nan, Fl.sq_fin, Fl.fin_mul, Fl.sumSkip_cons_fin,
      Fl.sumSkip_nil, Fl.zero_def, Fl.fin_add, add_zero]
    rw [Fl.sqrt_fin _ (by positivity), key _ _ (by norm_num)]
  · intro e1 e2
    rw [e1, e2]
    simp only [Fl.sq_nan, Fl.nan_mul, Fl.sumSkip_cons_nan, Fl.sumSkip_nil, Fl.zero_def]
    rw [Fl.sqrt_fin _ le_rfl, Real.sqrt_zero]

/-- Non-vacuity: row `true` of the example is fully measured (C06), row `false` has no `w_par` (C07). -/
example : ∃ p, mkPlasma exFrame ["p1", "a"] = .ok p ∧
    (exFrame.get ⟨"w", "par", "a"⟩).map (· true) = some (.fin 1) ∧
    (exFrame.get ⟨"w", "per", "a"⟩).map (· true) = some (.fin 2) ∧
    (exFrame.get ⟨"w", "par", "a"⟩).map (· false) = some .nan := by
  obtain ⟨p, hp, -⟩ := exFrame_mk
  refine ⟨p, hp, ?_, ?_, ?_⟩ <;> simp [exFrame, Frame.get, exLabels, ionRequired]

/-! ## C04: dropping species -/

/-- C04: `drop_species` of every species is a ValueError; otherwise it returns a plasma with the remaining
species and exactly the columns of the remaining species (or of none), unchanged. -/
theorem C04_drop_species (p : Plasma ι) (hb : Built p) (args : List PyVal) (drop : List String)
    (hchk : chkSpecies p.species args = .ok drop) :
    ((∀ s ∈ p.species, s ∈ drop) → dropSpecies p args = .error .valueError) ∧
    ((∃ s ∈ p.species, s ∉ drop) → ∃ q, dropSpecies p args = .ok q ∧ Built q ∧
      (∀ s, s ∈ q.species ↔ s ∈ p.species ∧ s ∉ drop) ∧ q.species.Sublist p.species ∧
      q.data.cols.Nodup ∧
      ∀ c : Col, q.data.get c = if c.s = "" ∨ (c.s ∈ p.species ∧ c.s ∉ drop) then p.data.get c else none) := by
  obtain ⟨new, hne, hsort, hplus, hcomma, hok, hdata⟩ := built_spec hb
  set rem := p.species.filter (fun s => !drop.contains s) with hrem
  have hmem : ∀ s, s ∈ rem ↔ s ∈ p.species ∧ s ∉ drop := by intro s; simp [hrem]
  constructor
  · intro hall
    unfold dropSpecies
    rw [hchk]; simp only []
    rw [if_pos]
    rw [List.isEmpty_iff, List.filter_eq_nil_iff]
    intro s hs; simpa using hall s hs
  · rintro ⟨s0, hs0, hd0⟩
    have hremne : rem ≠ [] := List.ne_nil_of_mem ((hmem s0).mpr ⟨hs0, hd0⟩)
    have hsub : ∀ s ∈ rem, s ∈ p.species := fun s hs => ((hmem s).mp hs).1
    have hremsort : rem.Pairwise (· ≤ ·) := hsort.sublist List.filter_sublist
    have hP : ∀ c : Col, dropKeep rem c = true → c.c ≠ "scalar" → dropKeep rem c = true := fun _ h _ => h
    have hmk : mkPlasma (p.data.sel (dropKeep rem)) rem =
        .ok ⟨rem, buildData rem (p.data.sel (dropKeep rem))⟩ := by
      rw [mkPlasma_ok_iff _ rem hremne (fun s hs => hplus s (hsub s hs)) (fun s hs => hcomma s (hsub s hs)),
        pySorted_of_sorted hremsort]
      refine ⟨?_, rfl⟩
      rw [hdata]
      exact dataOk_rebuild rem p.species hsub new _ hP hok
    refine ⟨⟨rem, buildData rem (p.data.sel (dropKeep rem))⟩, ?_, ?_, hmem, List.filter_sublist,
      nodup_buildData _ _, fun c => ?_⟩
    · unfold dropSpecies
      rw [hchk]; simp only []
      rw [if_neg (by rw [List.isEmpty_iff]; exact hremne)]
      exact hmk
    · exact ⟨_, rem, fun s hs => by simpa [hasChar] using hcomma s (hsub s hs), hmk⟩
    · simp only
      rw [hdata, get_rebuild rem p.species hsub new _ hP c]
      simp only [dropKeep_iff, hmem]

/-- C04: invalid or unavailable arguments fail as in C01/C02 and nothing is built. -/
theorem C04_drop_invalid (p : Plasma ι) (args : List PyVal) (e : PyErr)
    (h : chkSpecies p.species args = .error e) : dropSpecies p args = .error e := by
  unfold dropSpecies; rw [h]

/-- C04: auxiliary columns are filtered by the same rule. -/
theorem C04_drop_aux (rem : List String) (aux : Frame ι) (c : Col) :
    ∃ a, dropAux rem (some aux) = some a ∧
      a.get c = if c.s = "" ∨ c.s ∈ rem then aux.get c else none := by
  refine ⟨_, rfl, ?_⟩
  rw [get_sel]; simp only [dropKeep_iff]

theorem conformS_plain (l : List String) (hc : ∀ s ∈ l, ',' ∉ s.toList) (hp : ∀ s ∈ l, '+' ∉ s.toList) :
    conformS l = .ok (pySorted l) := by
  rw [conformS_eq, if_neg, if_neg]
  · match l, hp with
    | [], _ => rfl
    | [s], hp =>
      simp only [pySplit_self '+' s (by simpa [hasChar] using hp s (by simp))]
    | _ :: _ :: _, _ => rfl
  · simp only [Bool.and_eq_true, List.any_eq_true, hasChar_iff, decide_eq_true_eq, not_and]
    rintro ⟨s, hs, h⟩; exact absurd h (hp s hs)
  · simp only [List.any_eq_true, hasChar_iff, not_exists, not_and]; exact hc

/-- C04: dropping `A` and then `B` is dropping `A ++ B` at once: same species, same columns, same values. -/
theorem C04_drop_twice (p q r : Plasma ι) (hb : Built p) (A B : List String)
    (hA : ∀ s ∈ A, ',' ∉ s.toList ∧ '+' ∉ s.toList) (hB : ∀ s ∈ B, ',' ∉ s.toList ∧ '+' ∉ s.toList)
    (h1 : dropSpecies p (A.map .str) = .ok q) (h2 : dropSpecies q (B.map .str) = .ok r) :
    ∃ t, dropSpecies p ((A ++ B).map .str) = .ok t ∧ t.species = r.species ∧
      ∀ c, t.data.get c = r.data.get c := by
  have chkA : conform (A.map .str) = .ok (pySorted A) :=
    conformS_plain A (fun s hs => (hA s hs).1) (fun s hs => (hA s hs).2)
  have chkB : conform (B.map .str) = .ok (pySorted B) :=
    conformS_plain B (fun s hs => (hB s hs).1) (fun s hs => (hB s hs).2)
  have hAB : ∀ s ∈ A ++ B, ',' ∉ s.toList ∧ '+' ∉ s.toList := by
    intro s hs; rcases List.mem_append.mp hs with h | h
    · exact hA s h
    · exact hB s h
  have chkAB : conform ((A ++ B).map .str) = .ok (pySorted (A ++ B)) :=
    conformS_plain _ (fun s hs => (hAB s hs).1) (fun s hs => (hAB s hs).2)
  have avail : ∀ (ions : List String) (args : List PyVal) (t : List String), conform args = .ok t →
      (∀ e, chkSpecies ions args ≠ .error e) → chkSpecies ions args = .ok t ∧ ∀ s ∈ t, s ∈ ions ∨ s = "" := by
    intro ions args t ht hne
    rw [chkSpecies_eq, ht] at hne ⊢
    simp only [Except.bind] at hne ⊢
    split at hne
    · exact absurd rfl (hne _)
    · rename_i hh
      rw [if_neg hh]
      refine ⟨rfl, fun s hs => ?_⟩
      by_contra hcon
      rw [not_or] at hcon
      exact hh ⟨s, hs, hcon⟩
  obtain ⟨cA, aA⟩ := avail p.species _ _ chkA (fun e he => by rw [C04_drop_invalid p _ e he] at h1; cases h1)
  obtain ⟨cB, aB⟩ := avail q.species _ _ chkB (fun e he => by rw [C04_drop_invalid q _ e he] at h2; cases h2)
  have remA : ∃ s ∈ p.species, s ∉ pySorted A := by
    by_contra hcon
    have : ∀ s ∈ p.species, s ∈ pySorted A := by simpa using hcon
    rw [(C04_drop_species p hb _ _ cA).1 this] at h1; cases h1
  obtain ⟨q', hq', bq, sq, -, -, gq⟩ := (C04_drop_species p hb _ _ cA).2 remA
  rw [h1] at hq'; injection hq' with hq'; subst hq'
  have remB : ∃ s ∈ q.species, s ∉ pySorted B := by
    by_contra hcon
    have : ∀ s ∈ q.species, s ∈ pySorted B := by simpa using hcon
    rw [(C04_drop_species q bq _ _ cB).1 this] at h2; cases h2
  obtain ⟨r', hr', br, sr, -, -, gr⟩ := (C04_drop_species q bq _ _ cB).2 remB
  rw [h2] at hr'; injection hr' with hr'; subst hr'
  have cAB : chkSpecies p.species ((A ++ B).map .str) = .ok (pySorted (A ++ B)) := by
    rw [chkSpecies_eq, chkAB]
    simp only [Except.bind]
    rw [if_neg]
    rintro ⟨s, hs, hn, hne⟩
    rw [mem_pySorted, List.mem_append] at hs
    rcases hs with hs | hs
    · exact (aA s (mem_pySorted.mpr hs)).elim hn hne
    · exact (aB s (mem_pySorted.mpr hs)).elim (fun h => hn ((sq s).mp h).1) hne
  obtain ⟨s0, hs0, hs0n⟩ := remB
  have hs0' := (sq s0).mp hs0
  have remAB : ∃ s ∈ p.species, s ∉ pySorted (A ++ B) := by
    refine ⟨s0, hs0'.1, ?_⟩
    rw [mem_pySorted, List.mem_append]
    rintro (h | h)
    · exact hs0'.2 (mem_pySorted.mpr h)
    · exact hs0n (mem_pySorted.mpr h)
  obtain ⟨t, ht, bt, st, -, -, gt⟩ := (C04_drop_species p hb _ _ cAB).2 remAB
  have hmem : ∀ s, (s ∈ p.species ∧ s ∉ pySorted (A ++ B)) ↔ (s ∈ q.species ∧ s ∉ pySorted B) := by
    intro s; rw [sq s]; simp only [mem_pySorted, List.mem_append, not_or]; tauto
  refine ⟨t, ht, ?_, fun c => ?_⟩
  · -- both are filters of p.species
    have e1 : t.species = p.species.filter (fun s => !(pySorted (A ++ B)).contains s) := by
      unfold dropSpecies at ht; rw [cAB] at ht; simp only [] at ht
      split at ht
      · cases ht
      · rename_i hnil
        have hs : ∀ x ∈ p.species.filter (fun s => !(pySorted (A ++ B)).contains s), x ∈ p.species :=
          fun x hx => (List.mem_filter.mp hx).1
        obtain ⟨new, hne, hsort, hplus, hcomma, hok, hdata⟩ := built_spec hb
        have := ((mkPlasma_ok_iff _ _ (by simpa using hnil) (fun s hs' => hplus s (hs s hs'))
          (fun s hs' => hcomma s (hs s hs')) t).mp ht).2
        rw [this]
        exact pySorted_of_sorted (hsort.sublist List.filter_sublist)
    have e2 : q.species = p.species.filter (fun s => !(pySorted A).contains s) := by
      unfold dropSpecies at h1; rw [cA] at h1; simp only [] at h1
      split at h1
      · cases h1
      · rename_i hnil
        have hs : ∀ x ∈ p.species.filter (fun s => !(pySorted A).contains s), x ∈ p.species :=
          fun x hx => (List.mem_filter.mp hx).1
        obtain ⟨new, hne, hsort, hplus, hcomma, hok, hdata⟩ := built_spec hb
        have := ((mkPlasma_ok_iff _ _ (by simpa using hnil) (fun s hs' => hplus s (hs s hs'))
          (fun s hs' => hcomma s (hs s hs')) q).mp h1).2
        rw [this]
        exact pySorted_of_sorted (hsort.sublist List.filter_sublist)
    have e3 : r.species = q.species.filter (fun s => !(pySorted B).contains s) := by
      unfold dropSpecies at h2; rw [cB] at h2; simp only [] at h2
      split at h2
      · cases h2
      · rename_i hnil
        have hs : ∀ x ∈ q.species.filter (fun s => !(pySorted B).contains s), x ∈ q.species :=
          fun x hx => (List.mem_filter.mp hx).1
        obtain ⟨new, hne, hsort, hplus, hcomma, hok, hdata⟩ := built_spec bq
        have := ((mkPlasma_ok_iff _ _ (by simpa using hnil) (fun s hs' => hplus s (hs s hs'))
          (fun s hs' => hcomma s (hs s hs')) r).mp h2).2
        rw [this]
        exact pySorted_of_sorted (hsort.sublist List.filter_sublist)
    rw [e1, e3, e2, List.filter_filter]
    apply List.filter_congr
    intro s _
    rw [Bool.eq_iff_iff]
    simp [mem_pySorted, and_comm]
  · rw [gt c, gr c, gq c]
    by_cases hs : c.s = ""
    · simp [hs]
    · by_cases h3 : c.s ∈ q.species ∧ c.s ∉ pySorted B
      · rw [if_pos (Or.inr ((hmem _).mpr h3)), if_pos (Or.inr h3), if_pos (Or.inr ((sq _).mp h3.1))]
      · rw [if_neg, if_neg]
        · rintro (h | h)
          · exact hs h
          · exact h3 h
        · rintro (h | h)
          · exact hs h
          · exact h3 ((hmem _).mp h)

example : ∃ p : Plasma Bool, Built p ∧ ∃ s ∈ p.species, s ∉ ["a"] := by
  obtain ⟨p, hp, hs⟩ := exFrame_mk
  exact ⟨p, ⟨exFrame, ["p1", "a"], by decide, hp⟩, "p1", by rw [hs]; decide, by decide⟩

/-! ## C08, C91, C92: saving and loading -/

/-- Loading what `save` wrote reconstructs the core plasma on the selected rows. -/
theorem load_core (R : ι → Prop) (p : Plasma ι) (hb : Built p) (hnd : p.species.Nodup) (hemp : "" ∉ p.species) :
    ∃ q, mkPlasma (restrictRows R (p.data.sel (fun c => c.c != "scalar")))
        (((((restrictRows R (p.data.sel (fun c => c.c != "scalar"))).cols.map Col.s).dedup).filter
          (fun s => s != ""))) = .ok q ∧ q.species = p.species ∧
      (∀ c, q.data.get c = (p.data.get c).map (fun v (i : {i // R i}) => v i.1)) := by
  obtain ⟨new, hne, hsort, hplus, hcomma, hok, hdata⟩ := built_spec hb
  set P : Col → Bool := fun c => c.c != "scalar" with hPdef
  have hP : ∀ c : Col, dropKeep p.species c = true → c.c ≠ "scalar" → P c = true := by
    intro c _ h; simpa [hPdef] using h
  set sp := ((((restrictRows R (p.data.sel P)).cols.map Col.s).dedup).filter (fun s => s != "")) with hspdef
  have hsp : sp.Perm p.species := by
    apply (List.perm_ext_iff_of_nodup ((List.nodup_dedup _).filter _) hnd).mpr
    intro s
    rw [List.mem_filter, List.mem_dedup, cols_restrict, List.mem_map]
    constructor
    · rintro ⟨⟨c, hc, rfl⟩, hs⟩
      rw [mem_cols_sel, hdata, ← get_isSome, get_buildData] at hc
      have hs' : c.s ≠ "" := by simpa using hs
      by_cases hk : keepCol p.species c = true
      · simp only [keepCol, Bool.and_eq_true, List.contains_iff_mem, List.mem_append,
          List.mem_singleton] at hk
        exact hk.2.resolve_right hs'
      · rw [if_neg hk] at hc
        split at hc
        · rename_i hh; exact hh.2.2.1.resolve_right hs'
        · cases hc.1
    · intro hs
      refine ⟨⟨⟨"n", "", s⟩, ?_, rfl⟩, ?_⟩
      · rw [mem_cols_sel, hdata, mem_buildData_of_keep (keep_ionRequired hs (by simp [ionRequired]))]
        exact ⟨hok.1 s hs _ (by simp [ionRequired]), by simp [hPdef]⟩
      · have : s ≠ "" := by rintro rfl; exact hemp hs
        simpa using this
  have hspne : sp ≠ [] := by rintro h; rw [h] at hsp; exact hne (List.nil_perm.mp hsp)
  have hsps : pySorted sp = p.species := by
    rw [pySorted_eq_of_perm hsp, pySorted_of_sorted hsort]
  have hok2 : DataOk p.species (p.data.sel P) := by
    rw [hdata]; exact dataOk_rebuild _ _ (fun _ h => h) new P hP hok
  have hmk : mkPlasma (restrictRows R (p.data.sel P)) sp =
      .ok ⟨p.species, buildData p.species (restrictRows R (p.data.sel P))⟩ := by
    rw [mkPlasma_ok_iff _ sp hspne (fun s hs => hplus s (hsp.mem_iff.mp hs))
      (fun s hs => hcomma s (hsp.mem_iff.mp hs)), hsps]
    refine ⟨?_, rfl⟩
    constructor
    · intro s hs c hc; rw [cols_restrict]; exact hok2.1 s (hsp.mem_iff.mp hs) c hc
    · intro k hk; rw [cols_restrict]; exact hok2.2 k hk
  have hget : ∀ c, (buildData p.species (restrictRows R (p.data.sel P))).get c =
      (p.data.get c).map (fun v (i : {i // R i}) => v i.1) := by
    intro c
    rw [get_build_restrict, hdata, get_rebuild _ _ (fun _ h => h) new P hP c]
    by_cases hd : dropKeep p.species c = true
    · rw [if_pos hd]
    · rw [if_neg hd]
      have : (buildData p.species new).get c = none := by
        rw [get_buildData, if_neg, if_neg]
        · rintro ⟨-, -, h, -⟩; exact hd (dropKeep_iff.mpr h.symm)
        · intro h; exact hd ((keepCol_iff_dropKeep (fun _ h => h)).mp h).2
      rw [this]
  exact ⟨_, hmk, rfl, hget⟩

/-- C08: a plasma with attached spacecraft and auxiliary data, saved and loaded with the default keys (any row
range `R`, e.g. a closed time interval), comes back with the same species, spacecraft, and on every kept row
the same value in every column of the data and of the auxiliary data. -/
theorem C08_save_load {σ σ' : Type} (R : ι → Prop) (scSel : σ → σ') (old : HdfFile ι σ) (p : PlasmaObj ι σ)
    (hb : Built p.core) (hnd : p.core.species.Nodup) (hemp : "" ∉ p.core.species)
    (sc : σ) (hsc : p.sc = some sc) (aux : Frame ι) (haux : p.aux = some aux)
    (hdis : ∀ c ∈ aux.cols, c ∉ p.core.data.cols) :
    ∃ q, loadPlasma R scSel (savePlasma old p) [] true true true = .ok q ∧
      q.core.species = p.core.species ∧ q.sc = some (scSel sc) ∧
      (∀ c, q.core.data.get c = (p.core.data.get c).map (fun v (i : {i // R i}) => v i.1)) ∧
      (∃ a, q.aux = some a ∧ ∀ c, a.get c = (aux.get c).map (fun v (i : {i // R i}) => v i.1)) := by
  obtain ⟨q, hmk, hs, hget⟩ := load_core R p.core hb hnd hemp
  refine ⟨⟨q, some (scSel sc), some (restrictRows R aux)⟩, ?_, hs, rfl, hget, ⟨_, rfl, fun c => get_restrict R aux c⟩⟩
  unfold loadPlasma savePlasma
  simp only [List.isEmpty_nil, if_true, hsc, haux, Option.some_or]
  rw [hmk]
  simp only []
  unfold attachAux
  rw [if_neg]
  simp only [List.any_eq_true, List.contains_iff_mem, not_exists, not_and, cols_restrict]
  intro c hc hcon
  rw [← get_isSome, hget, Option.isSome_map, get_isSome] at hcon
  exact hdis c hc hcon

/-- C08: without the attachment keys the plasma itself comes back, whatever it had attached and whatever the
file held before, and nothing is attached. -/
theorem C08_save_load_core {σ σ' : Type} (R : ι → Prop) (scSel : σ → σ') (old : HdfFile ι σ) (p : PlasmaObj ι σ)
    (hb : Built p.core) (hnd : p.core.species.Nodup) (hemp : "" ∉ p.core.species) (scid : Bool) :
    ∃ q, loadPlasma R scSel (savePlasma old p) [] false false scid = .ok q ∧
      q.core.species = p.core.species ∧ q.sc = none ∧ q.aux = none ∧
      (∀ c, q.core.data.get c = (p.core.data.get c).map (fun v (i : {i // R i}) => v i.1)) := by
  obtain ⟨q, hmk, hs, hget⟩ := load_core R p.core hb hnd hemp
  refine ⟨⟨q, none, none⟩, ?_, hs, rfl, rfl, hget⟩
  unfold loadPlasma savePlasma
  simp [hmk]

/-- C08: a stored spacecraft needs its name and frame: without them the load is a ValueError. -/
theorem C08_spacecraft_needs_identity {σ σ' : Type} (R : ι → Prop) (scSel : σ → σ') (old : HdfFile ι σ)
    (p : PlasmaObj ι σ) (hb : Built p.core) (hnd : p.core.species.Nodup) (hemp : "" ∉ p.core.species)
    (sc : σ) (hsc : p.sc = some sc) (akey : Bool) :
    loadPlasma R scSel (savePlasma old p) [] true akey false = .error .valueError := by
  obtain ⟨q, hmk, hs, hget⟩ := load_core R p.core hb hnd hemp
  unfold loadPlasma savePlasma
  simp [hmk, hsc]

/-- C91 (violation): a plasma without spacecraft (or without auxiliary data), saved to a fresh file with the
default keys, cannot be loaded with the default keys: KeyError whenever the plasma data themselves load. -/
theorem C91_default_load_needs_attachments {σ σ' : Type} (R : ι → Prop) (scSel : σ → σ') (p : PlasmaObj ι σ)
    (scid : Bool) (sp : List String) (hsc : p.sc = none) :
    ∀ q, loadPlasma R scSel (savePlasma ⟨none, none, none⟩ p) sp true true scid ≠ .ok q := by
  intro q h
  unfold loadPlasma savePlasma at h
  simp only [hsc, Option.none_or, if_true] at h
  split at h <;> cases h

/-- C91, the other attachment. -/
theorem C91_default_load_needs_aux {σ σ' : Type} (R : ι → Prop) (scSel : σ → σ') (p : PlasmaObj ι σ)
    (scid : Bool) (sp : List String) (haux : p.aux = none) :
    ∀ q, loadPlasma R scSel (savePlasma ⟨none, none, none⟩ p) sp true true scid ≠ .ok q := by
  intro q h
  unfold loadPlasma savePlasma at h
  simp only [haux, Option.none_or, if_true] at h
  split at h
  · cases h
  · split at h <;> cases h

/-- C92 (violation): saving over an existing file keeps the attachments of the plasma saved there before: the
auxiliary data in the file are the old ones although the saved plasma has none. -/
theorem C92_save_keeps_stale_aux {σ : Type} (old p : PlasmaObj ι σ) (f : HdfFile ι σ) (hp : p.aux = none) :
    (savePlasma (savePlasma f old) p).aux = (savePlasma f old).aux ∧
    (∀ a, old.aux = some a → (savePlasma (savePlasma f old) p).aux = some a) := by
  unfold savePlasma
  simp only [hp, Option.none_or, true_and]
  intro a ha; simp [ha]

/-- C92 (violation): the same for the spacecraft. -/
theorem C92_save_keeps_stale_spacecraft {σ : Type} (old p : PlasmaObj ι σ) (f : HdfFile ι σ) (hp : p.sc = none)
    (x : σ) (hx : old.sc = some x) : (savePlasma (savePlasma f old) p).sc = some x := by
  unfold savePlasma
  simp [hp, hx]

/-- C92: a load with the default keys then attaches the stale data to the plasma saved last. -/
theorem C92_load_attaches_stale {σ σ' : Type} (R : ι → Prop) (scSel : σ → σ') (f : HdfFile ι σ)
    (old p : PlasmaObj ι σ) (hb : Built p.core) (hnd : p.core.species.Nodup) (hemp : "" ∉ p.core.species)
    (hps : p.sc = none) (hpa : p.aux = none) (x : σ) (hx : old.sc = some x) (a : Frame ι) (ha : old.aux = some a)
    (hdis : ∀ c ∈ a.cols, c ∉ p.core.data.cols) :
    ∃ q, loadPlasma R scSel (savePlasma (savePlasma f old) p) [] true true true = .ok q ∧
      q.core.species = p.core.species ∧ q.sc = some (scSel x) ∧ q.aux = some (restrictRows R a) := by
  obtain ⟨q, hmk, hs, hget⟩ := load_core R p.core hb hnd hemp
  refine ⟨⟨q, some (scSel x), some (restrictRows R a)⟩, ?_, hs, rfl, rfl⟩
  unfold loadPlasma savePlasma
  simp only [List.isEmpty_nil, if_true, hps, hpa, hx, ha, Option.some_or, Option.none_or]
  rw [hmk]
  simp only []
  unfold attachAux
  rw [if_neg]
  simp only [List.any_eq_true, List.contains_iff_mem, not_exists, not_and, cols_restrict]
  intro c hc hcon
  rw [← get_isSome, hget, Option.isSome_map, get_isSome] at hcon
  exact hdis c hc hcon

example : ∃ p : PlasmaObj Bool Unit, Built p.core ∧ p.core.species.Nodup ∧ "" ∉ p.core.species ∧
    p.sc = some () ∧ ∃ a, p.aux = some a ∧ a.cols = [⟨"chi", "", "a"⟩] ∧ ∀ c ∈ a.cols, c ∉ p.core.data.cols := by
  obtain ⟨p, hp, hs⟩ := exFrame_mk
  refine ⟨⟨p, some (), some [(⟨"chi", "", "a"⟩, fun _ => .fin 1)]⟩,
    ⟨exFrame, ["p1", "a"], by decide, hp⟩, by rw [hs]; decide, by rw [hs]; decide, rfl, _, rfl, rfl, ?_⟩
  intro c hc
  have : c = ⟨"chi", "", "a"⟩ := by simpa [cols] using hc
  subst this
  rw [← get_eq_none]
  have h5 := (C05_stored_columns exFrame ["p1", "a"] (by simp) (by decide) (by decide) p hp).2 ⟨"chi", "", "a"⟩
  have := h5.2 (by decide)
  rw [← Option.not_isSome_iff_eq_none, this]
  rintro ⟨h, -⟩; revert h; decide

/-! ## C09 -/

/-- C09: `set_auxiliary_data` succeeds iff the argument is None or a frame with a datetime index equal to the
plasma's, the right level names and no label the plasma already has. -/
theorem C09_aux_accepted (st : AttachState) (a : AttachArg) :
    (setAux st a).1 = .ok () ↔
      a = .none ∨ ∃ cols, a = .frame true st.idx true cols ∧ ∀ c ∈ cols, c ∉ st.cols := by
  cases a with
  | none => simp [setAux]
  | notFrame => simp [setAux]
  | frame dt idx names cols =>
    simp only [setAux]
    have key : cols.any (fun c => st.cols.contains c) = true ↔ ¬ ∀ c ∈ cols, c ∉ st.cols := by
      simp
    by_cases h2 : ∀ c ∈ cols, c ∉ st.cols
    · rw [if_neg (show ¬ cols.any (fun c => st.cols.contains c) = true from fun h => key.mp h h2)]
      cases dt <;> cases names <;> by_cases h1 : idx = st.idx <;> simp [h1]
      exact h2
    · rw [if_pos (key.mpr h2)]
      cases dt <;> cases names <;> by_cases h1 : idx = st.idx <;> simp [h1]
      simpa using h2

/-- C09: the same for `set_spacecraft`, which does not compare labels. -/
theorem C09_sc_accepted (st : AttachState) (a : AttachArg) :
    (setSc st a).1 = .ok () ↔ a = .none ∨ ∃ cols, a = .frame true st.idx true cols := by
  cases a with
  | none => simp [setSc]
  | notFrame => simp [setSc]
  | frame dt idx names cols =>
    simp only [setSc]
    cases dt <;> cases names <;> by_cases h1 : idx = st.idx <;> simp [h1]

/-- C09: a success stores exactly the argument, a failure leaves the whole state untouched. -/
theorem C09_atomic (st : AttachState) (a : AttachArg) :
    ((setAux st a).1 = .ok () → (setAux st a).2 = { st with aux := a }) ∧
    (∀ e, (setAux st a).1 = .error e → (setAux st a).2 = st) ∧
    ((setSc st a).1 = .ok () → (setSc st a).2 = { st with sc := a }) ∧
    (∀ e, (setSc st a).1 = .error e → (setSc st a).2 = st) := by
  cases a with
  | none => simp [setAux, setSc]
  | notFrame => simp [setAux, setSc]
  | frame dt idx names cols =>
    refine ⟨?_, ?_, ?_, ?_⟩ <;> simp only [setAux, setSc] <;> (repeat' split) <;> simp

/-- A history of attach calls. -/
inductive AttachOp where
  | aux (a : AttachArg)
  | sc (a : AttachArg)

def runAttach (st : AttachState) : List AttachOp → AttachState
  | [] => st
  | .aux a :: l => runAttach (setAux st a).2 l
  | .sc a :: l => runAttach (setSc st a).2 l

/-- What a plasma may have attached: nothing, or a frame on its own index without duplicate labels. -/
def AttachInv (st : AttachState) : Prop :=
  (st.aux = .none ∨ ∃ cols, st.aux = .frame true st.idx true cols ∧ ∀ c ∈ cols, c ∉ st.cols) ∧
  (st.sc = .none ∨ ∃ cols, st.sc = .frame true st.idx true cols)

/-- C09: over every history of attach calls the plasma's own data never change and whatever is attached fits
the plasma. -/
theorem C09_history (st : AttachState) (h : AttachInv st) (l : List AttachOp) :
    AttachInv (runAttach st l) ∧ (runAttach st l).idx = st.idx ∧ (runAttach st l).cols = st.cols := by
  induction l generalizing st with
  | nil => exact ⟨h, rfl, rfl⟩
  | cons o l ih =>
    cases o with
    | aux a =>
      have hstep : AttachInv (setAux st a).2 ∧ (setAux st a).2.idx = st.idx ∧ (setAux st a).2.cols = st.cols := by
        cases hr : (setAux st a).1 with
        | error e => rw [(C09_atomic st a).2.1 e hr]; exact ⟨h, rfl, rfl⟩
        | ok u =>
          rw [(C09_atomic st a).1 hr]
          refine ⟨⟨?_, h.2⟩, rfl, rfl⟩
          have := (C09_aux_accepted st a).mp hr
          simpa using this
      obtain ⟨i1, i2, i3⟩ := ih _ hstep.1
      exact ⟨i1, i2.trans hstep.2.1, i3.trans hstep.2.2⟩
    | sc a =>
      have hstep : AttachInv (setSc st a).2 ∧ (setSc st a).2.idx = st.idx ∧ (setSc st a).2.cols = st.cols := by
        cases hr : (setSc st a).1 with
        | error e => rw [(C09_atomic st a).2.2.2 e hr]; exact ⟨h, rfl, rfl⟩
        | ok u =>
          rw [(C09_atomic st a).2.2.1 hr]
          refine ⟨⟨h.1, ?_⟩, rfl, rfl⟩
          have := (C09_sc_accepted st a).mp hr
          simpa using this
      obtain ⟨i1, i2, i3⟩ := ih _ hstep.1
      exact ⟨i1, i2.trans hstep.2.1, i3.trans hstep.2.2⟩

example : AttachInv ⟨[1, 2], [⟨"n", "", "a"⟩], .none, .frame true [1, 2] true [⟨"chi", "", "a"⟩]⟩ :=
  ⟨Or.inr ⟨_, rfl, by decide⟩, Or.inl rfl⟩

end SW
